import Verif.Lemmas.Replicate
import Verif.Py.KernelRfl
/-!
# C127: replicating files
-/

namespace Verif

open Spec

theorem node_none_iff {d : LDisk} {p : Path} : d.node p = none ↔ dget d.names p = none := by
  simp [LDisk.node]

theorem node_file {d : LDisk} {p : Path} {s : Str} (h : d.node p = some (.file s)) :
    ∃ i, dget d.names p = some (.file i) ∧ d.data i = s := by
  unfold LDisk.node at h
  cases hg : dget d.names p with
  | none => rw [hg] at h; cases h
  | some n =>
    rw [hg] at h
    cases n with
    | dir => cases h
    | file i =>
      refine ⟨i, rfl, ?_⟩
      simp only [Option.map_some, LNode.view, Option.some.injEq, Node.file.injEq] at h
      exact h

/-! ## A disk for the examples -/

theorem wayFree_of {d : LDisk} {c : RepCall} (h : d.isdir c.dest = true)
    (h2 : ∀ n, n < c.path.length → d.exists (c.dest ++ c.path.take n) = true → d.isdir (c.dest ++ c.path.take n) = true) :
    WayFree d c := by
  refine ⟨h, fun x y e hy he => ?_⟩
  have hx : c.path.take x.length = x := by rw [e]; simp
  have hl : x.length < c.path.length := by
    rw [e]
    have := List.length_pos_iff.2 hy
    simp; omega
  have := h2 x.length hl
  rw [hx] at this
  exact this he

theorem dget_mem_some {K V : Type} [DecidableEq K] {l : List (K × V)} {k : K} {v : V} (h : dget l k = some v) : (k, v) ∈ l := by
  induction l with
  | nil => cases h
  | cons x l ih =>
    unfold dget at h
    split at h
    · rename_i hx
      injection h with h
      subst h; subst hx
      simp
    · simp [ih h]

/-- Two bags, with different contents at the same path, and an empty directory `d`. -/
private def twoBags : LDisk :=
  { names := [([py!"a"], .dir), ([py!"a", py!"data"], .dir), ([py!"a", py!"data", py!"x"], .file 0),
              ([py!"b"], .dir), ([py!"b", py!"data"], .dir), ([py!"b", py!"data", py!"x"], .file 1),
              ([py!"d"], .dir)]
    data := fun i => if i = 0 then py!"first" else py!"second"
    next := 2 }

private theorem twoBags_ok : InodesOk twoBags := by
  intro p i h
  have := dget_mem_some h
  simp [twoBags] at this
  rcases this with e | e <;> simp [e.2, twoBags]

private theorem twoBags_unshared : Unshared twoBags := by
  intro p q i h h'
  have := dget_mem_some h
  have := dget_mem_some h'
  simp [twoBags] at *
  rcases ‹_ ∨ _› with e | e <;> rcases ‹_ ∨ _› with e' | e' <;> simp_all

private def fromA (path : Path) (logger canLink : Bool) : RepCall :=
  ⟨[py!"a"], .writable true, path, [py!"d"], logger, canLink⟩
private def fromB (how : Opened) (path : Path) : RepCall := ⟨[py!"b"], how, path, [py!"d"], false, true⟩

private theorem fromA_way (l k : Bool) : WayFree twoBags (fromA [py!"data", py!"x"] l k) := by
  refine wayFree_of (by cases l <;> cases k <;> decide) (fun n hn => ?_)
  have : n = 0 ∨ n = 1 := by simp only [fromA, List.length_cons, List.length_nil] at hn; omega
  rcases this with rfl | rfl <;> cases l <;> cases k <;> decide

/-- **C127** Replicating any files and directories of any bags, with hard links or not, changes nothing that was there
before, neither in the bags nor elsewhere, and adds names only below the destination directories -- *if* nothing is at
the place that a call fills when it is made.


Missing: places that are filled twice (`C127_negation_links`). -/
theorem C127_fresh_partial {d : LDisk} (h : InodesOk d) {calls : List RepCall} (hp : ∀ c ∈ calls, c.path ≠ [])
    (hf : PlacesFree d calls) :
    (∀ p, d.node p ≠ none → (d.replicates calls).node p = d.node p) ∧
    (∀ p, d.node p = none → (d.replicates calls).node p ≠ none → ∃ c ∈ calls, p ≠ c.dest ∧ Inside c.dest p) := by
  induction calls generalizing d with
  | nil => exact ⟨fun _ _ => rfl, fun p h h' => absurd h h'⟩
  | cons c calls ih =>
    have st := repStep_replicate h (hp c (by simp))
    obtain ⟨i1, i2⟩ := ih st.ok (fun c hc => hp c (by simp [hc])) hf.2
    have same : ∀ p, d.node p ≠ none → (d.replicate c).2.node p = d.node p := by
      intro p hne
      cases hg : dget d.names p with
      | none => exact absurd (node_none_iff.2 hg) hne
      | some n =>
        exact node_of_step st.grown.keep hg (fun i e => st.fresh hf.1 i (h p i (e ▸ hg)))
    refine ⟨fun p hne => ?_, fun p hn hne => ?_⟩
    · rw [LDisk.replicates, i1 p (by rw [same p hne]; exact hne), same p hne]
    · by_cases hm : (d.replicate c).2.node p = none
      · obtain ⟨c', hc', hin⟩ := i2 p hm hne
        exact ⟨c', by simp [hc'], hin⟩
      · obtain ⟨x, hx, e⟩ := st.grown.new p (node_none_iff.1 hn) (fun e => hm (node_none_iff.2 e))
        exact ⟨c, by simp, by rw [e]; simp [hx], e ▸ List.prefix_append _ _⟩

/-- A file is linked into `d`, a file that is not there asked for, and a file of the one bag linked into the other. -/
example : let calls := [fromA [py!"data", py!"x"] false true, fromB .readOnly [py!"data", py!"y"],
      ⟨[py!"b"], .writable true, [py!"data", py!"x"], [py!"a", py!"data"], true, true⟩]
    InodesOk twoBags ∧ PlacesFree twoBags calls ∧ (∀ c ∈ calls, c.path ≠ []) ∧
    (twoBags.replicates calls).node [py!"a", py!"data", py!"data", py!"x"] = some (.file py!"second") := by
  intro calls
  exact ⟨twoBags_ok, ⟨by unfold PlaceFree; decide, by unfold PlaceFree; decide, by unfold PlaceFree; decide, trivial⟩, by decide,
    by kernel_rfl⟩

/-- **C127** If no call makes hard links, and there are none on the disk, places may be filled again: outside of the
destination directories nothing changes.


Missing: hard links, for which see `C127_fresh_partial` and `C127_negation_links`. -/
theorem C127_copies_partial {d : LDisk} (h : InodesOk d) (hu : Unshared d) {calls : List RepCall}
    (hp : ∀ c ∈ calls, c.path ≠ []) (hc : ∀ c ∈ calls, Copies c) {p : Path} (ho : ∀ c ∈ calls, ¬ Inside c.dest p) :
    (d.replicates calls).node p = d.node p := by
  induction calls generalizing d with
  | nil => rfl
  | cons c calls ih =>
    have st := repStep_replicate h (hp c (by simp))
    have hcc := hc c (by simp)
    rw [LDisk.replicates, ih st.ok (st.unshared hcc hu) (fun c hx => hp c (by simp [hx])) (fun c hx => hc c (by simp [hx]))
      (fun c hx => ho c (by simp [hx]))]
    have hout := ho c (by simp)
    cases hg : dget d.names p with
    | none =>
      rw [node_none_iff.2 hg, node_none_iff]
      refine Classical.byContradiction (fun hne => ?_)
      obtain ⟨x, _, e⟩ := st.grown.new p hg hne
      exact hout (e ▸ List.prefix_append _ _)
    | some n =>
      refine node_of_step st.grown.keep hg (fun i e => ?_)
      subst e
      refine Classical.byContradiction (fun hne => ?_)
      obtain ⟨x, _, hx⟩ := st.data i (h p i hg) hne
      have := hu p _ i hg hx
      exact hout (this ▸ List.prefix_append _ _)

/-- The file is replicated twice into `d`, from both bags. -/
example : (twoBags.replicates [fromA [py!"data", py!"x"] false false, fromB .readOnly [py!"data", py!"x"]]).node
      [py!"a", py!"data", py!"x"] = some (.file py!"first") ∧
    (twoBags.replicates [fromA [py!"data", py!"x"] false false, fromB .readOnly [py!"data", py!"x"]]).node
      [py!"d", py!"data", py!"x"] = some (.file py!"second") := by
  refine ⟨?_, by kernel_rfl⟩
  refine (C127_copies_partial twoBags_ok twoBags_unshared (by decide) ?_ ?_).trans (by kernel_rfl)
  · intro c hc
    simp only [List.mem_cons, List.not_mem_nil, or_false] at hc
    rcases hc with rfl | rfl
    · exact .inr rfl
    · exact .inl (by decide)
  · intro c hc
    simp only [List.mem_cons, List.not_mem_nil, or_false] at hc
    rcases hc with rfl | rfl <;> unfold Inside <;> decide

/-! ## What a call delivers -/

/-- The parent directory is made where no file is in the way. -/
theorem prepared {d : LDisk} {c : RepCall} (hp : c.path ≠ []) (hw : WayFree d c) :
    ∃ d1, (if d.exists (c.dest ++ c.path.dropLast) then .ok d else d.makedirs c.dest c.path.dropLast) = .ok d1 ∧
      d1.isdir (c.dest ++ c.path.dropLast) = true ∧ Grown c.dest d.names d1.names ∧ d1.data = d.data ∧
      (∀ q, dget d1.names q = some (.dir) → dget d.names q = some .dir ∨ q <+: c.dest ++ c.path.dropLast) ∧
      dget d1.names (c.dest ++ c.path) = dget d.names (c.dest ++ c.path) := by
  have epath : c.path = c.path.dropLast ++ [c.path.getLast hp] := (List.dropLast_concat_getLast hp).symm
  by_cases he : d.exists (c.dest ++ c.path.dropLast) = true
  · rw [if_pos he]
    exact ⟨d, rfl, hw.2 _ _ epath (by simp) he, grown_refl _ _, rfl, fun _ h => .inl h, rfl⟩
  · rw [if_neg he]
    have hne : c.path.dropLast ≠ [] := by
      intro e
      rw [e, List.append_nil] at he
      rcases ldisk_isdir_iff.1 hw.1 with h | h
      · simp [LDisk.exists, h] at he
      · simp [LDisk.exists, h] at he
    obtain ⟨t, ht⟩ := lmakedirs_total (t := d.names) (pre := c.dest) (rest := c.path.dropLast)
      (ldisk_isdir_iff.1 hw.1) (by
        intro x y e hx
        cases hg : dget d.names (c.dest ++ x) with
        | none => exact .inl rfl
        | some n =>
          right
          have := hw.2 x (y ++ [c.path.getLast hp]) (by rw [← List.append_assoc, ← e]; exact epath) (by simp)
            (by simp [LDisk.exists, hg])
          rcases ldisk_isdir_iff.1 this with e | e
          · simp [hx] at e
          · rw [hg] at e; exact e)
    have hm : d.makedirs c.dest c.path.dropLast = .ok { d with names := t } := by
      unfold LDisk.makedirs; rw [ht]
    have hlong : ¬ c.dest ++ c.path <+: c.dest ++ c.path.dropLast := by
      intro hh
      have := hh.length_le
      have := List.length_pos_iff.2 hp
      simp at *; omega
    obtain ⟨g, f, e⟩ := lmakedirs_ok (makedirs_names hm).1
    refine ⟨_, hm, ?_, g, rfl, fun q hq => ?_, ?_⟩
    · rw [ldisk_isdir_iff]; right
      have := e hne
      rwa [List.append_nil] at this
    · cases hg : dget d.names q with
      | none =>
        right
        refine Classical.byContradiction (fun hn => ?_)
        rw [show dget _ q = none from lmakedirs_way ht hg hn] at hq
        cases hq
      | some n => left; rw [g.keep q n hg] at hq; exact hq
    · cases hg : dget d.names (c.dest ++ c.path) with
      | none => exact lmakedirs_way ht hg hlong
      | some n => exact g.keep _ _ hg

theorem write_read {d d' : LDisk} {p : Path} {s : Str} (h : d.write p s = .ok d') : d'.node p = some (.file s) := by
  unfold LDisk.write at h
  split at h
  · cases h
  · split at h
    · rename_i i hi
      injection h with h
      subst h
      simp [LDisk.node, hi, LNode.view]
    · injection h with h
      subst h
      simp [LDisk.node, dget_dset, LNode.view]

theorem lwrite_total {d : LDisk} {p : Path} (h1 : d.isdir p = false) (h2 : d.isdir p.dropLast = true) (s : Str) :
    ∃ d', d.write p s = .ok d' := by
  unfold LDisk.write
  rw [if_neg (by simp [h1, h2])]
  split <;> exact ⟨_, rfl⟩

theorem dropLast_dest {c : RepCall} (hp : c.path ≠ []) : (c.dest ++ c.path).dropLast = c.dest ++ c.path.dropLast :=
  List.dropLast_append_of_ne_nil hp

/-- **C127** A file is replicated, whether it is a link or a copy and whether or not a file was at the place before, if
no file is on the way to the place and no directory at it, and -- for writable bags with a logger -- if the file can be
linked.  Parent directories are made.
Missing: a logger, a file on the way or a directory at the place, for which see the negations. -/
theorem C127_delivers_partial {d : LDisk} {c : RepCall} (hp : c.path ≠ []) (hw : WayFree d c)
    (hd : d.isdir (c.dest ++ c.path) = false) {s : Str} (hs : d.node (c.bag ++ c.path) = some (.file s))
    (hl : c.logger = false ∨ c.how = .readOnly ∨ (c.how = .writable true ∧ c.canLink = true ∧ PlaceFree d c)) :
    (d.replicate c).1 = .ok () ∧ (d.replicate c).2.node (c.dest ++ c.path) = some (.file s) := by
  obtain ⟨i, hi, his⟩ := node_file hs
  obtain ⟨d1, h1, hpar, g, hdata, hdir, hsame⟩ := prepared hp hw
  have hne : c.bag ++ c.path ≠ [] := by simp [hp]
  have hne2 : c.dest ++ c.path ≠ [] := by simp [hp]
  have hi1 := g.keep _ _ hi
  have hd1 : d1.isdir (c.dest ++ c.path) = false := by
    unfold LDisk.isdir at hd ⊢
    rw [hsame]; exact hd
  have hpar' : d1.isdir (c.dest ++ c.path).dropLast = true := by rw [dropLast_dest hp]; exact hpar
  have hcopy : c.logger = false → (d1.copyOrForget c).1 = .ok () ∧
      (d1.copyOrForget c).2.node (c.dest ++ c.path) = some (.file s) := by
    intro hlog
    unfold LDisk.copyOrForget LDisk.copy
    simp only [hd1, Bool.false_eq_true, if_false, hi1]
    by_cases hsm : dget d1.names (c.dest ++ c.path) = some (.file i)
    · rw [if_pos hsm]
      simp only [hlog, Bool.false_eq_true, if_false]
      refine ⟨trivial, ?_⟩
      simp [LDisk.node, hsm, LNode.view, hdata, his]
    · rw [if_neg hsm]
      obtain ⟨d2, h2⟩ := lwrite_total hd1 hpar' (d1.data i)
      rw [h2]
      refine ⟨rfl, ?_⟩
      rw [write_read h2, hdata, his]
  have e1 : d.exists (c.bag ++ c.path) = true := by simp [LDisk.exists, hi]
  have e2 : d.isdir (c.bag ++ c.path) = false := by simp only [LDisk.isdir, hi]; simp [hp]
  unfold LDisk.replicate
  simp only [e1, e2, Bool.not_true, Bool.false_eq_true, if_false, h1]
  cases hh : c.how with
  | readOnly =>
    simp only
    unfold LDisk.copyFile
    rw [hi1]
    obtain ⟨d2, h2⟩ := lwrite_total hd1 hpar' (d1.data i)
    simp only [h2]
    refine ⟨trivial, ?_⟩
    rw [write_read h2, hdata, his]
  | writable l =>
    simp only
    unfold LDisk.linkOrCopy
    cases l with
    | false =>
      simp only [Bool.false_eq_true, if_false]
      refine hcopy ?_
      rcases hl with e | e | e
      · exact e
      · rw [hh] at e; cases e
      · rw [hh] at e; exact absurd e.1 (by simp)
    | true =>
      simp only [if_true, hi1]
      split
      · refine ⟨rfl, ?_⟩
        simp [LDisk.node, dget_dset, LNode.view, hdata, his]
      · rename_i hc
        have hlog : c.logger = false := by
          rcases hl with e | e | e
          · exact e
          · rw [hh] at e; cases e
          · exfalso
            apply hc
            have := ldisk_exists_false.1 e.2.2
            have h3 : d1.exists (c.dest ++ c.path) = false := ldisk_exists_false.2 ⟨hne2, by rw [hsame]; exact this.2⟩
            simp [e.2.1, h3, hpar']
        simp only [hlog, Bool.false_eq_true, if_false]
        exact hcopy hlog

example : (twoBags.replicate (fromA [py!"data", py!"x"] true true)).2.node [py!"d", py!"data", py!"x"] =
    some (.file py!"first") :=
  (C127_delivers_partial (c := fromA [py!"data", py!"x"] true true) (by decide) (fromA_way _ _) (by decide)
    (s := py!"first") (by kernel_rfl) (.inr (.inr ⟨rfl, rfl, by unfold PlaceFree; decide⟩))).2

/-- **C127** A path that is not in the bag is a ValueError, and nothing changes. -/
theorem C127_missing {d : LDisk} {c : RepCall} (hp : c.path ≠ []) (hn : d.node (c.bag ++ c.path) = none) :
    d.replicate c = (.error .valueError, d) := by
  have e : d.exists (c.bag ++ c.path) = false := ldisk_exists_false.2 ⟨by simp [hp], node_none_iff.1 hn⟩
  unfold LDisk.replicate
  simp [e]

example : twoBags.replicate (fromA [py!"y"] true true) = (.error .valueError, twoBags) :=
  C127_missing (by decide) (by kernel_rfl)

/-- **C127** A directory of the bag is made where nothing is in the way, without what is in it: no file appears. -/
theorem C127_directory {d : LDisk} {c : RepCall} (hp : c.path ≠ []) (hw : WayFree d c) (hf : PlaceFree d c)
    (hs : d.node (c.bag ++ c.path) = some .dir) :
    (d.replicate c).1 = .ok () ∧ (d.replicate c).2.node (c.dest ++ c.path) = some .dir ∧
    ∀ p s, (d.replicate c).2.node p = some (.file s) ↔ d.node p = some (.file s) := by
  have hs' : dget d.names (c.bag ++ c.path) = some .dir := by
    unfold LDisk.node at hs
    cases hg : dget d.names (c.bag ++ c.path) with
    | none => rw [hg] at hs; cases hs
    | some n => cases n with
      | dir => rfl
      | file j => rw [hg] at hs; cases hs
  have hfn := ldisk_exists_false.1 hf
  have e1 : d.exists (c.bag ++ c.path) = true := by simp [LDisk.exists, hs']
  have e2 : d.isdir (c.bag ++ c.path) = true := by simp [LDisk.isdir, hs']
  have e3 : d.isdir (c.dest ++ c.path) = false := by simp only [LDisk.isdir, hfn.2]; simp [hp]
  obtain ⟨t, ht⟩ := lmakedirs_total (t := d.names) (pre := c.dest) (rest := c.path)
    (ldisk_isdir_iff.1 hw.1) (by
      intro x y e hx
      cases hg : dget d.names (c.dest ++ x) with
      | none => exact .inl rfl
      | some n =>
        right
        by_cases hy : y = []
        · subst hy
          rw [List.append_nil] at e
          rw [← e, hfn.2] at hg
          cases hg
        · rcases ldisk_isdir_iff.1 (hw.2 x y e hy (by simp [LDisk.exists, hg])) with e | e
          · simp [hx] at e
          · rw [hg] at e; exact e)
  obtain ⟨g, f, e⟩ := lmakedirs_ok (pre := []) (dest := c.dest) (by rw [List.append_nil]; exact ht)
  have hr : d.replicate c = (.ok (), { d with names := t }) := by
    unfold LDisk.replicate
    simp only [e1, e2, e3, Bool.not_true, Bool.false_eq_true, if_false, if_true, LDisk.makedirs, ht]
  rw [hr]
  refine ⟨rfl, ?_, fun p s => ?_⟩
  · have := e hp
    rw [List.append_nil] at this
    simp only [LDisk.node]
    rw [this]; rfl
  · constructor
    · intro h
      obtain ⟨i, hi, his⟩ := node_file h
      simp only [LDisk.node]
      rw [f p i hi]
      simp only [Option.map_some, LNode.view]
      rw [← his]
    · intro h
      obtain ⟨i, hi, his⟩ := node_file h
      simp only [LDisk.node]
      rw [g.keep p _ hi]
      simp only [Option.map_some, LNode.view]
      rw [← his]

example : (twoBags.replicate (fromA [py!"data"] true true)).2.node [py!"d", py!"data"] = some .dir := by
  refine (C127_directory (c := fromA [py!"data"] true true) (by decide) (wayFree_of (by decide) (fun n hn => ?_))
    (by unfold PlaceFree; decide) (by kernel_rfl)).2.1
  have : n = 0 := by simp only [fromA, List.length_cons, List.length_nil] at hn; omega
  subst this; decide

/-! ## What goes wrong -/

/-- **C127** is false: replicating the same path from two bags, the first of them writable and with hard links (the
default), into one directory gives the file *of the first bag* the contents of the file of the second.  The copy that
is made when the link fails is written into the first bag's file. -/
theorem C127_negation_links {d : LDisk} {A B dest path : Path} (how : Opened) (hp : path ≠ []) {a b : Str}
    (ha : d.node (A ++ path) = some (.file a)) (hb : d.node (B ++ path) = some (.file b)) (hab : a ≠ b)
    (hw : WayFree d ⟨A, .writable true, path, dest, false, true⟩)
    (hf : PlaceFree d ⟨A, .writable true, path, dest, false, true⟩) :
    (d.replicates [⟨A, .writable true, path, dest, false, true⟩, ⟨B, how, path, dest, false, true⟩]).node (A ++ path) =
      some (.file b) := by
  obtain ⟨i, hi, hia⟩ := node_file ha
  obtain ⟨j, hj, hjb⟩ := node_file hb
  have hij : i ≠ j := by rintro rfl; exact hab (hia.symm.trans hjb)
  obtain ⟨d1, h1, hpar, g, hdata, hdir, hsame⟩ := prepared hp hw
  simp only at h1 hpar g hsame hdir
  have hfn := ldisk_exists_false.1 hf
  simp only at hfn
  have step1 : (d.replicate ⟨A, .writable true, path, dest, false, true⟩).2 =
      { d1 with names := dset d1.names (dest ++ path) (.file i) } := by
    have e1 : d.exists (A ++ path) = true := by simp [LDisk.exists, hi]
    have e2 : d.isdir (A ++ path) = false := by simp only [LDisk.isdir, hi]; simp [hp]
    have h3 : d1.exists (dest ++ path) = false := ldisk_exists_false.2 ⟨hfn.1, by rw [hsame]; exact hfn.2⟩
    unfold LDisk.replicate
    simp only [e1, e2, Bool.not_true, Bool.false_eq_true, if_false, h1]
    unfold LDisk.linkOrCopy
    simp only [if_true, g.keep _ _ hi, h3, List.dropLast_append_of_ne_nil hp, hpar, Bool.not_false, Bool.and_true]
  have hAne : dest ++ path ≠ A ++ path := by intro e; rw [e, hi] at hfn; cases hfn.2
  have hBne : dest ++ path ≠ B ++ path := by intro e; rw [e, hj] at hfn; cases hfn.2
  have hlen : dest ++ path ≠ dest ++ path.dropLast := by
    intro e
    have := congrArg List.length e
    have := List.length_pos_iff.2 hp
    simp at *; omega
  rw [LDisk.replicates, LDisk.replicates, LDisk.replicates, step1]
  generalize hd2 : ({ d1 with names := dset d1.names (dest ++ path) (.file i) } : LDisk) = d2
  have n1 : dget d2.names (B ++ path) = some (.file j) := by
    rw [← hd2, dget_dset, if_neg hBne]; exact g.keep _ _ hj
  have n2 : dget d2.names (A ++ path) = some (.file i) := by
    rw [← hd2, dget_dset, if_neg hAne]; exact g.keep _ _ hi
  have n3 : dget d2.names (dest ++ path) = some (.file i) := by rw [← hd2, dget_dset, if_pos rfl]
  have n4 : d2.isdir (dest ++ path.dropLast) = true := by
    rw [ldisk_isdir_iff] at hpar ⊢
    rcases hpar with e | e
    · exact .inl e
    · right; rw [← hd2, dget_dset, if_neg hlen, e]
  have n4' : d2.exists (dest ++ path.dropLast) = true := by
    rcases ldisk_isdir_iff.1 n4 with e | e
    · simp [LDisk.exists, e]
    · simp [LDisk.exists, e]
  have n5 : d2.isdir (dest ++ path) = false := by simp only [LDisk.isdir, n3]; simp [hp]
  have n6 : d2.exists (dest ++ path) = true := by simp [LDisk.exists, n3]
  have dj : d2.data j = b := by rw [← hd2]; simp only [hdata]; exact hjb
  have e1 : d2.exists (B ++ path) = true := by simp [LDisk.exists, n1]
  have e2 : d2.isdir (B ++ path) = false := by simp only [LDisk.isdir, n1]; simp [hp]
  have hwr : d2.write (dest ++ path) (d2.data j) =
      .ok { d2 with data := fun k => if k = i then d2.data j else d2.data k } := by
    unfold LDisk.write
    rw [if_neg (by rw [List.dropLast_append_of_ne_nil hp]; simp [n5, n4])]
    simp only [n3]
  have hcopy : (d2.copyOrForget ⟨B, how, path, dest, false, true⟩).2 =
      { d2 with data := fun k => if k = i then d2.data j else d2.data k } := by
    unfold LDisk.copyOrForget LDisk.copy
    simp only [n5, Bool.false_eq_true, if_false, n1, n3, Option.some.injEq, LNode.file.injEq, hij, hwr]
  have step2 : (d2.replicate ⟨B, how, path, dest, false, true⟩).2 =
      { d2 with data := fun k => if k = i then d2.data j else d2.data k } := by
    unfold LDisk.replicate
    simp only [e1, e2, Bool.not_true, Bool.false_eq_true, if_false, n4', if_true]
    cases how with
    | readOnly => simp only [LDisk.copyFile, n1, hwr]
    | writable l =>
      cases l with
      | false => simp only [LDisk.linkOrCopy, Bool.false_eq_true, if_false]; exact hcopy
      | true =>
        simp only [LDisk.linkOrCopy, if_true, n1, n6, Bool.not_true, Bool.and_false, Bool.false_and, Bool.false_eq_true,
          if_false]
        exact hcopy
  rw [step2]
  simp [LDisk.node, n2, LNode.view, dj]

example (how : Opened) :
    (twoBags.replicates [fromA [py!"data", py!"x"] false true, fromB how [py!"data", py!"x"]]).node
      [py!"a", py!"data", py!"x"] = some (.file py!"second") :=
  C127_negation_links (A := [py!"a"]) (B := [py!"b"]) how (by decide) (a := py!"first") (by kernel_rfl) (by kernel_rfl) (by decide)
    (fromA_way _ _) (by unfold PlaceFree; decide)

/-- **C127** is false with a logger: where links cannot be made, a file is copied without a logger, but with one the
call ends with an AttributeError, and there is no file. -/
theorem C127_negation_logger {d : LDisk} {bag dest path : Path} (hp : path ≠ []) {s : Str}
    (hs : d.node (bag ++ path) = some (.file s)) (hw : WayFree d ⟨bag, .writable true, path, dest, true, false⟩)
    (hf : PlaceFree d ⟨bag, .writable true, path, dest, true, false⟩) :
    (d.replicate ⟨bag, .writable true, path, dest, true, false⟩).1 = .error .attributeError ∧
    (d.replicate ⟨bag, .writable true, path, dest, true, false⟩).2.node (dest ++ path) = none ∧
    (d.replicate ⟨bag, .writable true, path, dest, false, false⟩).1 = .ok () ∧
    (d.replicate ⟨bag, .writable true, path, dest, false, false⟩).2.node (dest ++ path) = some (.file s) := by
  have hfn := ldisk_exists_false.1 hf
  simp only at hfn
  have hd : d.isdir (dest ++ path) = false := by simp only [LDisk.isdir, hfn.2]; simp [hp]
  have second := C127_delivers_partial (c := ⟨bag, .writable true, path, dest, false, false⟩) hp hw hd hs (.inl rfl)
  refine ⟨?_, ?_, second⟩
  all_goals
    obtain ⟨i, hi, his⟩ := node_file hs
    obtain ⟨d1, h1, hpar, g, hdata, hdir, hsame⟩ := prepared hp hw
    simp only at h1 hsame
    have e1 : d.exists (bag ++ path) = true := by simp [LDisk.exists, hi]
    have e2 : d.isdir (bag ++ path) = false := by simp only [LDisk.isdir, hi]; simp [hp]
    unfold LDisk.replicate
    simp only [e1, e2, Bool.not_true, Bool.false_eq_true, if_false, h1]
    unfold LDisk.linkOrCopy
    simp only [if_true, g.keep _ _ hi, Bool.false_and, Bool.false_eq_true, if_false]
  rw [node_none_iff, hsame]
  exact hfn.2

example : (twoBags.replicate (fromA [py!"data", py!"x"] true false)).1 = .error .attributeError :=
  (C127_negation_logger (bag := [py!"a"]) (dest := [py!"d"]) (by decide) (s := py!"first") (by kernel_rfl)
    (fromA_way _ _) (by unfold PlaceFree; decide)).1

/-- **C127** is false where a file is in the place of the parent directory: a writable bag's call returns as if it had
worked, and nothing has changed. -/
theorem C127_negation_silent {d : LDisk} {c : RepCall} (hp : c.path ≠ []) {s : Str}
    (hs : d.node (c.bag ++ c.path) = some (.file s)) (hne : c.dest ++ c.path.dropLast ≠ []) {s' : Str}
    (hb : d.node (c.dest ++ c.path.dropLast) = some (.file s')) (hn : d.node (c.dest ++ c.path) = none)
    (hl : c.logger = false) (hh : c.how ≠ .readOnly) : d.replicate c = (.ok (), d) := by
  obtain ⟨i, hi, his⟩ := node_file hs
  obtain ⟨j, hj, _⟩ := node_file hb
  have hn' := node_none_iff.1 hn
  have e1 : d.exists (c.bag ++ c.path) = true := by simp [LDisk.exists, hi]
  have e2 : d.isdir (c.bag ++ c.path) = false := by simp only [LDisk.isdir, hi]; simp [hp]
  have e3 : d.exists (c.dest ++ c.path.dropLast) = true := by simp [LDisk.exists, hj]
  have e4 : d.isdir (c.dest ++ c.path.dropLast) = false := by
    unfold LDisk.isdir; rw [hj, decide_eq_false hne]; rfl
  have e5 : d.isdir (c.dest ++ c.path) = false := by simp only [LDisk.isdir, hn']; simp [hp]
  have hcopy : d.copyOrForget c = (.ok (), d) := by
    unfold LDisk.copyOrForget LDisk.copy LDisk.write
    simp only [e5, Bool.false_eq_true, if_false, hi, hn', reduceCtorEq, dropLast_dest hp, e4, Bool.not_false, Bool.or_true,
      if_true, hl]
  unfold LDisk.replicate
  simp only [e1, e2, e3, Bool.not_true, Bool.false_eq_true, if_false, if_true]
  cases ho : c.how with
  | readOnly => exact absurd ho hh
  | writable l =>
    simp only [LDisk.linkOrCopy, hi, dropLast_dest hp, e4, Bool.and_false, Bool.false_eq_true, if_false, hl, hcopy, ite_self]

/-- In `d` there is a file `data`. -/
example : let d : LDisk := { twoBags with names := twoBags.names ++ [([py!"d", py!"data"], .file 1)] }
    d.replicate (fromA [py!"data", py!"x"] false true) = (.ok (), d) := by
  intro d
  exact C127_negation_silent (by decide) (s := py!"first") (by kernel_rfl) (by decide) (s' := py!"second") (by kernel_rfl)
    (by kernel_rfl) rfl (by decide)

/-- **C127** is false where a directory is at the place: `shutil.copy` puts the file of a writable bag into it. -/
theorem C127_negation_directory {d : LDisk} {c : RepCall} (hp : c.path ≠ []) {s : Str}
    (hs : d.node (c.bag ++ c.path) = some (.file s)) (hd : d.node (c.dest ++ c.path) = some .dir)
    (hpar : d.exists (c.dest ++ c.path.dropLast) = true)
    (hn : d.node (c.dest ++ c.path ++ [c.path.getLast hp]) = none) (hl : c.logger = false) (hh : c.how ≠ .readOnly) :
    (d.replicate c).1 = .ok () ∧ (d.replicate c).2.node (c.dest ++ c.path) = some .dir ∧
    (d.replicate c).2.node (c.dest ++ c.path ++ [c.path.getLast hp]) = some (.file s) := by
  obtain ⟨i, hi, his⟩ := node_file hs
  have hd' : dget d.names (c.dest ++ c.path) = some .dir := by
    unfold LDisk.node at hd
    cases hg : dget d.names (c.dest ++ c.path) with
    | none => rw [hg] at hd; cases hd
    | some n => cases n with
      | dir => rfl
      | file j => rw [hg] at hd; cases hd
  have hn' := node_none_iff.1 hn
  have e1 : d.exists (c.bag ++ c.path) = true := by simp [LDisk.exists, hi]
  have e2 : d.isdir (c.bag ++ c.path) = false := by simp only [LDisk.isdir, hi]; simp [hp]
  have e5 : d.isdir (c.dest ++ c.path) = true := by simp [LDisk.isdir, hd']
  have e6 : d.exists (c.dest ++ c.path) = true := by simp [LDisk.exists, hd']
  have hlast : (c.bag ++ c.path).getLast?.toList = [c.path.getLast hp] := by
    rw [List.getLast?_append, List.getLast?_eq_some_getLast hp]
    rfl
  have hnd : d.isdir (c.dest ++ c.path ++ [c.path.getLast hp]) = false := by
    simp only [LDisk.isdir, hn']; simp
  obtain ⟨d2, h2⟩ := lwrite_total hnd (by rw [List.dropLast_concat]; exact e5) (d.data i)
  have hcopy : d.copyOrForget c = (.ok (), d2) := by
    unfold LDisk.copyOrForget LDisk.copy
    simp only [e5, if_true, hlast, hi, hn', reduceCtorEq, if_false, h2]
  have hr : d.replicate c = (.ok (), d2) := by
    unfold LDisk.replicate
    simp only [e1, e2, hpar, Bool.not_true, Bool.false_eq_true, if_false, if_true]
    cases ho : c.how with
    | readOnly => exact absurd ho hh
    | writable l =>
      simp only [LDisk.linkOrCopy, hi, e6, Bool.not_true, Bool.and_false, Bool.false_and, Bool.false_eq_true, if_false, hl,
        hcopy, ite_self]
  rw [hr]
  refine ⟨rfl, ?_, by rw [write_read h2, his]⟩
  unfold LDisk.write at h2
  rw [if_neg (by rw [List.dropLast_concat, hnd, e5]; decide)] at h2
  simp only [hn'] at h2
  injection h2 with h2
  subst h2
  simp only [LDisk.node, dget_dset]
  rw [if_neg (by simp), hd']
  rfl

/-- In `d` there is a directory `data/x`. -/
example : let d : LDisk := { twoBags with
      names := twoBags.names ++ [([py!"d", py!"data"], .dir), ([py!"d", py!"data", py!"x"], .dir)] }
    (d.replicate (fromA [py!"data", py!"x"] false true)).2.node [py!"d", py!"data", py!"x", py!"x"] =
      some (.file py!"first") := by
  intro d
  exact (C127_negation_directory (c := fromA [py!"data", py!"x"] false true) (by decide) (s := py!"first") (by kernel_rfl)
    (by kernel_rfl) (by decide) (by kernel_rfl) rfl (by decide)).2.2

end Verif
