import Verif.Lemmas.ReplicateText
import Verif.Props.Paths
import Verif.Py.KernelRfl
/-!
# Where `replicate` puts what, for any path string (C128)
-/

namespace Verif
open Spec

theorem touches_makedirsAt {D : Path} (hg : ∀ c ∈ D, GoodName c) {d : LDisk} (hd : HasDir d D) {s : Str}
    (h : OnWay D (parts s)) : DirsAdded D d (d.makedirsAt s).2 := by
  have := mkdirs_dirs hg (rs := (parts s).reverse) hd (by rw [List.reverse_reverse]; exact h)
  unfold LDisk.makedirsAt
  unfold parts at this
  split
  · next e => rw [e] at this; exact this
  · next e => rw [e] at this; exact this

theorem touches_linkAt {D : Path} {d d' : LDisk} (hd : HasDir d D) {src dst : Str} (hi : D <+: leadsTo [] dst)
    (h : d.linkAt src dst = some d') : TouchesOnly D d d' := by
  unfold LDisk.linkAt at h
  split at h
  · next q p hq hp =>
    split at h
    · split at h
      · next hc =>
        injection h with h
        simp only [Bool.and_eq_true, Bool.not_eq_true'] at hc
        rw [← place_leads hp] at hi
        obtain ⟨x, rfl⟩ := hi
        have hx : x ≠ [] := by
          rintro rfl
          rw [List.append_nil, isdir_exists (hd D (List.prefix_refl _))] at hc
          cases hc.1
        subst h
        exact ⟨grown_dset hx (ldisk_exists_false.1 hc.1).2, fun _ _ hne => absurd rfl hne⟩
      · cases h
    · cases h
  · cases h

theorem touches_copyAt {D : Path} {d d' : LDisk} (hd : HasDir d D) {src dst : Str} (hi : D <+: leadsTo [] dst)
    (hne : dst ≠ []) (hb : baseName src ≠ ['.', '.'])
    (h : d.copyAt src dst = some d') : TouchesOnly D d d' := by
  unfold LDisk.copyAt at h
  simp only at h
  have hs : '/' ∉ baseName src := by
    unfold baseName
    cases hl : (splitOn '/' src).getLast? with
    | none => simp
    | some b => exact sep_not_mem_splitOn (List.mem_of_getLast? hl)
  have hin : D <+: leadsTo [] (if d.isdirAt dst = true then pathJoin dst (baseName src) else dst) := by
    split
    · rw [leadsTo_pathJoin [] hne (fun e => hs (List.mem_of_head? e)), splitOn_noSep hs]
      exact hi.trans (follow_downwards (by simpa using fun e => hb e.symm) _)
    · exact hi
  revert h hin
  generalize (if d.isdirAt dst = true then pathJoin dst (baseName src) else dst) = target
  intro h hin
  split at h
  · next q p hq hp =>
    split at h
    · split at h
      · cases h
      · split at h
        · next d1 hw =>
          injection h with h
          subst h
          rw [← place_leads hp] at hin
          obtain ⟨x, rfl⟩ := hin
          exact touchesOnly_write (hd D (List.prefix_refl _)) hw
        · cases h
    · cases h
  · cases h

theorem touches_refl (D : Path) (d : LDisk) : TouchesOnly D d d := touches_of_dirs (dirsAdded_refl D d)

theorem touches_replicateAt {d : LDisk} {c : TextCall} {B D : Path} (hB : AbsPath c.bag B) (hD : AbsPath c.dest D)
    (hdir : HasDir d D) (hrel : c.path.head? ≠ some '/') (hup : ['.', '.'] ∉ splitOn '/' c.path) :
    TouchesOnly D d (d.replicateAt c).2 := by
  have hway := onWay_join hD hrel hup
  have hsl : '/' ∈ pathJoin c.dest c.path := by
    unfold pathJoin isAbs
    rw [if_neg (by simpa using hrel)]
    have : '/' ∈ c.dest := by rw [hD.2]; simp
    split <;> simp [this]
  have hin : D <+: leadsTo [] (pathJoin c.dest c.path) := by
    rw [leadsTo_dest hD hrel]; exact follow_downwards hup D
  have hbase : baseName (pathJoin c.bag c.path) ≠ ['.', '.'] := by
    unfold baseName
    rw [split_join hB hrel, ← List.cons_append, List.getLast?_append]
    cases hl : (splitOn '/' c.path).getLast? with
    | none => exact absurd (List.getLast?_eq_none_iff.1 hl) (splitOn_ne_nil _ _)
    | some b =>
      simp only [Option.some_or, Option.getD_some]
      rintro rfl
      exact hup (List.mem_of_getLast? hl)
  have hloc : ∀ d', HasDir d' D → TouchesOnly D d' (d'.linkOrCopyAt c).2 := by
    intro d' hd'
    have hcopy : TouchesOnly D d' (d'.copyOrForgetAt c).2 := by
      unfold LDisk.copyOrForgetAt
      split
      · next hc => exact touches_copyAt hd' hin (by intro e; rw [e] at hsl; cases hsl) hbase hc
      · split <;> exact touches_refl D d'
    unfold LDisk.linkOrCopyAt
    split
    · split
      · next d1 hl =>
        split at hl
        · exact touches_linkAt hd' hin hl
        · cases hl
      · split
        · exact touches_refl D d'
        · exact hcopy
    · exact hcopy
  unfold LDisk.replicateAt
  split
  · exact touches_refl D d
  · split
    · exact touches_refl D d
    · simp only
      split
      · split
        · exact touches_refl D d
        · exact touches_of_dirs (touches_makedirsAt hD.1.2 hdir hway)
      · by_cases he : d.existsAt (dirName (pathJoin c.dest c.path)) = true
        · simp only [he, if_true]
          exact hloc d hdir
        · simp only [he, Bool.false_eq_true, if_false]
          have hm := touches_makedirsAt hD.1.2 hdir (onWay_dirName hsl hway)
          split
          · next e => rw [e] at hm; exact touches_of_dirs hm
          · next e => rw [e] at hm; exact touches_after_dirs hm (hloc _ (hasDir_grown hdir hm.grown))

/-! ## A disk for the examples -/

theorem rooted_of {d : LDisk} (h : ∀ p ∈ dkeys d.names, d.isdir p.dropLast = true) : Rooted d := by
  have key : ∀ (n : Nat) (x y : Path), y.length = n → y ≠ [] → d.exists (x ++ y) = true → d.isdir x = true := by
    intro n
    induction n with
    | zero => intro x y hl hy; exact absurd (List.length_eq_zero_iff.1 hl) hy
    | succ n ih =>
      intro x y hl hy he
      obtain ⟨a, b, e⟩ : ∃ a b, y = a ++ [b] := by
        rcases List.eq_nil_or_concat y with e | ⟨a, b, e⟩
        · exact absurd e hy
        · exact ⟨a, b, by rw [e, List.concat_eq_append]⟩
      subst e
      have hmem : x ++ (a ++ [b]) ∈ dkeys d.names := by
        refine Classical.byContradiction fun hn => ?_
        rw [ldisk_exists_false.2 ⟨by simp, dget_eq_none_iff.2 hn⟩] at he
        cases he
      have hd := h _ hmem
      rw [← List.append_assoc, List.dropLast_concat] at hd
      by_cases ha : a = []
      · subst ha; rw [List.append_nil] at hd; exact hd
      · exact ih x a (by simpa using hl) ha (isdir_exists hd)
  exact fun x y hy he => key y.length x y rfl hy he

/-- Two bags named `a`, in `/v` and in `/o`, with a directory `out` next to the second. -/
def sameNames : LDisk where
  names := [([py!"v"], .dir), ([py!"v", py!"a"], .dir), ([py!"v", py!"a", py!"data"], .dir),
    ([py!"v", py!"a", py!"data", py!"x"], .file 0), ([py!"o"], .dir), ([py!"o", py!"out"], .dir), ([py!"o", py!"a"], .dir),
    ([py!"o", py!"a", py!"data"], .dir), ([py!"o", py!"a", py!"data", py!"y"], .file 1)]
  data i := if i = 0 then py!"one" else py!"other"
  next := 2

theorem sameNames_rooted : Rooted sameNames := rooted_of (by decide)

theorem sameNames_files {p : Path} {i : Nat} (h : dget sameNames.names p = some (.file i)) :
    (p = [py!"v", py!"a", py!"data", py!"x"] ∧ i = 0) ∨ (p = [py!"o", py!"a", py!"data", py!"y"] ∧ i = 1) := by
  have hm := mem_of_dget h
  simpa [sameNames] using hm

theorem sameNames_ok : InodesOk sameNames := by
  intro p i h
  rcases sameNames_files h with ⟨_, rfl⟩ | ⟨_, rfl⟩ <;> decide

theorem sameNames_unshared : Unshared sameNames := by
  intro p q i hp hq
  rcases sameNames_files hp with ⟨rfl, rfl⟩ | ⟨rfl, rfl⟩ <;> rcases sameNames_files hq with ⟨rfl, h⟩ | ⟨rfl, h⟩
  · rfl
  · cases h
  · cases h
  · rfl

/-- A call for the first bag. -/
def toOut (path : Str) : TextCall := { bag := py!"/v/a", path, dest := py!"/o/out" }

theorem abs_va : AbsPath py!"/v/a" [py!"v", py!"a"] := by
  refine ⟨⟨by decide, ?_⟩, by decide⟩
  intro c hc
  simp only [List.mem_cons, List.not_mem_nil, or_false] at hc
  rcases hc with rfl | rfl <;> exact ⟨by decide, by decide, by decide, by decide⟩

theorem abs_out : AbsPath py!"/o/out" [py!"o", py!"out"] := by
  refine ⟨⟨by decide, ?_⟩, by decide⟩
  intro c hc
  simp only [List.mem_cons, List.not_mem_nil, or_false] at hc
  rcases hc with rfl | rfl <;> exact ⟨by decide, by decide, by decide, by decide⟩

theorem good_data_x : GoodPath [py!"data", py!"x"] := by
  refine ⟨by decide, ?_⟩
  intro c hc
  simp only [List.mem_cons, List.not_mem_nil, or_false] at hc
  rcases hc with rfl | rfl <;> exact ⟨by decide, by decide, by decide, by decide⟩

/-- **C128**, part: nothing outside the destination directory changes, whatever the outcome, for every relative path
string in which no component is `..`, if no file has two names before.
Missing: strings with `..` (`C128_negation_outside`), and disks with hard links (`C127_negation_links`). -/
theorem C128_confined_partial {d : LDisk} (hi : InodesOk d) (hu : Unshared d) {c : TextCall} {B D : Path}
    (hB : AbsPath c.bag B) (hD : AbsPath c.dest D) (hdir : ∀ x, x <+: D → d.isdir x = true)
    (hrel : c.path.head? ≠ some '/') (hup : py!".." ∉ splitOn '/' c.path) {p : Path} (hp : ¬ Inside D p) :
    (d.replicateAt c).2.node p = d.node p := by
  have ht := touches_replicateAt hB hD hdir hrel hup
  unfold LDisk.node
  cases hg : dget d.names p with
  | none =>
    cases hg' : dget (d.replicateAt c).2.names p with
    | none => rfl
    | some n =>
      obtain ⟨x, _, e⟩ := ht.grown.new p hg (by rw [hg']; simp)
      exact absurd ⟨x, e.symm⟩ hp
  | some n =>
    rw [ht.grown.keep p n hg]
    cases n with
    | dir => rfl
    | file i =>
      simp only [Option.map_some, LNode.view]
      by_cases e : (d.replicateAt c).2.data i = d.data i
      · rw [e]
      · obtain ⟨x, hx⟩ := ht.data i (hi p i hg) e
        exact absurd ⟨x, hu _ _ i hx hg⟩ hp

/-- A path with an empty component and `.`; the file is delivered and the other bag is as it was. -/
example : (sameNames.replicateAt (toOut py!"data//./x")).1 = .ok () ∧
    (sameNames.replicateAt (toOut py!"data//./x")).2.node [py!"o", py!"out", py!"data", py!"x"] = some (.file py!"one") ∧
    (sameNames.replicateAt (toOut py!"data//./x")).2.node [py!"o", py!"a", py!"data", py!"y"] = some (.file py!"other") := by
  refine ⟨by kernel_rfl, by kernel_rfl, ?_⟩
  refine (C128_confined_partial (c := toOut py!"data//./x") sameNames_ok sameNames_unshared abs_va abs_out ?_ (by decide)
    (by decide) (by unfold Inside; decide)).trans (by kernel_rfl)
  exact hasDir_of_rooted sameNames_rooted (by decide)

/-- Where the last component of a free place is looked up is its directory. -/
theorem free_place {d : LDisk} (hr : Rooted d) {r p : Path} {y : Str} (h : d.go r [y] = some p) (hd : d.isdir r = true)
    (hf : d.exists p = false) : p.dropLast = r ∧ p ≠ [] := by
  have hno : ∀ q, d.isdir q = true → p ≠ q := fun q hq e => by rw [e, isdir_exists hq] at hf; cases hf
  rw [go_cons, hd] at h
  simp only [Bool.not_true, Bool.false_eq_true, if_false] at h
  split at h
  · cases h; exact absurd rfl (hno _ hd)
  · split at h
    · cases h
      exact absurd rfl (hno _ (hasDir_of_rooted hr hd _ (List.dropLast_prefix _)))
    · cases h; simp

/-- Linking or copying a file to a free place. -/
theorem linkOrCopy_free {d : LDisk} {c : TextCall} {q p : Path} {s : Str}
    (hq : d.place (pathJoin c.bag c.path) = some q) (hs : d.node q = some (.file s))
    (hp : d.place (pathJoin c.dest c.path) = some p) (hf : d.exists p = false) (hd : d.isdir p.dropLast = true)
    (hl : c.logger = false ∨ c.hardlink = false ∨ c.canLink = true) :
    (d.linkOrCopyAt c).1 = .ok () ∧ (d.linkOrCopyAt c).2.node p = some (.file s) := by
  obtain ⟨i, hi, hdata⟩ : ∃ i, dget d.names q = some (.file i) ∧ d.data i = s := by
    unfold LDisk.node at hs
    cases hg : dget d.names q with
    | none => rw [hg] at hs; cases hs
    | some n =>
      rw [hg] at hs
      cases n with
      | dir => cases hs
      | file i =>
        simp only [Option.map_some, LNode.view, Option.some.injEq, Node.file.injEq] at hs
        exact ⟨i, rfl, hs⟩
  obtain ⟨hne, hn⟩ := ldisk_exists_false.1 hf
  have hnd : d.isdir p = false := by
    cases h : d.isdir p with
    | false => rfl
    | true => rw [isdir_exists h] at hf; cases hf
  have hcopy : ∃ d', d.copyAt (pathJoin c.bag c.path) (pathJoin c.dest c.path) = some d' ∧ d'.node p = some (.file s) := by
    unfold LDisk.copyAt LDisk.isdirAt
    simp only [hp, hnd, Bool.false_eq_true, if_false, hq, hi, hn, reduceCtorEq]
    unfold LDisk.write
    simp only [hnd, hd, Bool.not_true, Bool.or_self, Bool.false_eq_true, if_false, hn]
    refine ⟨_, rfl, ?_⟩
    unfold LDisk.node
    simp only [dget_dset, if_true, Option.map_some, LNode.view, hdata]
  have hcof : (d.copyOrForgetAt c).1 = .ok () ∧ (d.copyOrForgetAt c).2.node p = some (.file s) := by
    obtain ⟨d', h1, h2⟩ := hcopy
    unfold LDisk.copyOrForgetAt
    rw [h1]
    exact ⟨rfl, h2⟩
  unfold LDisk.linkOrCopyAt
  by_cases hh : c.hardlink = true
  · simp only [hh, if_true]
    by_cases hc : c.canLink = true
    · simp only [hc, if_true]
      unfold LDisk.linkAt
      simp only [hq, hp, hi, hf, hd, Bool.not_false, Bool.and_self, if_true]
      refine ⟨trivial, ?_⟩
      unfold LDisk.node
      simp only [dget_dset, if_true, Option.map_some, LNode.view, hdata]
    · simp only [hc, Bool.false_eq_true, if_false]
      have hlog : c.logger = false := by
        rcases hl with h | h | h
        · exact h
        · rw [h] at hh; cases hh
        · exact absurd h hc
      simp only [hlog, Bool.false_eq_true, if_false]
      exact hcof
  · simp only [hh, Bool.false_eq_true, if_false]
    exact hcof

/-- **C128**: a file in the bag is put where its path string leads to from the destination directory (also if that is
not in the destination directory), if the string can be followed in the bag and in the destination directory and
nothing is there.  (With a logger, if hard links are not used or can be made: `C127_negation_logger`.) -/
theorem C128_follows {d : LDisk} (hr : Rooted d) {c : TextCall} {B D : Path} (hB : AbsPath c.bag B) (hD : AbsPath c.dest D)
    (hrel : c.path.head? ≠ some '/') (hBd : d.isdir B = true) (hDd : d.isdir D = true)
    (hfB : CanFollow d B c.path) (hfD : CanFollow d D c.path) (hin : Inside B (leadsTo B c.path)) {s : Str}
    (hs : d.node (leadsTo B c.path) = some (.file s)) (hfree : d.exists (leadsTo D c.path) = false)
    (hl : c.logger = false ∨ c.hardlink = false ∨ c.canLink = true) :
    (d.replicateAt c).1 = .ok () ∧ (d.replicateAt c).2.node (leadsTo D c.path) = some (.file s) := by
  have hq := place_can hB (hasDir_of_rooted hr hBd) hrel hfB
  have hp := place_can hD (hasDir_of_rooted hr hDd) hrel hfD
  have hex : d.exists (leadsTo B c.path) = true := by
    cases h : d.exists (leadsTo B c.path) with
    | true => rfl
    | false =>
      have := (ldisk_exists_false.1 h).2
      unfold LDisk.node at hs
      rw [this] at hs; cases hs
  have hnd : d.isdir (leadsTo B c.path) = false := by
    cases h : d.isdir (leadsTo B c.path) with
    | false => rfl
    | true =>
      rcases ldisk_isdir_iff.1 h with e | e
      · rw [e] at hin
        exact absurd (List.prefix_nil.1 hin) hB.1.1
      · unfold LDisk.node at hs
        rw [e] at hs; cases hs
  have hcan := C67_inside_accepted hB hrel hin
  have hpl : d.place ('/' :: joinPath (leadsTo B c.path)) = some (leadsTo B c.path) :=
    place_abs (goodName_leadsTo hB.1.2 c.path) (fun x y e hy => hr x y hy (by rw [← e]; exact hex))
  have hsl : '/' ∈ pathJoin c.dest c.path := by
    unfold pathJoin isAbs
    rw [if_neg (by simpa using hrel)]
    have : '/' ∈ c.dest := by rw [hD.2]; simp
    split <;> simp [this]
  obtain ⟨x, y, exy, hy⟩ := last_slash hsl
  have hp2 := hp
  rw [exy] at hp2
  obtain ⟨r, hdn, hrd, hgo⟩ := place_dirName hy hp2
  obtain ⟨hpr, _⟩ := free_place hr hgo hrd hfree
  have hparent : d.existsAt (dirName (pathJoin c.dest c.path)) = true := by
    unfold LDisk.existsAt
    rw [exy, hdn]
    exact isdir_exists hrd
  unfold LDisk.replicateAt
  rw [hcan]
  simp only [LDisk.existsAt, LDisk.isdirAt, hpl, hex, hnd, Bool.not_true, Bool.false_eq_true, if_false]
  unfold LDisk.existsAt at hparent
  simp only [hparent, if_true]
  exact linkOrCopy_free hq hs hp hfree (by rw [hpr]; exact hrd) hl

/-- A string with `..` that can be followed in the bag and in the destination directory. -/
example : (sameNames.replicateAt { toOut py!"../a/data/x" with dest := py!"/o/a" }).2.node
    [py!"o", py!"a", py!"data", py!"x"] = some (.file py!"one") := by
  have abs_oa : AbsPath py!"/o/a" [py!"o", py!"a"] := by
    refine ⟨⟨by decide, ?_⟩, by decide⟩
    intro c hc
    simp only [List.mem_cons, List.not_mem_nil, or_false] at hc
    rcases hc with rfl | rfl <;> exact ⟨by decide, by decide, by decide, by decide⟩
  have can : ∀ D, D = [py!"o", py!"a"] ∨ D = [py!"v", py!"a"] → CanFollow sameNames D py!"../a/data/x" := by
    intro D hD x y e hy
    have hx : x ∈ [[], [py!".."], [py!"..", py!"a"], [py!"..", py!"a", py!"data"]] := by
      have hs : splitOn '/' py!"../a/data/x" = [py!"..", py!"a", py!"data", py!"x"] := by decide
      rw [hs] at e
      match x, y, e, hy with
      | [], _, _, _ => simp
      | [_], _, e, _ => simp at e; simp [e.1]
      | [_, _], _, e, _ => simp at e; simp [e.1, e.2.1]
      | [_, _, _], _, e, _ => simp at e; simp [← e.1, ← e.2.1, ← e.2.2.1]
      | [_, _, _, _], y, e, hy => simp at e; exact absurd e.2.2.2.2 hy
      | _ :: _ :: _ :: _ :: _ :: _, _, e, _ => simp at e
    simp only [List.mem_cons, List.not_mem_nil, or_false] at hx
    rcases hD with rfl | rfl <;> rcases hx with rfl | rfl | rfl | rfl <;> decide
  exact (C128_follows (c := { toOut py!"../a/data/x" with dest := py!"/o/a" }) sameNames_rooted abs_va abs_oa (by decide) (by decide)
    (by decide) (can _ (.inr rfl)) (can _ (.inl rfl)) (by unfold Inside; decide) (by kernel_rfl) (by decide) (.inl rfl)).2

/-- **C128**: a string that leads to nothing, or leads outside the bag (and not to a directory next to it whose name starts
with the bag's name, `C67_negation`), is a ValueError, and nothing changes. -/
theorem C128_refused {d : LDisk} {c : TextCall} {B : Path} (hB : AbsPath c.bag B)
    (h : d.exists (leadsTo B c.path) = false ∨ (¬ Inside B (leadsTo B c.path) ∧ ¬ Lookalike B (leadsTo B c.path))) :
    d.replicateAt c = (.error .valueError, d) := by
  unfold LDisk.replicateAt
  cases hc : canonPath c.bag c.path with
  | none => rfl
  | some q =>
    obtain ⟨rfl, hin⟩ := C67_used_path_partial hB hc
    have hno := h.resolve_right (fun h => hin.elim h.1 h.2)
    have he : d.existsAt ('/' :: joinPath (leadsTo B c.path)) = false := by
      unfold LDisk.existsAt
      cases hpl : d.place ('/' :: joinPath (leadsTo B c.path)) with
      | none => rfl
      | some r =>
        have := place_leads hpl
        rw [show leadsTo [] ('/' :: joinPath (leadsTo B c.path)) = leadsTo B c.path from
          leadsTo_slashes (k := 1) (by decide) (goodName_leadsTo hB.1.2 c.path) []] at this
        rw [this]; exact hno
    simp only [he, Bool.not_false, if_true]

example : sameNames.replicateAt (toOut py!"data/../../b") = (.error .valueError, sameNames) ∧
    sameNames.replicateAt (toOut py!"data/y") = (.error .valueError, sameNames) :=
  ⟨C128_refused abs_va (.inl (by decide)), C128_refused abs_va (.inl (by decide))⟩

theorem split_up (name : Str) (hn : '/' ∉ name) {p : Path} (hp : GoodPath p) :
    splitOn '/' (py!"../" ++ name ++ '/' :: joinPath p) = py!".." :: name :: p := by
  have e : py!"../" ++ name ++ '/' :: joinPath p = py!".." ++ '/' :: (name ++ '/' :: joinPath p) := by simp
  rw [e, splitOn_append_slash, splitOn_append_slash, splitOn_noSep hn, splitOn_joinPath' hp]
  rfl

/-- **C128** is false of the code: a path that leaves the bag by `..` and comes back by the bag's name is in the bag, and
is used as it is in the destination directory.  If there is a directory of the bag's name next to the destination
directory, the file is put there, outside the destination directory. -/
theorem C128_negation_outside {d : LDisk} (hr : Rooted d) {c : TextCall} {P Q : Path} {name out : Str} {p : Path}
    (hB : AbsPath c.bag (P ++ [name])) (hD : AbsPath c.dest (Q ++ [out])) (hne : out ≠ name) (hp : GoodPath p)
    (hpath : c.path = py!"../" ++ name ++ '/' :: joinPath p) {s : Str}
    (hs : d.node (P ++ [name] ++ p) = some (.file s)) (hBd : d.isdir (P ++ [name]) = true)
    (hDd : d.isdir (Q ++ [out]) = true) (hside : d.isdir (Q ++ [name] ++ p.dropLast) = true)
    (hfree : d.exists (Q ++ [name] ++ p) = false) (hl : c.logger = false) :
    (d.replicateAt c).1 = .ok () ∧ (d.replicateAt c).2.node (Q ++ [name] ++ p) = some (.file s) ∧
    ¬ Inside (Q ++ [out]) (Q ++ [name] ++ p) := by
  have hname : GoodName name := hB.1.2 name (by simp)
  have hsplit := split_up name hname.noslash hp
  rw [← hpath] at hsplit
  have hrel : c.path.head? ≠ some '/' := by rw [hpath]; simp
  have lead : ∀ (R : Path) (b : Str), leadsTo (R ++ [b]) c.path = R ++ [name] ++ p := by
    intro R b
    unfold leadsTo
    rw [if_neg hrel, hsplit]
    have h1 : follow (R ++ [b]) (py!".." :: name :: p) = follow R (name :: p) := by
      show (if _ then _ else if _ then _ else _) = _
      rw [if_neg (by decide), if_pos rfl, List.dropLast_concat]
    rw [h1, follow_good _ (by
      intro x hx
      rcases List.mem_cons.1 hx with e | e
      · rw [e]; exact hname
      · exact hp.2 x e)]
    simp
  have can : ∀ (R : Path) (b : Str), d.isdir (R ++ [b]) = true → d.isdir (R ++ [name] ++ p.dropLast) = true →
      CanFollow d (R ++ [b]) c.path := by
    intro R b hb hd x y exy hy
    rw [hsplit] at exy
    cases x with
    | nil => exact hb
    | cons a x =>
      simp only [List.cons_append, List.cons.injEq] at exy
      have e0 : follow (R ++ [b]) (a :: x) = follow R x := by
        rw [← exy.1]
        show (if _ then _ else if _ then _ else _) = _
        rw [if_neg (by decide), if_pos rfl, List.dropLast_concat]
      have hx : ∀ z ∈ x, GoodName z := by
        intro z hz
        have : z ∈ name :: p := by rw [exy.2]; exact List.mem_append_left _ hz
        rcases List.mem_cons.1 this with e | e
        · rw [e]; exact hname
        · exact hp.2 z e
      rw [e0, follow_good _ hx]
      refine hasDir_of_rooted hr hd _ ?_
      cases x with
      | nil => rw [List.append_nil, List.append_assoc]; exact List.prefix_append _ _
      | cons n x =>
        simp only [List.cons_append, List.cons.injEq] at exy
        rcases List.eq_nil_or_concat y with rfl | ⟨y', l, ey⟩
        · exact absurd rfl hy
        · rw [List.concat_eq_append] at ey
          refine ⟨y', ?_⟩
          rw [← exy.2.1, exy.2.2, ey, ← List.append_assoc x, List.dropLast_concat]
          simp
  have h := C128_follows hr hB hD hrel hBd hDd
    (can P name hBd (by
      obtain ⟨a, b, e⟩ : ∃ a b, p = a ++ [b] := by
        rcases List.eq_nil_or_concat p with e | ⟨a, b, e⟩
        · exact absurd e hp.1
        · exact ⟨a, b, by rw [e, List.concat_eq_append]⟩
      rw [e, List.dropLast_concat]
      refine hr _ [b] (by simp) ?_
      rw [List.append_assoc _ a, ← e]
      cases hx : d.exists (P ++ [name] ++ p) with
      | true => rfl
      | false =>
        have := (ldisk_exists_false.1 hx).2
        unfold LDisk.node at hs
        rw [this] at hs; cases hs))
    (can Q out hDd hside) (by rw [lead]; exact List.prefix_append _ _)
    (by rw [lead]; exact hs) (by rw [lead]; exact hfree) (.inl hl)
  rw [lead] at h
  refine ⟨h.1, h.2, ?_⟩
  rintro ⟨z, hz⟩
  rw [List.append_assoc, List.append_assoc] at hz
  have := List.append_cancel_left hz
  simp only [List.singleton_append, List.cons.injEq] at this
  exact hne this.1

/-- **C128** is false of the code: the absolute path of a file in the bag is in the bag, too; but it is then also the
place to put the file.  Nothing is done, and the call ends as if it had been (without a logger). -/
theorem C128_negation_absolute {d : LDisk} (hr : Rooted d) {c : TextCall} {B p : Path} (hB : AbsPath c.bag B) (hp : GoodPath p)
    (hpath : c.path = '/' :: joinPath (B ++ p)) {s : Str} (hs : d.node (B ++ p) = some (.file s)) (hl : c.logger = false) :
    d.replicateAt c = (.ok (), d) := by
  have hg : ∀ x ∈ B ++ p, GoodName x := fun x hx => (List.mem_append.1 hx).elim (hB.1.2 x) (hp.2 x)
  have habs : AbsPath c.path (B ++ p) := ⟨⟨by simp [hp.1], hg⟩, hpath⟩
  obtain ⟨i, hi⟩ : ∃ i, dget d.names (B ++ p) = some (.file i) := by
    unfold LDisk.node at hs
    cases hg : dget d.names (B ++ p) with
    | none => rw [hg] at hs; cases hs
    | some n =>
      cases n with
      | dir => rw [hg] at hs; cases hs
      | file i => exact ⟨i, rfl⟩
  have hex : d.exists (B ++ p) = true := by simp [LDisk.exists, hi]
  have hnd : d.isdir (B ++ p) = false := by
    simp [LDisk.isdir, hi, hp.1]
  have hpl : d.place c.path = some (B ++ p) := by
    rw [hpath]
    exact place_abs hg (fun x y e hy => hr x y hy (by rw [← e]; exact hex))
  have hjoin : ∀ b, pathJoin b c.path = c.path := by
    intro b; unfold pathJoin isAbs; rw [hpath]; rfl
  have hcan : canonPath c.bag c.path = some c.path := by
    unfold canonPath
    simp only
    rw [hjoin, normpath_absPath hB, normpath_absPath habs, if_pos]
    refine List.isPrefixOf_iff_prefix.2 ?_
    rw [hB.2, hpath, List.cons_prefix_cons]
    exact ⟨rfl, (prefix_joinPath hB.1 hg).2 (.inl (List.prefix_append _ _))⟩
  have hparent : d.existsAt (dirName c.path) = true := by
    have hsl : '/' ∈ c.path := by rw [hpath]; simp
    obtain ⟨x, y, exy, hy⟩ := last_slash hsl
    have hpl2 := hpl
    rw [exy] at hpl2
    obtain ⟨r, hdn, hrd, _⟩ := place_dirName hy hpl2
    unfold LDisk.existsAt
    rw [exy, hdn]
    exact isdir_exists hrd
  have hcopy : d.copyOrForgetAt c = (.ok (), d) := by
    unfold LDisk.copyOrForgetAt LDisk.copyAt LDisk.isdirAt
    simp only [hjoin, hpl, hnd, Bool.false_eq_true, if_false, hi, if_true, hl]
  have hloc : d.linkOrCopyAt c = (.ok (), d) := by
    unfold LDisk.linkOrCopyAt LDisk.linkAt
    simp only [hjoin, hpl, hi, hex, Bool.not_true, Bool.false_and, Bool.false_eq_true, if_false, hl, hcopy, ite_self]
  unfold LDisk.replicateAt
  rw [hcan]
  simp only [hjoin, hparent, if_true]
  unfold LDisk.existsAt LDisk.isdirAt
  simp only [hpl, hex, hnd, Bool.not_true, Bool.false_eq_true, if_false]
  exact hloc

/-! ## Plain paths -/

theorem canFollow_good {d : LDisk} {D p : Path} (hp : GoodPath p) (h : HasDir d (D ++ p.dropLast)) :
    CanFollow d D (joinPath p) := by
  intro x y exy hy
  rw [splitOn_joinPath' hp] at exy
  rw [follow_good _ (fun c hc => hp.2 c (by rw [exy]; exact List.mem_append_left _ hc))]
  refine h _ ?_
  rcases List.eq_nil_or_concat y with rfl | ⟨y', l, ey⟩
  · exact absurd rfl hy
  · rw [List.concat_eq_append] at ey
    refine ⟨y', ?_⟩
    rw [exy, ey, ← List.append_assoc x, List.dropLast_concat, List.append_assoc]

theorem good_rel {p : Path} (hp : GoodPath p) : (joinPath p).head? ≠ some '/' :=
  fun e => joinPath_head hp '/' e rfl

theorem leadsTo_good {p : Path} (hp : GoodPath p) (D : Path) : leadsTo D (joinPath p) = D ++ p := by
  unfold leadsTo
  rw [if_neg (good_rel hp), splitOn_joinPath' hp, follow_good _ hp.2]

theorem join_good {b : Str} {D p : Path} (hD : AbsPath b D) (hp : GoodPath p) :
    pathJoin b (joinPath p) = '/' :: joinPath (D ++ p) := by
  have hl : b.getLast? ≠ some '/' := by
    intro e
    have h := joinPath_last hD.1
    rw [hD.2, List.getLast?_cons] at e
    cases hj : joinPath D with
    | nil => exact joinPath_ne_nil hD.1 hj
    | cons x xs =>
      rw [hj] at h
      rw [show joinWith ['/'] D = x :: xs from hj] at e
      simp only [List.getLast?_cons, Option.getD_some, Option.some.injEq] at e
      exact h '/' (by simp [List.getLast?_cons, e]) rfl
  have hne : b ≠ [] := by rw [hD.2]; simp
  unfold pathJoin isAbs
  rw [if_neg (by simpa using good_rel hp), if_neg (by simp [hne, hl]), hD.2]
  have := joinPath_append hD.1.1 hp.1
  rw [this]
  rfl

theorem place_good {d : LDisk} {b : Str} {D p : Path} (hD : AbsPath b D) (hp : GoodPath p)
    (h : HasDir d (D ++ p.dropLast)) : d.place (pathJoin b (joinPath p)) = some (D ++ p) := by
  have hd : HasDir d D := fun x hx => h x (hx.trans (List.prefix_append _ _))
  rw [place_can hD hd (good_rel hp) (canFollow_good hp h), leadsTo_good hp]

theorem place_good_eq {d : LDisk} {b : Str} {D p r : Path} (hD : AbsPath b D) (hp : GoodPath p)
    (h : d.place (pathJoin b (joinPath p)) = some r) : r = D ++ p := by
  rw [place_leads h, leadsTo_dest hD (good_rel hp), splitOn_joinPath' hp, follow_good _ hp.2]

theorem concat_of_good {p : Path} (hp : GoodPath p) : ∃ a b, p = a ++ [b] := by
  rcases List.eq_nil_or_concat p with e | ⟨a, b, e⟩
  · exact absurd e hp.1
  · exact ⟨a, b, by rw [e, List.concat_eq_append]⟩

theorem hasDir_parent {d : LDisk} (hr : Rooted d) {D p : Path} (hp : GoodPath p) (h : d.exists (D ++ p) = true) :
    HasDir d (D ++ p.dropLast) := by
  obtain ⟨a, b, rfl⟩ := concat_of_good hp
  rw [List.dropLast_concat]
  refine hasDir_of_rooted hr (hr _ [b] (by simp) ?_)
  rw [List.append_assoc]; exact h

/-- `exists` and `isdir` of the operating system for a plain path. -/
theorem existsAt_good {d : LDisk} (hr : Rooted d) {b : Str} {D p : Path} (hD : AbsPath b D) (hp : GoodPath p) :
    d.existsAt (pathJoin b (joinPath p)) = d.exists (D ++ p) ∧ d.isdirAt (pathJoin b (joinPath p)) = d.isdir (D ++ p) := by
  unfold LDisk.existsAt LDisk.isdirAt
  by_cases he : d.exists (D ++ p) = true
  · rw [place_good hD hp (hasDir_parent hr hp he)]
    exact ⟨rfl, rfl⟩
  · have he' : d.exists (D ++ p) = false := by simpa using he
    have hd : d.isdir (D ++ p) = false := by
      cases h : d.isdir (D ++ p) with
      | false => rfl
      | true => exact absurd (isdir_exists h) he
    cases hpl : d.place (pathJoin b (joinPath p)) with
    | none => simp only [he', hd, and_self]
    | some r =>
      rw [place_good_eq hD hp hpl]
      exact ⟨rfl, rfl⟩

/-- The end of a call is the same, string or not, when the parent directory is there. -/
theorem linkOrCopy_plain {d : LDisk} {c : TextCall} {B D p : Path} (hB : AbsPath c.bag B) (hD : AbsPath c.dest D)
    (hp : GoodPath p) (hpath : c.path = joinPath p) (hBp : HasDir d (B ++ p.dropLast)) (hDp : HasDir d (D ++ p.dropLast))
    {i : Nat} (hi : dget d.names (B ++ p) = some (.file i)) :
    d.linkOrCopyAt c = d.linkOrCopy ⟨B, .writable c.hardlink, p, D, c.logger, c.canLink⟩ c.hardlink := by
  have hq := place_good hB hp hBp
  have hpl := place_good hD hp hDp
  rw [← hpath] at hq hpl
  have hpar : d.isdir (D ++ p).dropLast = true := by
    rw [List.dropLast_append_of_ne_nil hp.1]
    exact hDp _ (List.prefix_refl _)
  have hcopy : d.copyOrForgetAt c = d.copyOrForget ⟨B, .writable c.hardlink, p, D, c.logger, c.canLink⟩ := by
    have hc : d.copyAt (pathJoin c.bag c.path) (pathJoin c.dest c.path) = (d.copy (B ++ p) (D ++ p)).toOption := by
      unfold LDisk.copyAt LDisk.copy LDisk.isdirAt
      simp only [hpl]
      obtain ⟨a, b, hab⟩ := concat_of_good hp
      have hb : GoodName b := hp.2 b (by rw [hab]; simp)
      have hbase : baseName (pathJoin c.bag c.path) = b := by
        unfold baseName
        rw [hpath, split_join hB (good_rel hp), splitOn_joinPath' hp, hab, ← List.append_assoc, ← List.cons_append, List.getLast?_concat]
        rfl
      have hgl : (B ++ p).getLast?.toList = [b] := by rw [hab]; simp
      rw [hbase, hgl]
      have finish : ∀ (t : Option Path) (u : Path), t = some u → ∀ q, q = some (B ++ p) →
          (match q, t with
            | some q, some p =>
              match dget d.names q with
              | some (.file i) =>
                if dget d.names p = some (.file i) then none
                else match d.write p (d.data i) with
                  | .ok d => some d
                  | .error _ => none
              | _ => none
            | _, _ => none) =
          (match dget d.names (B ++ p) with
            | some (.file i) => if dget d.names u = some (.file i) then .error .osError else d.write u (d.data i)
            | _ => .error .osError : Except PyErr LDisk).toOption := by
        intro t u ht q hq
        subst ht hq
        simp only [hi]
        split
        · rfl
        · cases d.write u (d.data i) <;> rfl
      by_cases hd : d.isdir (D ++ p) = true
      · simp only [hd, if_true]
        refine finish _ _ ?_ _ hq
        have hdd : HasDir d (D ++ p) := by
          intro x hx
          by_cases e : x = D ++ p
          · rw [e]; exact hd
          · refine hDp x ?_
            rw [← List.dropLast_append_of_ne_nil hp.1]
            rcases List.eq_nil_or_concat (D ++ p) with e0 | ⟨l, z, e0⟩
            · rw [List.append_eq_nil_iff] at e0; exact absurd e0.2 hp.1
            · rw [List.concat_eq_append] at e0
              rw [e0] at hx e ⊢
              rw [List.dropLast_concat]
              exact (List.prefix_concat_iff.1 hx).resolve_left e
        have hg : AbsPath (pathJoin c.dest c.path) (D ++ p) := by
          refine ⟨⟨by simp [hp.1], fun x hx => (List.mem_append.1 hx).elim (hD.1.2 x) (hp.2 x)⟩, ?_⟩
          rw [hpath, join_good hD hp]; rfl
        have := place_good hg (p := [b]) ⟨by simp, by simpa using hb⟩ (d := d) (by simpa using hdd)
        simpa [joinPath, joinWith] using this
      · simp only [hd, Bool.false_eq_true, if_false]
        exact finish _ _ hpl _ hq
    unfold LDisk.copyOrForgetAt LDisk.copyOrForget
    rw [hc]
    simp only
    cases d.copy (B ++ p) (D ++ p) <;> rfl
  unfold LDisk.linkOrCopyAt LDisk.linkOrCopy
  by_cases hh : c.hardlink = true
  · simp only [hh, if_true, hi]
    rw [hh] at hcopy
    cases hc : c.canLink with
    | false =>
      rw [hc] at hcopy
      simp only [Bool.false_eq_true, if_false, Bool.false_and]
      rw [hcopy]
    | true =>
      rw [hc] at hcopy
      simp only [if_true, Bool.true_and]
      unfold LDisk.linkAt
      simp only [hq, hpl, hi, hpar, Bool.and_true]
      cases d.exists (D ++ p) with
      | false => simp only [Bool.not_false, if_true]
      | true => simp only [Bool.not_true, Bool.false_eq_true, if_false]; rw [hcopy]
  · have hf : c.hardlink = false := by simpa using hh
    simp only [hf, Bool.false_eq_true, if_false]
    rw [hf] at hcopy
    exact hcopy

/-- **C128**: for a path without empty, `.` and `..` components, on the way to which there is no file in the destination
directory, a call does what is proved about plain paths in C127. -/
theorem C128_plain {d : LDisk} (hr : Rooted d) {c : TextCall} {B D p : Path} (hB : AbsPath c.bag B) (hD : AbsPath c.dest D)
    (hp : GoodPath p) (hpath : c.path = joinPath p)
    (hw : WayFree d ⟨B, .writable c.hardlink, p, D, c.logger, c.canLink⟩) :
    d.replicateAt c = d.replicate ⟨B, .writable c.hardlink, p, D, c.logger, c.canLink⟩ := by
  obtain ⟨hDd, hway⟩ := hw
  simp only at hDd hway
  have hDh := hasDir_of_rooted hr hDd
  have hcan : canonPath c.bag c.path = some (pathJoin c.bag (joinPath p)) := by
    rw [hpath, join_good hB hp]
    have := C67_inside_accepted hB (good_rel hp) (by rw [leadsTo_good hp]; exact List.prefix_append _ _)
    rw [this, leadsTo_good hp]
  obtain ⟨e1, e2⟩ := existsAt_good hr hB hp
  obtain ⟨e3, e4⟩ := existsAt_good hr hD hp
  unfold LDisk.replicateAt LDisk.replicate
  rw [hcan]
  simp only [e1, e2]
  by_cases hex : d.exists (B ++ p) = true
  · simp only [hex, Bool.not_true, Bool.false_eq_true, if_false]
    have hpartsD : (splitOn '/' (pathJoin c.dest c.path)).filter (· ≠ []) = D ++ p := by
      rw [hpath, split_join hD (good_rel hp), splitOn_joinPath' hp, List.filter_cons_of_neg (by simp), List.filter_eq_self]
      intro a ha
      simpa using ((List.mem_append.1 ha).elim (hD.1.2 a) (hp.2 a)).nonempty
    by_cases hsd : d.isdir (B ++ p) = true
    · simp only [hsd, if_true]
      rw [hpath, e4]
      by_cases hdd : d.isdir (D ++ p) = true
      · simp only [hdd, if_true]
      · simp only [hdd, Bool.false_eq_true, if_false]
        rw [← hpath]
        unfold LDisk.makedirsAt LDisk.makedirs
        rw [hpartsD]
        by_cases hde : d.exists (D ++ p) = true
        · -- a file is there
          obtain ⟨a, b, hab⟩ := concat_of_good hp
          have hpd := hasDir_parent hr hp hde
          have hrev : (D ++ p).reverse = b :: (D ++ a).reverse := by rw [hab, ← List.append_assoc, List.reverse_append]; rfl
          have hga : ∀ x ∈ D ++ a, GoodName x := fun x hx =>
            (List.mem_append.1 hx).elim (hD.1.2 x) (fun h => hp.2 x (by rw [hab]; exact List.mem_append_left _ h))
          rw [hab, List.dropLast_concat] at hpd
          have hgo : d.go [] (D ++ a) = some (D ++ a) := by
            have := go_good (d := d) hga (cur := []) (by
              intro x z hx hz; rw [List.nil_append]; exact hpd x ⟨z, hx.symm⟩)
            simpa using this
          have hgo2 : d.go [] (D ++ a ++ [b]) = some (D ++ a ++ [b]) := by
            rw [go_append, hgo]
            simp only [Option.bind_some]
            have hb : GoodName b := hp.2 b (by rw [hab]; simp)
            rw [go_cons, hpd _ (List.prefix_refl _), if_neg (by simp), if_neg (by simp [hb.nonempty, hb.nodot]), if_neg hb.nodotdot]
            rfl
          rw [hab, ← List.append_assoc] at hde hdd
          have hmk : d.mkdirs (D ++ p).reverse = (.fileExists, d) := by
            rw [hrev]
            unfold LDisk.mkdirs LDisk.mkdir
            rw [List.reverse_reverse, hgo, hgo2]
            simp only [Option.elim_some, isdir_exists (hpd _ (List.prefix_refl _)), if_true, hde]
          rw [hmk]
          have hmf : d.names.makedirsFrom D p = .error .osError := by
            rw [hab, makedirsFrom_concat, makedirsFrom_there (fun x z e hx => by
              rcases ldisk_isdir_iff.1 (hpd (D ++ x) ⟨z, by rw [e, List.append_assoc]⟩) with h | h
              · exact absurd (List.append_eq_nil_iff.1 h).2 hx
              · exact h)]
            simp only
            rw [if_neg (fun h => hdd (ldisk_isdir_iff.2 (.inr h)))]
            unfold LTree.mkdir
            rw [if_pos]
            have : (dget d.names (D ++ a ++ [b])).isSome = true := by
              simpa [LDisk.exists] using hde
            rw [this]
            simp
          rw [hmf]
        · obtain ⟨t, ht, hm, _⟩ := mkdirs_eq hD.1.2 hp.2 hDh hr (by
            intro x z e he
            by_cases hz : z = []
            · subst hz; rw [List.append_nil] at e; rw [← e] at he; exact absurd he hde
            · exact hway x z e hz he) (by simpa using hde)
          rw [hm, ht]
    · simp only [hsd, Bool.false_eq_true, if_false]
      obtain ⟨i, hi⟩ : ∃ i, dget d.names (B ++ p) = some (.file i) := by
        cases hg : dget d.names (B ++ p) with
        | none => simp [LDisk.exists, hg, hp.1] at hex
        | some n =>
          cases n with
          | dir => exact absurd (ldisk_isdir_iff.2 (.inr hg)) hsd
          | file i => exact ⟨i, rfl⟩
      have hBp := hasDir_parent hr hp hex
      have hdn : dirName (pathJoin c.dest c.path) = '/' :: joinPath (D ++ p.dropLast) := by
        rw [hpath, join_good hD hp]
        have := dirName_slashes (k := 1) (by decide) (q := D ++ p)
          (fun x hx => (List.mem_append.1 hx).elim (hD.1.2 x) (hp.2 x))
        rw [List.dropLast_append_of_ne_nil hp.1] at this
        simpa using this
      have hga : ∀ x ∈ D ++ p.dropLast, GoodName x := fun x hx =>
        (List.mem_append.1 hx).elim (hD.1.2 x) (fun h => hp.2 x (List.dropLast_subset _ h))
      have hdnE : d.existsAt (dirName (pathJoin c.dest c.path)) = d.exists (D ++ p.dropLast) := by
        rw [hdn]
        unfold LDisk.existsAt
        by_cases he : d.exists (D ++ p.dropLast) = true
        · rw [place_abs hga (fun x y e hy => hr x y hy (by rw [← e]; exact he))]
        · cases hpl : d.place ('/' :: joinPath (D ++ p.dropLast)) with
          | none => simpa using he
          | some r =>
            have := place_leads hpl
            rw [show leadsTo [] ('/' :: joinPath (D ++ p.dropLast)) = D ++ p.dropLast from
              leadsTo_slashes (k := 1) (by decide) hga []] at this
            rw [this]
      rw [hdnE]
      by_cases he : d.exists (D ++ p.dropLast) = true
      · simp only [he, if_true]
        obtain ⟨a, b, hab⟩ := concat_of_good hp
        have hdd : d.isdir (D ++ p.dropLast) = true := hway p.dropLast [b] (by rw [hab]; simp) (by simp) he
        exact linkOrCopy_plain hB hD hp hpath hBp (hasDir_of_rooted hr hdd) hi
      · have he' : d.exists (D ++ p.dropLast) = false := by simpa using he
        simp only [he', Bool.false_eq_true, if_false]
        obtain ⟨a, b, hab⟩ := concat_of_good hp
        obtain ⟨t, ht, hm, hh⟩ := mkdirs_eq hD.1.2 (fun x h => hp.2 x (List.dropLast_subset _ h)) hDh hr (by
          intro x z e hx
          exact hway x (z ++ [b]) (by rw [← List.append_assoc, ← e, hab]; simp) (by simp) hx) he'
        have hparts : (splitOn '/' (dirName (pathJoin c.dest c.path))).filter (· ≠ []) = D ++ p.dropLast := by
          rw [hdn]
          have e := splitOn_append_slash [] (joinPath (D ++ p.dropLast))
          rw [List.nil_append] at e
          rw [e, splitOn_joinPath' ⟨by simp [hD.1.1], hga⟩]
          rw [show splitOn '/' ([] : Str) = [[]] from rfl, List.singleton_append, List.filter_cons_of_neg (by simp),
            List.filter_eq_self]
          intro a ha
          simpa using (hga a ha).nonempty
        unfold LDisk.makedirsAt LDisk.makedirs
        rw [hparts, hm, ht]
        simp only
        have ht' : d.names.makedirsFrom (D ++ []) p.dropLast = .ok t := by rw [List.append_nil]; exact ht
        have g := (lmakedirs_ok ht').1
        refine linkOrCopy_plain hB hD hp hpath (fun x hx => ?_) hh (g.keep _ _ hi)
        rcases ldisk_isdir_iff.1 (hBp x hx) with e | e
        · exact ldisk_isdir_iff.2 (.inl e)
        · exact ldisk_isdir_iff.2 (.inr (g.keep _ _ e))
  · have hex' : d.exists (B ++ p) = false := by simpa using hex
    simp only [hex', Bool.not_false, if_true]

example : sameNames.replicateAt (toOut py!"data/x") =
    sameNames.replicate ⟨[py!"v", py!"a"], .writable true, [py!"data", py!"x"], [py!"o", py!"out"], false, true⟩ :=
  C128_plain (c := toOut py!"data/x") sameNames_rooted abs_va abs_out good_data_x rfl
    ⟨by decide, fun x y e hy he => by
      have hx : x = [] ∨ x = [py!"data"] := by
        match x, y, e, hy with
        | [], _, _, _ => exact .inl rfl
        | [_], _, e, _ => simp at e; exact .inr (by rw [e.1])
        | [_, _], y, e, hy => simp at e; exact absurd e.2.2 hy
        | _ :: _ :: _ :: _, _, e, _ => simp at e
      rcases hx with rfl | rfl
      · decide
      · exact absurd he (by decide)⟩

example : (sameNames.replicateAt (toOut py!"../a/data/x")).2.node [py!"o", py!"a", py!"data", py!"x"] = some (.file py!"one") :=
  (C128_negation_outside (c := toOut py!"../a/data/x") (P := [py!"v"]) (Q := [py!"o"]) (name := py!"a") (out := py!"out")
    sameNames_rooted abs_va abs_out (by decide) good_data_x rfl (by kernel_rfl) (by decide) (by decide) (by decide)
    (by decide) rfl).2.1

example : (sameNames.replicateAt (toOut py!"/v/a/data/x")) = (.ok (), sameNames) :=
  C128_negation_absolute (c := toOut py!"/v/a/data/x") (p := [py!"data", py!"x"]) sameNames_rooted abs_va good_data_x rfl
    (s := py!"one") (by kernel_rfl) rfl

/-- **C128** is false of the code: with a slash at the end, or with a directory that is not there and left again by
`..`, the path of a file is in the bag, and the call ends as if it had been put somewhere; but there is a directory in its
place, or nothing. -/
theorem C128_negation_not_delivered : ∃ (d : LDisk) (c c' : TextCall) (B D p : Path), Rooted d ∧ InodesOk d ∧
    AbsPath c.bag B ∧ AbsPath c.dest D ∧ GoodPath p ∧ (∃ s, d.node (B ++ p) = some (.file s)) ∧
    c.path = joinPath p ++ ['/'] ∧ leadsTo B c.path = B ++ p ∧
    (d.replicateAt c).1 = .ok () ∧ (d.replicateAt c).2.node (D ++ p) = some .dir ∧
    c'.bag = c.bag ∧ c'.dest = c.dest ∧ c'.path = py!"no/../" ++ joinPath p ∧ leadsTo B c'.path = B ++ p ∧
    (d.replicateAt c').1 = .ok () ∧ (d.replicateAt c').2.node (D ++ p) = none ∧
    (d.replicateAt c').2.node (D ++ [py!"no"]) = some .dir :=
  ⟨sameNames, toOut py!"data/x/", toOut py!"no/../data/x", _, _, [py!"data", py!"x"], sameNames_rooted, sameNames_ok, abs_va,
    abs_out, good_data_x, ⟨py!"one", by kernel_rfl⟩, by decide, by decide, by kernel_rfl, by kernel_rfl, rfl, rfl,
    by decide, by decide, by kernel_rfl, by kernel_rfl, by kernel_rfl⟩

end Verif
