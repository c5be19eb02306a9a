import Verif.Props.OnDisk
import Verif.Props.BagWalk
import Verif.Lemmas.Below
/-!
# C126: the updates of a bag on a disk are the updates of the bag

The models of head bag objects that work on the directory of the bag alone (`Model/HeadBag.lean`) do to the bag what
is done on a disk, if the tag directory is a plain path.
-/

namespace Verif

open Spec

theorem osResolve_append (disk : Tree) (a b : List Str) (cur : Path) :
    osResolve disk cur (a ++ b) = (osResolve disk cur a).bind (fun q => osResolve disk q b) := by
  induction a generalizing cur with
  | nil => rfl
  | cons c a ih =>
    simp only [List.cons_append, osResolve]
    split
    · rfl
    · split
      · exact ih _
      · split
        · exact ih _
        · exact ih _

/-- A plain path is resolved if the directory it is in is there. -/
theorem osResolve_plain {disk : Tree} (hw : WfTree disk) (B : Path) {d : Path} (hd : GoodPath d) :
    osResolve disk B d = if disk.isdir (B ++ d.dropLast) then some (B ++ d) else none := by
  have e : d = d.dropLast ++ [d.getLast hd.1] := (List.dropLast_concat_getLast hd.1).symm
  have hg : ∀ c ∈ d.dropLast, GoodName c := fun c hc => hd.2 c ((List.dropLast_sublist _).subset hc)
  have hl : GoodName (d.getLast hd.1) := hd.2 _ (List.getLast_mem _)
  have hlast : ∀ q : Path, osResolve disk q [d.getLast hd.1] =
      if disk.isdir q then some (q ++ [d.getLast hd.1]) else none := by
    intro q
    have h1 : ¬ (d.getLast hd.1 = [] ∨ d.getLast hd.1 = ['.']) := not_or.2 ⟨hl.nonempty, hl.nodot⟩
    simp only [osResolve, if_neg h1, if_neg hl.nodotdot]
    cases disk.isdir q <;> simp
  have e2 := osResolve_append disk d.dropLast [d.getLast hd.1] B
  rw [← e] at e2
  rw [e2]
  by_cases h : disk.isdir (B ++ d.dropLast) = true
  · rw [osResolve_dir hw _ _ hg h, Option.bind_some, hlast, if_pos h, if_pos h, List.append_assoc, ← e]
  · rw [if_neg h]
    cases hr : osResolve disk B d.dropLast with
    | none => rfl
    | some q =>
      rw [Option.bind_some, hlast, osResolve_good _ _ hg hr, if_neg h]

/-! ## Operations in a directory -/

section
variable {t : Tree} {B : Path}

theorem below_isdir (hb : t.isdir B = true) (p : Path) : (t.below B).isdir p = t.isdir (B ++ p) := by
  by_cases hp : p = []
  · subst hp; rw [List.append_nil, hb]; rfl
  · unfold Tree.isdir
    rw [dget_below hp]
    simp [hp]

theorem below_exists (hb : t.isdir B = true) (p : Path) : (t.below B).exists p = t.exists (B ++ p) := by
  by_cases hp : p = []
  · subst hp
    rw [List.append_nil]
    rcases isdir_iff.1 hb with e | e
    · rw [e]; rfl
    · simp [Tree.exists, e]
  · unfold Tree.exists
    rw [dget_below hp]
    simp [hp]

theorem below_isfile {p : Path} (hp : p ≠ []) : (t.below B).isfile p = t.isfile (B ++ p) := by
  unfold Tree.isfile
  rw [dget_below hp]

theorem below_ddel (t : Tree) (B p : Path) : Tree.below (ddel t (B ++ p)) B = ddel (t.below B) p := by
  induction t with
  | nil => rfl
  | cons e t ih =>
    obtain ⟨k, n⟩ := e
    unfold ddel at ih ⊢
    rw [List.filter_cons, below_cons]
    by_cases e : k = B ++ p
    · subst e
      rw [if_neg (by simp), ih]
      split
      · rw [List.drop_left, List.filter_cons, if_neg (by simp)]
      · rfl
    · rw [if_pos (by simpa using e), below_cons, ih]
      split
      · rename_i h
        simp only [Bool.and_eq_true, List.isPrefixOf_iff_prefix, decide_eq_true_eq] at h
        obtain ⟨⟨r, hr⟩, _⟩ := h
        rw [List.filter_cons, if_pos]
        simp only [ne_eq, decide_not, Bool.not_eq_true', decide_eq_false_iff_not]
        rw [← hr, List.drop_left]
        rintro rfl
        exact e hr.symm
      · rfl

theorem below_mkdir (hb : t.isdir B = true) {p : Path} (hp : p ≠ []) :
    (t.below B).mkdir p = (t.mkdir (B ++ p)).map (·.below B) := by
  unfold Tree.mkdir
  rw [below_exists hb, below_isdir hb, List.dropLast_append_of_ne_nil hp]
  split
  · rfl
  · simp only [Except.map, below_dset hp]

theorem below_write (hb : t.isdir B = true) {p : Path} (hp : p ≠ []) (c : Str) :
    (t.below B).write p c = (t.write (B ++ p) c).map (·.below B) := by
  unfold Tree.write
  rw [below_isdir hb, below_isdir hb, List.dropLast_append_of_ne_nil hp]
  split
  · rfl
  · simp only [Except.map, below_dset hp]

theorem below_remove {p : Path} (hp : p ≠ []) : (t.below B).remove p = (t.remove (B ++ p)).map (·.below B) := by
  unfold Tree.remove
  rw [below_isfile hp]
  split
  · simp only [Except.map, below_ddel]
  · rfl

end

/-! ## The updates -/

/-- A bag in the directory `B` of a disk, with the tag directory `d`. -/
structure BagAt (B d : Path) (s : OnDisk) (h : HeadBag) : Prop where
  wf : WfTree s.disk
  root : ∀ c ∈ B, GoodName c
  bag : s.disk.isdir B = true
  tree : h.tree = s.disk.below B
  info : h.info = s.info
  good : GoodPath d
  dir : tagDir s.info = joinPath d

section
variable {B d : Path} {s : OnDisk} {h : HeadBag}

theorem startsWith_joinPath {d : Path} (hd : GoodPath d) : startsWith ['/'] (joinPath d) = false := by
  cases d with
  | nil => exact absurd rfl hd.1
  | cons c d =>
    have hc := hd.2 c (by simp)
    rw [Bool.eq_false_iff]
    intro e
    rw [startsWith_slash_head] at e
    cases hcc : c with
    | nil => exact hc.nonempty hcc
    | cons x xs =>
      have : (joinPath (c :: d)).head? = some x := by
        cases d with
        | nil => simp [joinPath, joinWith, hcc]
        | cons y ys => simp [joinPath, joinWith, hcc]
      rw [this] at e
      injection e with e
      exact hc.noslash (by rw [hcc, e]; simp)

theorem place_plain (b : BagAt B d s h) {rest : Path} (hr : ∀ c ∈ rest, GoodName c) :
    placeOf s.disk B (tagDir s.info) rest =
      if s.disk.isdir (B ++ (d ++ rest).dropLast) then some (B ++ (d ++ rest)) else none := by
  unfold placeOf
  rw [b.dir, startsWith_joinPath b.good, splitOn_joinPath' b.good]
  simp only [Bool.false_eq_true, if_false]
  refine osResolve_plain b.wf B ⟨by simp [b.good.1], ?_⟩
  intro c hc
  rcases List.mem_append.1 hc with e | e
  · exact b.good.2 c e
  · exact hr c e

theorem exists_plain (b : BagAt B d s h) {rest : Path} (hr : ∀ c ∈ rest, GoodName c) :
    osExists s.disk B (tagDir s.info) rest = h.tree.exists (d ++ rest) := by
  unfold osExists
  rw [place_plain b hr, b.tree, below_exists b.bag]
  by_cases hi : s.disk.isdir (B ++ (d ++ rest).dropLast) = true
  · rw [if_pos hi]
  · rw [if_neg hi]
    rw [eq_comm, Bool.eq_false_iff]
    intro he
    have hne : B ++ (d ++ rest) ≠ [] := by simp [b.good.1]
    simp only [Tree.exists, hne, decide_false, Bool.false_or, Option.isSome_iff_exists] at he
    have := b.wf.parent _ (mem_dkeys_iff.2 he)
    rw [List.dropLast_append_of_ne_nil (by simp [b.good.1])] at this
    exact hi this

/-- The two calls end alike, and there still is a bag at the same place. -/
def Agree (B d : Path) (r : Done) (r' : Res Unit) : Prop := r.1 = r'.1 ∧ BagAt B d r.2 r'.2

/-- A file operation in the bag. -/
def inBag (h : HeadBag) : Except PyErr Tree → Res Unit
  | .error e => (.error e, h)
  | .ok t => (.ok (), { h with tree := t })

theorem agree_lift (b : BagAt B d s h) {r r' : Except PyErr Tree} (e : r' = r.map (·.below B))
    (k : ∀ t, r = .ok t → WfTree t ∧ t.isdir B = true) : Agree B d (s.lift r) (inBag h r') := by
  subst e
  cases r with
  | error x => exact ⟨rfl, b⟩
  | ok t =>
    obtain ⟨k1, k2⟩ := k t rfl
    exact ⟨rfl, k1, b.root, k2, rfl, b.info, b.good, b.dir⟩

theorem good_place (b : BagAt B d s h) {rest : Path} (hr : ∀ c ∈ rest, GoodName c) : ∀ c ∈ B ++ (d ++ rest), GoodName c := by
  intro c hc
  rcases List.mem_append.1 hc with e | e
  · exact b.root c e
  · rcases List.mem_append.1 e with e | e
    · exact b.good.2 c e
    · exact hr c e

theorem kept_self (b : BagAt B d s h) : Kept s.disk B s.disk := ⟨b.wf, b.bag, fun _ _ => rfl⟩

theorem agree_ensure (b : BagAt B d s h) : Agree B d (s.ensureTagdir B) h.ensureTagdir := by
  unfold OnDisk.ensureTagdir HeadBag.ensureTagdir
  have hc : comps (tagDir h.info) = d := by rw [b.info, b.dir, comps_joinPath b.good]
  simp only [hc]
  have he := exists_plain b (rest := []) (by simp)
  rw [List.append_nil] at he
  rw [he]
  split
  · exact ⟨rfl, b⟩
  · have hm : mkdirPlace s.disk B (tagDir s.info) = if s.disk.isdir (B ++ d.dropLast) then some (B ++ d) else none := by
      unfold mkdirPlace
      rw [b.dir, startsWith_joinPath b.good, splitOn_joinPath' b.good]
      have : (d.reverse.dropWhile (· = [])).reverse = d := by
        have h1 := List.dropLast_concat_getLast b.good.1
        have h2 := (b.good.2 _ (List.getLast_mem b.good.1)).nonempty
        generalize hx : d.getLast b.good.1 = x at h1 h2
        rw [← h1, List.reverse_append, List.reverse_singleton, List.singleton_append, List.dropWhile_cons,
          if_neg (by simpa using h2), List.reverse_cons, List.reverse_reverse]
      rw [this]
      exact osResolve_plain b.wf B b.good
    rw [hm]
    have hb := below_mkdir b.bag (p := d) b.good.1
    rw [← b.tree] at hb
    have hg := good_place b (rest := []) (by simp)
    rw [List.append_nil] at hg
    by_cases hi : s.disk.isdir (B ++ d.dropLast) = true
    · rw [if_pos hi]
      have := agree_lift b hb (fun t ht => by
        have k := kept_mkdir (kept_self b) (List.prefix_append B d) hg ht
        exact ⟨k.wf, k.bag⟩)
      revert this
      cases h.tree.mkdir d <;> exact id
    · rw [if_neg hi]
      have : h.tree.mkdir d = .error .osError := by
        unfold Tree.mkdir
        rw [b.tree, below_isdir b.bag, Bool.eq_false_iff.2 hi]
        simp
      rw [this]
      exact ⟨rfl, b⟩

theorem agree_write (b : BagAt B d s h) {name : Str} (hn : GoodName name) (text : Str) :
    Agree B d (s.writeTag B name text) (inBag h (h.tree.write (d ++ [name]) text)) := by
  unfold OnDisk.writeTag
  have hr : ∀ c ∈ [name], GoodName c := by simpa using hn
  rw [place_plain b hr]
  have hb := below_write b.bag (p := d ++ [name]) (by simp) text
  rw [← b.tree] at hb
  rw [List.dropLast_concat]
  by_cases hi : s.disk.isdir (B ++ d) = true
  · rw [if_pos hi]
    exact agree_lift b hb (fun t ht => by
      have k := kept_write (kept_self b) (List.prefix_append B _) (good_place b hr) ht
      exact ⟨k.wf, k.bag⟩)
  · rw [if_neg hi]
    have : h.tree.write (d ++ [name]) text = .error .osError := by
      unfold Tree.write
      rw [b.tree, below_isdir b.bag, below_isdir b.bag, List.dropLast_concat, Bool.eq_false_iff.2 hi]
      simp
    rw [this]
    exact ⟨rfl, b⟩

theorem agree_remove (b : BagAt B d s h) {name : Str} (hn : GoodName name) :
    Agree B d (s.removeTag B name) (inBag h (h.tree.remove (d ++ [name]))) := by
  unfold OnDisk.removeTag
  have hr : ∀ c ∈ [name], GoodName c := by simpa using hn
  rw [place_plain b hr]
  have hb := below_remove (t := s.disk) (B := B) (p := d ++ [name]) (by simp)
  rw [← b.tree] at hb
  rw [List.dropLast_concat]
  by_cases hi : s.disk.isdir (B ++ d) = true
  · rw [if_pos hi]
    exact agree_lift b hb (fun t ht => by
      have k := kept_remove (kept_self b) (List.prefix_append B _) ht
      exact ⟨k.wf, k.bag⟩)
  · rw [if_neg hi]
    have : h.tree.remove (d ++ [name]) = .error .osError := by
      rw [hb]
      unfold Tree.remove
      rw [if_neg]
      · rfl
      · intro hf
        obtain ⟨c, hc⟩ := isfile_iff.1 hf
        have := b.wf.parent _ (mem_dkeys_iff.2 ⟨_, hc⟩)
        rw [← List.append_assoc, List.dropLast_concat] at this
        exact hi this
    rw [this]
    exact ⟨rfl, b⟩

theorem tagFile_plain (b : BagAt B d s h) {name : Str} (hn : comps name = [name]) :
    tagFile (tagDir h.info) name = d ++ [name] := by
  rw [tagFile_eq _ hn, b.info, b.dir, comps_joinPath b.good]

/-- One call after the other, unless there is an exception. -/
def bagThen (r : Res Unit) (g : HeadBag → Res Unit) : Res Unit :=
  match r with
  | (.error e, h) => (.error e, h)
  | (.ok _, h) => g h

theorem agree_next {r : Done} {r' : Res Unit} (a : Agree B d r r') {f : OnDisk → Done} {g : HeadBag → Res Unit}
    (k : ∀ s h, BagAt B d s h → Agree B d (f s) (g h)) :
    Agree B d (r.next f) (bagThen r' g) := by
  obtain ⟨r1, s1⟩ := r
  obtain ⟨r2, h2⟩ := r'
  obtain ⟨a1, a2⟩ := a
  simp only at a1 a2
  subst a1
  cases r1 with
  | error e => exact ⟨rfl, a2⟩
  | ok u => exact k _ _ a2

end

/-- **C126** With a plain tag directory (`d` is a path of proper names), the updates on a disk do to the bag just what
they do in the models of the bag alone, and end with the same exceptions: `save_member_bags`, `save_file_lookup`,
`save_deleted` and `clear_file_lookup`. -/
theorem C126_same {B d : Path} {s : OnDisk} {h : HeadBag} (b : BagAt B d s h) :
    (∀ ms text r, h.members = some ms → HeadBag.membersWritten ms = (text, r) →
      (r = .ok () → (s.act B (.saveMembers text)).1 = h.saveMemberBags.1) ∧
      (s.act B (.saveMembers text)).2.disk.below B = h.saveMemberBags.2.tree) ∧
    (∀ l, h.lookup = some l →
      (s.act B (.saveLookup (lookupText l))).1 = h.saveFileLookup.1 ∧
      (s.act B (.saveLookup (lookupText l))).2.disk.below B = h.saveFileLookup.2.tree) ∧
    (∀ ps, h.deleted = some ps →
      (s.act B (.saveDeleted ps)).1 = h.saveDeleted.1 ∧
      (s.act B (.saveDeleted ps)).2.disk.below B = h.saveDeleted.2.tree) ∧
    ((s.act B .clearLookup).1 = h.clearFileLookup.1 ∧
      (s.act B .clearLookup).2.disk.below B = h.clearFileLookup.2.tree) := by
  have c1 : comps py!"member-bags.tsv" = [py!"member-bags.tsv"] := by decide
  have c2 : comps py!"file-lookup.tsv" = [py!"file-lookup.tsv"] := by decide
  have c3 : comps py!"deleted.txt" = [py!"deleted.txt"] := by decide
  have g1 : GoodName py!"member-bags.tsv" := ⟨by decide, by decide, by decide, by decide⟩
  have g2 : GoodName py!"file-lookup.tsv" := ⟨by decide, by decide, by decide, by decide⟩
  have g3 : GoodName py!"deleted.txt" := ⟨by decide, by decide, by decide, by decide⟩
  have ee : ∀ {r : Done} {r' : Res Unit}, Agree B d r r' → r.1 = r'.1 ∧ r.2.disk.below B = r'.2.tree :=
    fun a => ⟨a.1, a.2.tree.symm⟩
  refine ⟨fun ms text r hm ht => ?_, fun l hl => ?_, fun ps hp => ?_, ?_⟩
  · have a := agree_next (agree_ensure b) (fun s h b => agree_write b g1 text)
    have key : (bagThen h.ensureTagdir (fun h => inBag h (h.tree.write (d ++ [py!"member-bags.tsv"]) text))).2.tree = h.saveMemberBags.2.tree ∧
      (r = .ok () → (bagThen h.ensureTagdir (fun h => inBag h (h.tree.write (d ++ [py!"member-bags.tsv"]) text))).1 = h.saveMemberBags.1) := by
      unfold HeadBag.saveMemberBags
      simp only [hm, ht]
      have a1 := (agree_ensure b).2
      generalize h.ensureTagdir = x at a1
      obtain ⟨x1, x2⟩ := x
      cases x1 with
      | error e => exact ⟨rfl, fun _ => rfl⟩
      | ok u =>
        simp only [bagThen] at a1 ⊢
        rw [tagFile_plain a1 c1]
        cases x2.tree.write (d ++ [py!"member-bags.tsv"]) text with
        | error e => exact ⟨rfl, fun _ => rfl⟩
        | ok t => exact ⟨rfl, fun e => e.symm⟩
    refine ⟨fun hr => ?_, ?_⟩
    · exact (ee a).1.trans (key.2 hr)
    · exact (ee a).2.trans key.1
  · have a := agree_next (agree_ensure b) (fun s h b => agree_write b g2 (lookupText l))
    have key : bagThen h.ensureTagdir (fun h => inBag h (h.tree.write (d ++ [py!"file-lookup.tsv"]) (lookupText l))) = h.saveFileLookup := by
      unfold HeadBag.saveFileLookup
      simp only [hl]
      have a1 := (agree_ensure b).2
      generalize h.ensureTagdir = x at a1
      obtain ⟨x1, x2⟩ := x
      cases x1 with
      | error e => rfl
      | ok u =>
        simp only [bagThen] at a1 ⊢
        rw [tagFile_plain a1 c2]
        cases x2.tree.write (d ++ [py!"file-lookup.tsv"]) (lookupText l) <;> rfl
    rw [← key]
    exact ee a
  · have hdf : deletedFile h.info = d ++ [py!"deleted.txt"] := tagFile_plain b c3
    have a0 : Agree B d (if ps = [] ∧ osExists s.disk B (tagDir s.info) [py!"deleted.txt"] then
          s.removeTag B py!"deleted.txt" else (.ok (), s))
        (if ps = [] ∧ h.tree.exists (d ++ [py!"deleted.txt"]) then inBag h (h.tree.remove (d ++ [py!"deleted.txt"]))
          else (.ok (), h)) := by
      rw [exists_plain b (by simpa using g3)]
      split
      · exact agree_remove b g3
      · exact ⟨rfl, b⟩
    have a1 := agree_next a0 (fun s h b => agree_ensure b)
    have a2 := agree_next a1 (fun s h b => agree_write b g3 (deletedText ps))
    have key : bagThen (bagThen (if ps = [] ∧ h.tree.exists (d ++ [py!"deleted.txt"]) then
            inBag h (h.tree.remove (d ++ [py!"deleted.txt"])) else (.ok (), h)) (fun h => h.ensureTagdir))
        (fun h => inBag h (h.tree.write (d ++ [py!"deleted.txt"]) (deletedText ps))) = h.saveDeleted := by
      have tail : ∀ h : HeadBag, bagThen h.ensureTagdir
          (fun h => inBag h (h.tree.write (d ++ [py!"deleted.txt"]) (deletedText ps))) =
          (match h.ensureTagdir with
          | (.error e, s) => (.error e, s)
          | (.ok _, s) =>
            match s.tree.write (d ++ [py!"deleted.txt"]) (deletedText ps) with
            | .error e => (.error e, s)
            | .ok t => (.ok (), { s with tree := t })) := by
        intro h
        generalize h.ensureTagdir = x
        obtain ⟨x1, x2⟩ := x
        cases x1 with
        | error e => rfl
        | ok u =>
          simp only [bagThen]
          cases x2.tree.write (d ++ [py!"deleted.txt"]) (deletedText ps) <;> rfl
      have hdf' := hdf
      have hp' := hp
      revert hdf' hp'
      generalize h = h0
      intro hdf' hp'
      obtain ⟨tree, info, members, lookup, deleted⟩ := h0
      simp only at hp' hdf'
      subst hp'
      simp only [HeadBag.saveDeleted, hdf', id]
      by_cases hc : ps = [] ∧ tree.exists (d ++ [py!"deleted.txt"]) = true
      · rw [if_pos hc, if_pos hc]
        cases tree.remove (d ++ [py!"deleted.txt"]) with
        | error e => rfl
        | ok t => exact tail _
      · rw [if_neg hc, if_neg hc]
        exact tail _
    rw [← key]
    exact ee a2
  · simp only [OnDisk.act]
    unfold HeadBag.clearFileLookup
    simp only [tagFile_plain b c2]
    rw [exists_plain b (by simpa using g2)]
    split
    · have a := ee (agree_remove b g2)
      revert a
      cases h.tree.remove (d ++ [py!"file-lookup.tsv"]) <;> exact id
    · exact ⟨rfl, b.tree.symm⟩

/-- The hypotheses of `C126_same` are met by the bag of `exDisk`; nothing changes next to it. -/
example :
    let h : HeadBag := { tree := exDisk.below [py!"w", py!"b"], info := [], lookup := some [(py!"data/f", py!"m")] }
    BagAt [py!"w", py!"b"] [py!"multibag"] ⟨exDisk, []⟩ h ∧
    h.saveFileLookup.2.tree = [([py!"multibag"], .dir), ([py!"multibag", py!"file-lookup.tsv"], .file py!"data/f\tm\n")] := by
  intro h
  refine ⟨⟨wf_exDisk, ?_, by decide, rfl, rfl, ⟨by decide, ?_⟩, rfl⟩, by kernel_rfl⟩
  · intro c hc
    have : ∀ c ∈ [py!"w", py!"b"], c ≠ [] ∧ '/' ∉ c ∧ c ≠ ['.'] ∧ c ≠ ['.', '.'] := by decide
    obtain ⟨h1, h2, h3, h4⟩ := this c hc
    exact ⟨h1, h2, h3, h4⟩
  · intro c hc
    have : ∀ c ∈ [py!"multibag"], c ≠ [] ∧ '/' ∉ c ∧ c ≠ ['.'] ∧ c ≠ ['.', '.'] := by decide
    obtain ⟨h1, h2, h3, h4⟩ := this c hc
    exact ⟨h1, h2, h3, h4⟩

end Verif
