import Verif.Lemmas.OnDisk
import Verif.Props.UpdateMember
import Verif.Py.KernelRfl
/-!
# C126: updating a head bag touches nothing outside of the bag
-/

namespace Verif

open Spec

/-- **C126** Whatever a program does with a head bag object -- saving and clearing its files, setting the tag
directory, amending, in any number and order, with or without exceptions -- everything outside of the bag's directory
is as it was and the bag's directory is still there, *if* every tag directory that is named leads into the bag.

Missing: other tag directories, as the code does not check where they lead; see `C126_negation_absolute` and
`C126_negation_sibling`. -/
theorem C126_inside_partial {s : OnDisk} {bagdir : Path} (hB : ∀ c ∈ bagdir, GoodName c) (hw : WfTree s.disk)
    (hb : s.disk.isdir bagdir = true) (hd : Inside bagdir (leadsTo bagdir (tagDir s.info))) {acts : List DiskAct}
    (ha : ∀ a ∈ acts, NamesInside bagdir a) :
    (∀ p, ¬ Inside bagdir p → dget (s.acts bagdir acts).disk p = dget s.disk p) ∧
    (s.acts bagdir acts).disk.isdir bagdir = true ∧ WfTree (s.acts bagdir acts).disk := by
  have c : Confined s.disk bagdir s := ⟨⟨hw, hb, fun _ _ => rfl⟩, hd⟩
  have := (confined_acts hB ha c).kept
  exact ⟨this.same, this.bag, this.wf⟩

theorem follow_downwards {cs : List Str} (h : py!".." ∉ cs) (cur : Path) : cur <+: follow cur cs := by
  induction cs generalizing cur with
  | nil => exact List.prefix_refl _
  | cons c cs ih =>
    have h1 : c ≠ py!".." := by rintro rfl; simp at h
    have h2 : py!".." ∉ cs := fun hh => h (by simp [hh])
    simp only [follow]
    split
    · exact ih h2 cur
    · exact (List.prefix_append cur [c]).trans (ih h2 _)

/-- **C126** In particular if no tag directory is an absolute path or contains `..`.
Missing: other tag directories, as in `C126_inside_partial`. -/
theorem C126_downwards_partial {s : OnDisk} {bagdir : Path} (hB : ∀ c ∈ bagdir, GoodName c) (hw : WfTree s.disk)
    (hb : s.disk.isdir bagdir = true) (hd : Downwards (tagDir s.info)) {acts : List DiskAct}
    (hi : ∀ info, .setInfo info ∈ acts → Downwards (tagDir info))
    (hs : ∀ d m, .setTagDir d m ∈ acts → py!".." ∉ splitOn '/' d) {p : Path} (hp : ¬ Inside bagdir p) :
    dget (s.acts bagdir acts).disk p = dget s.disk p := by
  have key : ∀ q, Downwards q → Inside bagdir (leadsTo bagdir q) := by
    intro q hq
    rw [leadsTo_rel hq.1]
    exact follow_downwards hq.2 _
  refine (C126_inside_partial hB hw hb (key _ hd) (acts := acts) ?_).1 p hp
  intro a ha
  cases a with
  | setInfo info => exact key _ (hi info ha)
  | setTagDir d m => exact follow_downwards (hs d m ha) _
  | _ => trivial

/-! ## Where the files are -/

theorem placeOf_passable {disk : Tree} {bagdir : Path} {dir name : Str} (hn : GoodName name)
    (h : Passable disk bagdir dir) : placeOf disk bagdir dir [name] = some (leadsTo bagdir dir ++ [name]) ∧
      placeOf disk bagdir dir [] = some (leadsTo bagdir dir) ∧ disk.isdir (leadsTo bagdir dir) = true := by
  have hdir : disk.isdir (leadsTo bagdir dir) = true := h (splitOn '/' dir) [] (by simp)
  have e : ∀ rest : List Str, (∀ c ∈ rest, GoodName c) → rest.length ≤ 1 →
      placeOf disk bagdir dir rest = some (leadsTo bagdir dir ++ rest) := by
    intro rest hr hl
    unfold placeOf
    simp only [startsWith_slash_head]
    rw [osResolve_passable, follow_append, follow_good _ hr]
    · rfl
    · intro a b hab hb
      rcases List.append_eq_append_iff.1 hab with ⟨x, hx, hx2⟩ | ⟨x, hx, hx2⟩
      · have hx0 : x = [] := by
          have := congrArg List.length hx2
          have := List.length_pos_iff.2 hb
          simp at *; apply List.eq_nil_of_length_eq_zero; omega
        subst hx0
        rw [hx, List.append_nil]
        exact h _ [] (by simp)
      · exact h a x hx
  exact ⟨e [name] (by simpa using hn) (by simp), by simpa using e [] (by simp) (by simp), hdir⟩

theorem ensure_passable {s : OnDisk} {bagdir : Path} (h : Passable s.disk bagdir (tagDir s.info)) :
    s.ensureTagdir bagdir = (.ok (), s) := by
  obtain ⟨_, h2, h3⟩ := placeOf_passable (name := py!"x") ⟨by decide, by decide, by decide, by decide⟩ h
  unfold OnDisk.ensureTagdir osExists
  rw [h2]
  have : s.disk.exists (leadsTo bagdir (tagDir s.info)) = true := by
    rcases isdir_iff.1 h3 with e | e
    · rw [e]; rfl
    · simp [Tree.exists, e]
  simp [this]

/-- **C126** Where the files of a head bag are, wherever its tag directory leads: with a tag directory that is there,
saving writes the files `member-bags.tsv`, `file-lookup.tsv` and `deleted.txt` in it, `clear_file_lookup` and the start
of an amendment remove a file in it, and nothing else on the disk changes. -/
theorem C126_where {s : OnDisk} {bagdir : Path} (h : Passable s.disk bagdir (tagDir s.info)) :
    (∀ text, s.disk.isdir (leadsTo bagdir (tagDir s.info) ++ [py!"member-bags.tsv"]) = false →
      s.act bagdir (.saveMembers text) =
        (.ok (), { s with disk := dset s.disk (leadsTo bagdir (tagDir s.info) ++ [py!"member-bags.tsv"]) (.file text) })) ∧
    (∀ text, s.disk.isdir (leadsTo bagdir (tagDir s.info) ++ [py!"file-lookup.tsv"]) = false →
      s.act bagdir (.saveLookup text) =
        (.ok (), { s with disk := dset s.disk (leadsTo bagdir (tagDir s.info) ++ [py!"file-lookup.tsv"]) (.file text) })) ∧
    (∀ paths, paths ≠ [] → s.disk.isdir (leadsTo bagdir (tagDir s.info) ++ [py!"deleted.txt"]) = false →
      s.act bagdir (.saveDeleted paths) =
        (.ok (), { s with disk := dset s.disk (leadsTo bagdir (tagDir s.info) ++ [py!"deleted.txt"]) (.file (deletedText paths)) })) ∧
    (s.disk.isfile (leadsTo bagdir (tagDir s.info) ++ [py!"file-lookup.tsv"]) = true →
      s.act bagdir .clearLookup =
        (.ok (), { s with disk := ddel s.disk (leadsTo bagdir (tagDir s.info) ++ [py!"file-lookup.tsv"]) })) ∧
    (s.disk.isfile (leadsTo bagdir (tagDir s.info) ++ [py!"member-bags.tsv"]) = true →
      s.act bagdir .amend =
        (.ok (), { s with disk := ddel s.disk (leadsTo bagdir (tagDir s.info) ++ [py!"member-bags.tsv"]) })) := by
  have g1 := placeOf_passable (name := py!"member-bags.tsv") ⟨by decide, by decide, by decide, by decide⟩ h
  have g2 := placeOf_passable (name := py!"file-lookup.tsv") ⟨by decide, by decide, by decide, by decide⟩ h
  have g3 := placeOf_passable (name := py!"deleted.txt") ⟨by decide, by decide, by decide, by decide⟩ h
  have e := ensure_passable h
  have ex : ∀ p : Path, s.disk.isfile p = true → s.disk.exists p = true := by
    intro p hp
    obtain ⟨c, hc⟩ := isfile_iff.1 hp
    simp [Tree.exists, hc]
  refine ⟨fun text hd => ?_, fun text hd => ?_, fun paths hne hd => ?_, fun hf => ?_, fun hf => ?_⟩
  · simp only [OnDisk.act, e, Done.next, OnDisk.writeTag, g1.1, OnDisk.lift, Tree.write, hd,
      List.dropLast_concat, g1.2.2, Bool.not_true, Bool.or_false, Bool.false_eq_true, if_false]
  · simp only [OnDisk.act, e, Done.next, OnDisk.writeTag, g2.1, OnDisk.lift, Tree.write, hd,
      List.dropLast_concat, g1.2.2, Bool.not_true, Bool.or_false, Bool.false_eq_true, if_false]
  · simp only [OnDisk.act, hne, false_and, if_false, e, Done.next, OnDisk.writeTag, g3.1, OnDisk.lift, Tree.write, hd,
      List.dropLast_concat, g1.2.2, Bool.not_true, Bool.or_false, Bool.false_eq_true]
  · simp only [OnDisk.act, osExists, g2.1, ex _ hf, if_true, OnDisk.removeTag, OnDisk.lift, Tree.remove, hf]
  · simp only [OnDisk.act, g1.1, hf, if_true, OnDisk.lift, Tree.remove]

/-! ## The claim is false -/

theorem passable_abs {disk : Tree} (hw : WfTree disk) {D : Path} (hD : disk.isdir D = true) (hne : D ≠ []) (bagdir : Path) :
    Passable disk bagdir ('/' :: joinPath D) ∧ leadsTo bagdir ('/' :: joinPath D) = D := by
  have hk : D ∈ dkeys disk := by
    rcases isdir_iff.1 hD with e | e
    · exact absurd e hne
    · exact mem_dkeys_iff.2 ⟨_, e⟩
  have hg := hw.good D hk
  have hsp : splitOn '/' ('/' :: joinPath D) = [] :: D := by
    rw [splitOn, splitOn_joinPath' hg]
    cases hc : D with
    | nil => exact absurd hc hne
    | cons x xs => simp
  constructor
  · intro a b hab
    simp only [List.head?_cons, if_true]
    rw [hsp] at hab
    cases a with
    | nil => rfl
    | cons x a =>
      injection hab with h1 h2
      subst h1
      rw [follow, if_pos (.inl rfl), follow_good [] (fun c hc => hg.2 c (by rw [h2]; simp [hc])), List.nil_append]
      by_cases hb : b = []
      · subst hb
        have h3 : D = a := by simpa using h2
        rw [← h3]; exact hD
      · exact wf_prefix_dir hw hk ⟨b, h2.symm⟩ (fun e => hb (by rw [← e] at h2; simpa using h2.symm))
  · rw [leadsTo, hsp]
    simp only [List.head?_cons, if_true]
    rw [follow, if_pos (.inl rfl), follow_good [] hg.2, List.nil_append]

theorem outside_child {disk : Tree} {bagdir D : Path} {name : Str} (hb : disk.isdir bagdir = true)
    (ho : ¬ Inside bagdir D) (hn : disk.isdir (D ++ [name]) = false) : ¬ Inside bagdir (D ++ [name]) := by
  intro h
  rcases List.prefix_concat_iff.1 h with e | e
  · rw [e] at hb; rw [hb] at hn; cases hn
  · exact ho e

theorem leads_outside {disk : Tree} {bagdir D : Path} (hb : disk.isdir bagdir = true) (ho : ¬ Inside bagdir D) {dir : Str}
    (hp : Passable disk bagdir dir) (hl : leadsTo bagdir dir = D) :
    let s : OnDisk := ⟨disk, [(py!"Multibag-Tag-Directory", .one dir)]⟩
    (∀ text, disk.isdir (D ++ [py!"member-bags.tsv"]) = false →
      ¬ Inside bagdir (D ++ [py!"member-bags.tsv"]) ∧
      dget (s.acts bagdir [.saveMembers text]).disk (D ++ [py!"member-bags.tsv"]) = some (.file text)) ∧
    (disk.isfile (D ++ [py!"file-lookup.tsv"]) = true →
      ¬ Inside bagdir (D ++ [py!"file-lookup.tsv"]) ∧
      dget (s.acts bagdir [.clearLookup]).disk (D ++ [py!"file-lookup.tsv"]) = none) ∧
    (disk.isfile (D ++ [py!"member-bags.tsv"]) = true →
      ¬ Inside bagdir (D ++ [py!"member-bags.tsv"]) ∧
      dget (s.acts bagdir [.amend]).disk (D ++ [py!"member-bags.tsv"]) = none) := by
  intro s
  have ht : tagDir s.info = dir := rfl
  have w := C126_where (s := s) (bagdir := bagdir) (by rw [ht]; exact hp)
  rw [ht, hl] at w
  refine ⟨fun text hd => ⟨outside_child hb ho hd, ?_⟩, fun hf => ⟨outside_child hb ho (isfile_not_isdir hf (by simp)), ?_⟩,
    fun hf => ⟨outside_child hb ho (isfile_not_isdir hf (by simp)), ?_⟩⟩
  · rw [OnDisk.acts, w.1 text hd, OnDisk.acts, dget_dset, if_pos rfl]
  · rw [OnDisk.acts, w.2.2.2.1 hf, OnDisk.acts, dget_ddel, if_pos rfl]
  · rw [OnDisk.acts, w.2.2.2.2 hf, OnDisk.acts, dget_ddel, if_pos rfl]

/-- **C126** is false: every directory on the disk can be made the tag directory by the metadata of the bag.  Saving
then overwrites a file there, and clearing the lookup list and amending remove files. -/
theorem C126_negation_absolute (disk : Tree) (hw : WfTree disk) (bagdir D : Path) (hb : disk.isdir bagdir = true)
    (hD : disk.isdir D = true) (hne : D ≠ []) (ho : ¬ Inside bagdir D) :
    let s : OnDisk := ⟨disk, [(py!"Multibag-Tag-Directory", .one ('/' :: joinPath D))]⟩
    (∀ text, disk.isdir (D ++ [py!"member-bags.tsv"]) = false →
      ¬ Inside bagdir (D ++ [py!"member-bags.tsv"]) ∧
      dget (s.acts bagdir [.saveMembers text]).disk (D ++ [py!"member-bags.tsv"]) = some (.file text)) ∧
    (disk.isfile (D ++ [py!"file-lookup.tsv"]) = true →
      ¬ Inside bagdir (D ++ [py!"file-lookup.tsv"]) ∧
      dget (s.acts bagdir [.clearLookup]).disk (D ++ [py!"file-lookup.tsv"]) = none) ∧
    (disk.isfile (D ++ [py!"member-bags.tsv"]) = true →
      ¬ Inside bagdir (D ++ [py!"member-bags.tsv"]) ∧
      dget (s.acts bagdir [.amend]).disk (D ++ [py!"member-bags.tsv"]) = none) :=
  leads_outside hb ho (passable_abs hw hD hne bagdir).1 (passable_abs hw hD hne bagdir).2

/-- **C126** is false for relative tag directories, too: `../name` is the directory `name` next to the bag. -/
theorem C126_negation_sibling (disk : Tree) (hw : WfTree disk) (parent : Path) (bag name : Str) (hn : bag ≠ name)
    (hb : disk.isdir (parent ++ [bag]) = true) (hD : disk.isdir (parent ++ [name]) = true) :
    let s : OnDisk := ⟨disk, [(py!"Multibag-Tag-Directory", .one (py!"../" ++ name))]⟩
    (∀ text, disk.isdir (parent ++ [name, py!"member-bags.tsv"]) = false →
      ¬ Inside (parent ++ [bag]) (parent ++ [name, py!"member-bags.tsv"]) ∧
      dget (s.acts (parent ++ [bag]) [.saveMembers text]).disk (parent ++ [name, py!"member-bags.tsv"]) =
        some (.file text)) ∧
    (disk.isfile (parent ++ [name, py!"file-lookup.tsv"]) = true →
      ¬ Inside (parent ++ [bag]) (parent ++ [name, py!"file-lookup.tsv"]) ∧
      dget (s.acts (parent ++ [bag]) [.clearLookup]).disk (parent ++ [name, py!"file-lookup.tsv"]) = none) ∧
    (disk.isfile (parent ++ [name, py!"member-bags.tsv"]) = true →
      ¬ Inside (parent ++ [bag]) (parent ++ [name, py!"member-bags.tsv"]) ∧
      dget (s.acts (parent ++ [bag]) [.amend]).disk (parent ++ [name, py!"member-bags.tsv"]) = none) := by
  have hkey : ∀ x : Str, disk.isdir (parent ++ [x]) = true → parent ++ [x] ∈ dkeys disk := by
    intro x hx
    rcases isdir_iff.1 hx with e | e
    · simp at e
    · exact mem_dkeys_iff.2 ⟨_, e⟩
  have hg : GoodName name := (hw.good _ (hkey name hD)).2 name (by simp)
  have hpar : disk.isdir parent = true := by simpa using hw.parent _ (hkey name hD)
  have hsp : splitOn '/' (py!"../" ++ name) = [py!"..", name] := by
    have : splitOn '/' name = [name] := splitOn_noSep hg.noslash
    simp [splitOn, this]
  have hh : (py!"../" ++ name).head? ≠ some '/' := by simp
  have hdd : ¬ (py!".." = ([] : Str) ∨ py!".." = py!".") := by decide
  have hng : ¬ (name = [] ∨ name = py!".") := not_or.2 ⟨hg.nonempty, hg.nodot⟩
  have hl : leadsTo (parent ++ [bag]) (py!"../" ++ name) = parent ++ [name] := by
    rw [leadsTo_rel hh, hsp, follow, if_neg hdd, if_pos rfl, List.dropLast_concat, follow, if_neg hng,
      if_neg hg.nodotdot, follow]
  have hp : Passable disk (parent ++ [bag]) (py!"../" ++ name) := by
    intro a b hab
    rw [if_neg hh]
    rw [hsp] at hab
    rcases a with _ | ⟨x, _ | ⟨y, a⟩⟩
    · exact hb
    · injection hab with h1 _
      subst h1
      rw [follow, if_neg hdd, if_pos rfl, List.dropLast_concat, follow]
      exact hpar
    · injection hab with h1 h2
      injection h2 with h2 h3
      subst h1 h2
      have ha : a = [] := (List.append_eq_nil_iff.1 h3.symm).1
      subst ha
      have := hl
      rw [leadsTo_rel hh, hsp] at this
      rw [this]; exact hD
  have ho : ¬ Inside (parent ++ [bag]) (parent ++ [name]) := by
    rintro ⟨r, hr⟩
    rw [List.append_assoc, List.append_cancel_left_eq] at hr
    injection hr with h1 _
    exact hn h1
  have := leads_outside hb ho hp hl
  simpa only [List.append_assoc, List.cons_append, List.nil_append] using this

/-! ## Examples -/

/-- A disk with a bag, `/w/b`, and a directory next to it. -/
def exDisk : Tree :=
  [([py!"w"], .dir), ([py!"w", py!"b"], .dir), ([py!"w", py!"b", py!"multibag"], .dir),
   ([py!"w", py!"b", py!"multibag", py!"file-lookup.tsv"], .file py!"l"),
   ([py!"w", py!"x"], .dir), ([py!"w", py!"x", py!"member-bags.tsv"], .file py!"important"),
   ([py!"w", py!"x", py!"file-lookup.tsv"], .file py!"also")]

theorem wf_exDisk : WfTree exDisk := by
  refine ⟨by decide, ?_, by decide⟩
  intro p hp
  refine ⟨fun e => ?_, fun c hc => ?_⟩
  · subst e; revert hp; decide
  · have : ∀ p ∈ dkeys exDisk, ∀ c ∈ p, c ≠ [] ∧ '/' ∉ c ∧ c ≠ ['.'] ∧ c ≠ ['.', '.'] := by decide
    obtain ⟨h1, h2, h3, h4⟩ := this p hp c hc
    exact ⟨h1, h2, h3, h4⟩

/-- The hypotheses of `C126_inside_partial` and `C126_downwards_partial` are met by a history in which the tag
directory is moved to a new place in the bag, and the other directory stays as it is. -/
example :
    let acts : List DiskAct := [.saveMembers py!"b\n", .setTagDir py!"t/m" true, .amend, .saveDeleted [py!"data/f"], .clearLookup]
    let s : OnDisk := ⟨exDisk, []⟩
    (∀ p, ¬ Inside [py!"w", py!"b"] p → dget (s.acts [py!"w", py!"b"] acts).disk p = dget exDisk p) ∧
    (s.acts [py!"w", py!"b"] acts).disk =
      [([py!"w"], .dir), ([py!"w", py!"b"], .dir),
       ([py!"w", py!"x"], .dir), ([py!"w", py!"x", py!"member-bags.tsv"], .file py!"important"),
       ([py!"w", py!"x", py!"file-lookup.tsv"], .file py!"also"), ([py!"w", py!"b", py!"t"], .dir),
       ([py!"w", py!"b", py!"t", py!"m"], .dir),
       ([py!"w", py!"b", py!"t", py!"m", py!"deleted.txt"], .file py!"data/f\n")] := by
  intro acts s
  refine ⟨fun p hp => ?_, by kernel_rfl⟩
  refine C126_downwards_partial (s := s) ?_ wf_exDisk (by decide) (by unfold Downwards; decide) ?_ ?_ hp
  · intro c hc
    have : ∀ c ∈ [py!"w", py!"b"], c ≠ [] ∧ '/' ∉ c ∧ c ≠ ['.'] ∧ c ≠ ['.', '.'] := by decide
    obtain ⟨h1, h2, h3, h4⟩ := this c hc
    exact ⟨h1, h2, h3, h4⟩
  · intro info hi
    simp [acts] at hi
  · intro d m hd
    simp only [acts, List.mem_cons, List.not_mem_nil, reduceCtorEq, DiskAct.setTagDir.injEq, false_or, or_false] at hd
    rw [hd.1]; decide

/-- With the tag directory `../x` the files there are changed... -/
example :
    let s : OnDisk := ⟨exDisk, [(py!"Multibag-Tag-Directory", .one py!"../x")]⟩
    dget (s.acts [py!"w", py!"b"] [.saveMembers py!"b\n", .clearLookup]).disk [py!"w", py!"x", py!"member-bags.tsv"] =
      some (.file py!"b\n") ∧
    dget (s.acts [py!"w", py!"b"] [.saveMembers py!"b\n", .clearLookup]).disk [py!"w", py!"x", py!"file-lookup.tsv"] =
      none := by
  refine ⟨?_, ?_⟩ <;> kernel_rfl

/-- ... and setting another one with `migrate` moves the whole directory into the bag. -/
example :
    let s : OnDisk := ⟨exDisk, [(py!"Multibag-Tag-Directory", .one py!"../x")]⟩
    (s.acts [py!"w", py!"b"] [.setTagDir py!"t" true]).disk =
      [([py!"w"], .dir), ([py!"w", py!"b"], .dir), ([py!"w", py!"b", py!"multibag"], .dir),
       ([py!"w", py!"b", py!"multibag", py!"file-lookup.tsv"], .file py!"l"),
       ([py!"w", py!"b", py!"t"], .dir), ([py!"w", py!"b", py!"t", py!"member-bags.tsv"], .file py!"important"),
       ([py!"w", py!"b", py!"t", py!"file-lookup.tsv"], .file py!"also")] := by
  intro s
  kernel_rfl

/-- The hypotheses of the negations are met. -/
example :=
  (C126_negation_absolute exDisk wf_exDisk [py!"w", py!"b"] [py!"w", py!"x"] (by decide) (by decide) (by decide)
    (by decide)).1 py!"b\n" (by decide)

example :=
  (C126_negation_sibling exDisk wf_exDisk [py!"w"] py!"b" py!"x" (by decide) (by decide) (by decide)).2.1 (by decide)

end Verif
