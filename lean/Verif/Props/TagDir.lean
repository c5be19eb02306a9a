import Verif.Props.UpdateMember
import Verif.Lemmas.TagDir
/-!
# Properties of `set_multibag_tag_dir`
-/

namespace Verif

open Spec

theorem profileVersion_tagDir (info : Info) (v : InfoVal) :
    profileVersion (dset info py!"Multibag-Tag-Directory" v) = profileVersion info := by
  unfold profileVersion infoItem
  rw [dget_dset, if_neg (by decide)]

theorem infoOk_tagDir {info : Info} (h : InfoOk info) (d : Str) :
    InfoOk (dset info py!"Multibag-Tag-Directory" (.one d)) := by
  refine ⟨?_, by rw [profileVersion_tagDir]; exact h.ver⟩
  unfold readerTagDir tagDir
  rw [dget_dset, if_pos rfl]

theorem tagDir_dset (info : Info) (d : Str) : tagDir (dset info py!"Multibag-Tag-Directory" (.one d)) = d := by
  unfold tagDir
  rw [dget_dset, if_pos rfl]

/-- If the three tag files are the same under both names, so are the reports. -/
theorem views_moved {s s' : HeadBag} (hi : InfoOk s.info) (hi' : InfoOk s'.info)
    (h1 : s'.members = s.members) (h2 : s'.lookup = s.lookup) (h3 : s'.deleted = s.deleted)
    (h : ∀ n, dget s'.tree (comps (tagDir s'.info) ++ [n]) = dget s.tree (comps (tagDir s.info) ++ [n])) :
    membersView s' = membersView s ∧ lookupView s' = lookupView s ∧ deletedView s' = deletedView s := by
  refine ⟨?_, ?_, ?_⟩
  · unfold membersView
    rw [h1, iterMembers_03 hi, iterMembers_03 hi', read_eq, read_eq, tagFile_eq _ comps_members,
      tagFile_eq _ comps_members, h]
  · unfold lookupView
    rw [h2, iterLookup_03 hi, iterLookup_03 hi', read_eq, read_eq, tagFile_eq _ comps_lookup,
      tagFile_eq _ comps_lookup, h]
  · unfold deletedView iterDeleted deletedFile
    rw [h3, tagFile_eq _ comps_deleted, tagFile_eq _ comps_deleted, h]

/-- What a successful `set_multibag_tag_dir(..., migrate=True)` does. -/
theorem setTagDir_migrate {s s' : HeadBag} (hi : InfoOk s.info) (hw : WfTree s.tree) {d : Str}
    (h : s.setTagDir d true = (.ok (), s')) :
    InfoOk s'.info ∧ s'.members = s.members ∧ s'.lookup = s.lookup ∧ s'.deleted = s.deleted ∧
    comps (tagDir s'.info) = comps d ∧
    (∀ x, x ≠ [] → dget s'.tree (comps d ++ x) = dget s.tree (comps (tagDir s.info) ++ x)) ∧
    (∀ p c, dget s.tree p = some (.file c) → ¬ comps (tagDir s.info) <+: p → dget s'.tree p = some (.file c)) := by
  unfold HeadBag.setTagDir at h
  simp only [if_true] at h
  split at h
  · rename_i he
    injection h with _ h
    subst h
    have : comps (tagDir s.info) = comps d := by rw [← he, comps_osJoin_split]
    exact ⟨hi, rfl, rfl, rfl, this, fun x _ => by rw [this], fun p c hp _ => hp⟩
  · split at h
    · injection h with h; cases h
    · rename_i t ht
      injection h with _ h
      subst h
      refine ⟨infoOk_tagDir hi _, rfl, rfl, rfl, by rw [tagDir_dset, comps_osJoin_split], ?_⟩
      rw [comps_osJoin_split] at ht
      split at ht
      · cases ht
      · rename_i hn
        have hn' : s.tree.exists (comps d) = false := by simpa using hn
        split at ht
        · obtain ⟨g1, g2⟩ := renames_ok hw ht hn'
          exact ⟨fun x _ => g1 x, g2⟩
        · rename_i ho
          have ho' : s.tree.exists (comps (tagDir s.info)) = false := by simpa using ho
          injection ht with ht
          subst ht
          exact ⟨fun x _ => by rw [none_below hw hn', none_below hw ho'], fun p c hp _ => hp⟩

/-! ## C22 -/

/-- C22 is false of the code without `migrate`: on a freshly opened bag the member
list, the lookups and the deletions are no longer found. -/
theorem C22_negation :
    ∃ tree info s, Opened tree info ∧ WfTree tree ∧
      (HeadBag.open tree info).setTagDir py!"other" = (.ok (), s) ∧
      (∃ m ms, ((HeadBag.open tree info).memberBags).1 = .ok (m :: ms)) ∧ (s.memberBags).1 = .ok [] ∧
      (∃ b, ((HeadBag.open tree info).lookupFile py!"data/x").1 = .ok (some b)) ∧
      (s.lookupFile py!"data/x").1 = .ok none ∧
      ((HeadBag.open tree info).deletedPaths).1 = .ok [py!"data/old"] ∧ (s.deletedPaths).1 = .ok [] :=
  ⟨Sample.tree, Sample.info, _, Sample.opened, Sample.wf_of_check (by decide), rfl,
    ⟨⟨py!"b1", some py!"ark:/1", none, []⟩, [⟨py!"b2", none, none, []⟩], by decide⟩, by decide,
    ⟨py!"b2", by decide⟩, by decide, by decide, by decide⟩

/-- C22 (partial): whenever `set_multibag_tag_dir(d, migrate=True)` succeeds, after
any history, the bag reports the same members, lookups and deletions as before, also
when it is opened afresh; everything in the tag directory is found below the new
directory, and all files elsewhere are untouched.  Missing: calls without `migrate`,
where the property fails (`C22_negation`). -/
theorem C22_migrate_partial (tree : Tree) (info : Info) (ops : List Op) (s s' : HeadBag) (o : Opened tree info)
    (h : runOk ops (HeadBag.open tree info) = some s) (hw : WfTree s.tree) (d : Str)
    (hs : s.setTagDir d true = (.ok (), s')) :
    (s'.memberBags).1 = (s.memberBags).1 ∧
    (∀ p, (s'.lookupFile p).1 = (s.lookupFile p).1) ∧
    (s'.deletedPaths).1 = (s.deletedPaths).1 ∧
    ((HeadBag.open s'.tree s'.info).memberBags).1 = ((HeadBag.open s.tree s.info).memberBags).1 ∧
    (∀ p, ((HeadBag.open s'.tree s'.info).lookupFile p).1 = ((HeadBag.open s.tree s.info).lookupFile p).1) ∧
    ((HeadBag.open s'.tree s'.info).deletedPaths).1 = ((HeadBag.open s.tree s.info).deletedPaths).1 ∧
    comps (tagDir s'.info) = comps d ∧
    (∀ x, x ≠ [] → s'.tree.read (comps d ++ x) = s.tree.read (comps (tagDir s.info) ++ x)) ∧
    (∀ p c, s.tree.read p = some c → ¬ comps (tagDir s.info) <+: p → s'.tree.read p = some c) := by
  have hi := infoOk_reached o h
  obtain ⟨g1, g2, g3, g4, g5, g6, g7⟩ := setTagDir_migrate hi hw hs
  have v := views_moved hi g1 g2 g3 g4 (fun n => by rw [g5]; exact g6 [n] (by simp))
  have v' := views_moved (s := HeadBag.open s.tree s.info) (s' := HeadBag.open s'.tree s'.info) hi g1 rfl rfl rfl
    (fun n => by
      change dget s'.tree (comps (tagDir s'.info) ++ [n]) = _
      rw [g5]; exact g6 [n] (by simp))
  refine ⟨?_, ?_, ?_, ?_, ?_, ?_, g5, ?_, ?_⟩
  · rw [memberBags_fst, memberBags_fst, v.1]
  · intro p; rw [(lookupFile_spec _ _).1, (lookupFile_spec _ _).1, v.2.1]
  · rw [(deletedPaths_spec _).1, (deletedPaths_spec _).1, v.2.2]
  · rw [memberBags_fst, memberBags_fst, v'.1]
  · intro p; rw [(lookupFile_spec _ _).1, (lookupFile_spec _ _).1, v'.2.1]
  · rw [(deletedPaths_spec _).1, (deletedPaths_spec _).1, v'.2.2]
  · intro x hx; rw [read_eq, read_eq, g6 x hx]
  · intro p c hp hop
    have : dget s.tree p = some (.file c) := by
      rw [read_eq] at hp
      split at hp
      · rename_i e; injection hp with hp; subst hp; exact e
      · cases hp
    rw [read_eq, g7 p c this hop]

/-- C22 (partial): without `migrate`, what has been asked for before stays available
from the same object.
Missing: what has not been asked for (`C22_negation`). -/
theorem C22_asked_first_partial (s s' : HeadBag) (d : Str)
    (hm : s.members.isSome) (hl : s.lookup.isSome) (hd : s.deleted.isSome)
    (hs : s.setTagDir d = (.ok (), s')) :
    (s'.memberBags).1 = (s.memberBags).1 ∧ (∀ p, (s'.lookupFile p).1 = (s.lookupFile p).1) ∧
    (s'.deletedPaths).1 = (s.deletedPaths).1 := by
  obtain ⟨ms, hm⟩ := Option.isSome_iff_exists.1 hm
  obtain ⟨l, hl⟩ := Option.isSome_iff_exists.1 hl
  obtain ⟨ds, hd⟩ := Option.isSome_iff_exists.1 hd
  have : s'.members = s.members ∧ s'.lookup = s.lookup ∧ s'.deleted = s.deleted := by
    unfold HeadBag.setTagDir at hs
    simp only [Bool.false_eq_true, if_false] at hs
    split at hs
    · injection hs with _ hs; subst hs; exact ⟨rfl, rfl, rfl⟩
    · injection hs with _ hs; subst hs; exact ⟨rfl, rfl, rfl⟩
  obtain ⟨h1, h2, h3⟩ := this
  refine ⟨?_, ?_, ?_⟩
  · rw [memberBags_fst, memberBags_fst]; simp [membersView, h1, hm]
  · intro p; rw [(lookupFile_spec _ _).1, (lookupFile_spec _ _).1]; simp [lookupView, h2, hl]
  · rw [(deletedPaths_spec _).1, (deletedPaths_spec _).1]; simp [deletedView, h3, hd]

/-- A concrete case: the tag directory is moved two levels down. -/
example : ∃ s, (HeadBag.open Sample.tree Sample.info).setTagDir py!"meta/mb" true = (.ok (), s) ∧
    s.tree.isfile [py!"meta", py!"mb", py!"member-bags.tsv"] = true ∧
    s.tree.exists [py!"multibag"] = false := ⟨_, rfl, by decide +kernel, by decide +kernel⟩

end Verif
