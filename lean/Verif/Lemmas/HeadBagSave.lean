import Verif.Lemmas.HeadBag
import Verif.Props.TagFiles
/-!
# Lemmas about saving the head bag's tag files
-/

namespace Verif

open Spec

/-! ## Paths of tag files -/

theorem comps_sep (a b : Str) : comps (a ++ '/' :: b) = comps a ++ comps b := by
  unfold comps
  rw [← List.filter_append]
  congr 1
  induction a with
  | nil => simp [splitOn_cons_sep, splitOn]
  | cons x xs ih =>
    by_cases hx : x = '/'
    · subst hx
      rw [List.cons_append, splitOn_cons_sep, splitOn_cons_sep, ih]; rfl
    · obtain ⟨h, t, e1, e2⟩ := splitOn_cons_ne' xs hx
      obtain ⟨h', t', e1', e2'⟩ := splitOn_cons_ne' (xs ++ '/' :: b) hx
      rw [List.cons_append, e2, e2']
      rw [e1, e1'] at ih
      simp at ih
      simp [ih.1, ih.2]

theorem tagFile_eq (dir : Str) {name : Str} (h : comps name = [name]) :
    tagFile dir name = comps dir ++ [name] := by
  unfold tagFile; rw [comps_sep, h]

theorem tagFile_inj {dir n n' : Str} (h : comps n = [n]) (h' : comps n' = [n']) (hne : n ≠ n') :
    tagFile dir n ≠ tagFile dir n' := by
  rw [tagFile_eq dir h, tagFile_eq dir h']
  simp [hne]

theorem tagFile_ne_dir (dir dir' : Str) {n : Str} (h : comps n = [n]) (hd : dir' = dir) :
    tagFile dir n ≠ comps dir' := by
  subst hd
  rw [tagFile_eq _ h]
  intro e
  have := congrArg List.length e
  simp at this

theorem comps_members : comps py!"member-bags.tsv" = [py!"member-bags.tsv"] := by decide
theorem comps_lookup : comps py!"file-lookup.tsv" = [py!"file-lookup.tsv"] := by decide
theorem comps_deleted : comps py!"deleted.txt" = [py!"deleted.txt"] := by decide

/-! ## Single steps on trees -/

theorem read_eq {t : Tree} {p : Path} : t.read p = match dget t p with
  | some (.file c) => some c
  | _ => none := rfl

theorem write_ok {t t' : Tree} {p : Path} {c : Str} (h : t.write p c = .ok t') :
    t' = dset t p (.file c) := by
  unfold Tree.write at h
  split at h
  · cases h
  · injection h with h; exact h.symm

theorem mkdir_ok {t t' : Tree} {p : Path} (h : t.mkdir p = .ok t') :
    t' = dset t p .dir ∧ dget t p = none := by
  unfold Tree.mkdir at h
  split at h
  · cases h
  · rename_i hc
    injection h with h
    refine ⟨h.symm, ?_⟩
    simp [Tree.exists] at hc
    exact hc.1.2

theorem remove_ok {t t' : Tree} {p : Path} (h : t.remove p = .ok t') : t' = ddel t p := by
  unfold Tree.remove at h
  split at h
  · injection h with h; exact h.symm
  · cases h

theorem ensureTagdir_ok {s s' : HeadBag} (h : s.ensureTagdir = (.ok (), s')) :
    ∃ t, s' = { s with tree := t } ∧ (∀ p, p ≠ comps (tagDir s.info) → dget t p = dget s.tree p) ∧
      (dget s.tree (comps (tagDir s.info)) ≠ none → dget t (comps (tagDir s.info)) =
        dget s.tree (comps (tagDir s.info))) := by
  unfold HeadBag.ensureTagdir at h
  simp only at h
  split at h
  · injection h with _ h; subst h; exact ⟨s.tree, rfl, fun _ _ => rfl, fun _ => rfl⟩
  · split at h
    · injection h with h; cases h
    · rename_i t ht
      injection h with _ h
      obtain ⟨e, hn⟩ := mkdir_ok ht
      refine ⟨t, h.symm, ?_, fun hne => absurd hn hne⟩
      intro p hp
      rw [e, dget_dset, if_neg (fun e => hp e.symm)]

theorem membersWritten_ok {ms : List MemberInfo} {t : Str}
    (h : HeadBag.membersWritten ms = (t, .ok ())) : membersText ms = .ok t := by
  induction ms generalizing t with
  | nil => simp [HeadBag.membersWritten] at h; simp [membersText, h]
  | cons m ms ih =>
    simp only [HeadBag.membersWritten] at h
    cases hf : m.format with
    | error e => rw [hf] at h; simp at h
    | ok l =>
      rw [hf] at h
      cases hw : HeadBag.membersWritten ms with
      | mk t' r =>
        rw [hw] at h
        simp at h
        obtain ⟨h1, h2⟩ := h
        subst h2
        simp [membersText, hf, ih hw, h1]

/-- What a successful save does to the tree: one file gets new contents, the tag
directory may be created, nothing else changes. -/
structure SavedTo (t t' : Tree) (dir path : Path) (text : Str) : Prop where
  content : t'.read path = some text
  frame : ∀ p, p ≠ path → p ≠ dir → dget t' p = dget t p

theorem saveMembers_ok {s s' : HeadBag} (h : s.saveMemberBags = (.ok (), s')) :
    (s.members = none ∧ s' = s) ∨
    ∃ ms text t, s.members = some ms ∧ membersText ms = .ok text ∧ s' = { s with tree := t } ∧
      SavedTo s.tree t (comps (tagDir s.info)) (tagFile (tagDir s.info) py!"member-bags.tsv") text := by
  unfold HeadBag.saveMemberBags at h
  split at h
  · rename_i hm; injection h with _ h; exact .inl ⟨hm, h.symm⟩
  · rename_i ms hm
    right
    split at h
    · injection h with h; cases h
    · rename_i s1 he
      obtain ⟨t1, rfl, hfr, _⟩ := ensureTagdir_ok he
      split at h
      rename_i text r hw
      split at h
      · injection h with h; cases h
      · rename_i t ht
        injection h with hr h
        subst hr
        refine ⟨ms, text, t, hm, membersWritten_ok hw, h.symm, ?_⟩
        have e := write_ok ht
        constructor
        · rw [read_eq, e, dget_dset, if_pos rfl]
        · intro p hp hd
          rw [e, dget_dset, if_neg (fun e => hp e.symm)]
          exact hfr p hd

theorem saveLookup_ok {s s' : HeadBag} (h : s.saveFileLookup = (.ok (), s')) :
    (s.lookup = none ∧ s' = s) ∨
    ∃ d t, s.lookup = some d ∧ s' = { s with tree := t } ∧
      SavedTo s.tree t (comps (tagDir s.info)) (tagFile (tagDir s.info) py!"file-lookup.tsv")
        (lookupText d) := by
  unfold HeadBag.saveFileLookup at h
  split at h
  · rename_i hm; injection h with _ h; exact .inl ⟨hm, h.symm⟩
  · rename_i d hm
    right
    split at h
    · injection h with h; cases h
    · rename_i s1 he
      obtain ⟨t1, rfl, hfr, _⟩ := ensureTagdir_ok he
      split at h
      · injection h with h; cases h
      · rename_i t ht
        injection h with hr h
        refine ⟨d, t, hm, h.symm, ?_⟩
        have e := write_ok ht
        constructor
        · rw [read_eq, e, dget_dset, if_pos rfl]
        · intro p hp hd
          rw [e, dget_dset, if_neg (fun e => hp e.symm)]
          exact hfr p hd

theorem saveDeleted_ok {s s' : HeadBag} {enum : List Str → List Str}
    (h : s.saveDeleted enum = (.ok (), s')) :
    (s.deleted = none ∧ s' = s) ∨
    ∃ ps t, s.deleted = some ps ∧ s' = { s with tree := t } ∧
      SavedTo s.tree t (comps (tagDir s.info)) (deletedFile s.info) (deletedText (enum ps)) := by
  unfold HeadBag.saveDeleted at h
  split at h
  · rename_i hm; injection h with _ h; exact .inl ⟨hm, h.symm⟩
  · rename_i ps hm
    right
    simp only at h
    -- the optional removal
    have hrem : ∀ (r : Except PyErr Unit) (s1 : HeadBag),
        (if ps = [] ∧ s.tree.exists (deletedFile s.info) = true then
          (match s.tree.remove (deletedFile s.info) with
          | .error e => ((.error e, s) : Res Unit)
          | .ok t => (.ok (), { s with tree := t }))
        else (.ok (), s)) = (r, s1) → r = .ok () →
        ∃ t, s1 = { s with tree := t } ∧
          ∀ p, p ≠ deletedFile s.info → dget t p = dget s.tree p := by
      intro r s1 hr hok
      subst hok
      split at hr
      · split at hr
        · injection hr with hr; cases hr
        · rename_i t ht
          injection hr with _ hr
          refine ⟨t, hr.symm, ?_⟩
          intro p hp
          rw [remove_ok ht, dget_ddel, if_neg (fun e => hp e.symm)]
      · injection hr with _ hr
        exact ⟨s.tree, hr.symm, fun _ _ => rfl⟩
    split at h
    · injection h with h; cases h
    · rename_i s1 hr
      obtain ⟨t0, rfl, hfr0⟩ := hrem _ _ hr rfl
      split at h
      · injection h with h; cases h
      · rename_i s2 he
        obtain ⟨t1, rfl, hfr, _⟩ := ensureTagdir_ok he
        split at h
        · injection h with h; cases h
        · rename_i t ht
          injection h with _ h
          refine ⟨ps, t, hm, h.symm, ?_⟩
          have e := write_ok ht
          constructor
          · rw [read_eq, e, dget_dset, if_pos rfl]
          · intro p hp hd
            rw [e, dget_dset, if_neg (fun e => hp e.symm)]
            exact (hfr p hd).trans (hfr0 p hp)

end Verif
