import Verif.Lemmas.History
/-!
# Which calls touch the bag directory
-/

namespace Verif

open Spec

theorem void_snd {α : Type} (r : Res α) : (Res.void r).2 = r.2 := by
  obtain ⟨a, s⟩ := r
  cases a <;> rfl

theorem cacheLookup_tree (s : HeadBag) : (s.cacheLookup).2.tree = s.tree ∧ (s.cacheLookup).2.info = s.info := by
  unfold HeadBag.cacheLookup
  split <;> exact ⟨rfl, rfl⟩

theorem memberBags_tree (s : HeadBag) (r : Bool) :
    (s.memberBags r).2.tree = s.tree ∧ (s.memberBags r).2.info = s.info := by
  unfold HeadBag.memberBags
  split
  · split <;> exact ⟨rfl, rfl⟩
  · exact ⟨rfl, rfl⟩

theorem lookupFile_tree (s : HeadBag) (p : Str) (r : Bool) :
    (s.lookupFile p r).2.tree = s.tree ∧ (s.lookupFile p r).2.info = s.info := by
  unfold HeadBag.lookupFile
  have := cacheLookup_tree s
  split
  · split <;> rename_i h <;> rw [h] at this <;> exact this
  · exact ⟨rfl, rfl⟩

theorem filesInMember_tree (s : HeadBag) (b : Str) :
    (s.filesInMember b).2.tree = s.tree ∧ (s.filesInMember b).2.info = s.info := by
  have := filesInMember_spec s b
  exact ⟨this.2.2.1, this.2.2.2.1⟩

theorem deletedPaths_tree (s : HeadBag) (r : Bool) :
    (s.deletedPaths r).2.tree = s.tree ∧ (s.deletedPaths r).2.info = s.info := by
  unfold HeadBag.deletedPaths
  split
  · split <;> exact ⟨rfl, rfl⟩
  · exact ⟨rfl, rfl⟩

theorem addFileLookup_tree (s : HeadBag) (p b : Str) :
    (s.addFileLookup p b).2.tree = s.tree ∧ (s.addFileLookup p b).2.info = s.info := by
  unfold HeadBag.addFileLookup
  have := cacheLookup_tree s
  split
  · exact ⟨rfl, rfl⟩
  · split
    · exact ⟨rfl, rfl⟩
    · split <;> rename_i h <;> rw [h] at this <;> exact this

theorem removeFileLookup_tree (s : HeadBag) (p : Str) :
    (s.removeFileLookup p).2.tree = s.tree ∧ (s.removeFileLookup p).2.info = s.info := by
  unfold HeadBag.removeFileLookup
  have := cacheLookup_tree s
  split
  · exact ⟨rfl, rfl⟩
  · split
    · exact ⟨rfl, rfl⟩
    · split <;> rename_i h <;> rw [h] at this <;> exact this

theorem forgetFiles_tree (fs : List Str) (s : HeadBag) :
    (s.forgetFiles fs).2.tree = s.tree ∧ (s.forgetFiles fs).2.info = s.info := by
  induction fs generalizing s with
  | nil => exact ⟨rfl, rfl⟩
  | cons f fs ih =>
    simp only [HeadBag.forgetFiles]
    have := removeFileLookup_tree (s.unsetDeleted f).2 f
    split <;> rename_i h <;> rw [h] at this
    · exact this
    · obtain ⟨h1, h2⟩ := ih _
      exact ⟨h1.trans this.1, h2.trans this.2⟩

theorem removeMemberBag_tree (s : HeadBag) (b : Str) :
    (s.removeMemberBag b).2.tree = s.tree ∧ (s.removeMemberBag b).2.info = s.info := by
  unfold HeadBag.removeMemberBag
  simp only
  have := filesInMember_tree
    { s with members := Option.map (fun (ms : List MemberInfo) => ms.filter (fun m => m.name ≠ b)) s.members } b
  split <;> rename_i h <;> rw [h] at this
  · exact this
  · obtain ⟨h1, h2⟩ := forgetFiles_tree _ _
    exact ⟨h1.trans this.1, h2.trans this.2⟩

theorem ensureMembers_tree (s : HeadBag) :
    (s.ensureMembers).2.tree = s.tree ∧ (s.ensureMembers).2.info = s.info := by
  unfold HeadBag.ensureMembers
  split
  · exact ⟨rfl, rfl⟩
  · have := memberBags_tree s false
    split <;> rename_i h <;> rw [h] at this <;> exact this

theorem addMemberBag_tree (s : HeadBag) (m : MemberInfo) (ov : Bool) :
    (s.addMemberBag m ov).2.tree = s.tree ∧ (s.addMemberBag m ov).2.info = s.info := by
  unfold HeadBag.addMemberBag
  have he := ensureMembers_tree s
  split <;> rename_i s1 h <;> rw [h] at he
  · exact he
  · simp only at he ⊢
    cases ov with
    | false => exact he
    | true =>
      have hr := removeMemberBag_tree s1 m.name
      simp only [if_true]
      split <;> rename_i h2 <;> rw [h2] at hr
      · exact ⟨hr.1.trans he.1, hr.2.trans he.2⟩
      · exact ⟨hr.1.trans he.1, hr.2.trans he.2⟩

/-- Calls other than the four writing ones leave the bag directory alone,
whether they succeed or not. -/
theorem step_tree (s : HeadBag) (op : Op) (h : writesDisk op = false) : (step s op).2.tree = s.tree := by
  cases op with
  | addMember m ov => exact (addMemberBag_tree s m ov).1
  | setMembers ms => rfl
  | removeMember b => exact (removeMemberBag_tree s b).1
  | addLookup p b => exact (addFileLookup_tree s p b).1
  | removeLookup p => exact (removeFileLookup_tree s p).1
  | setDeleted p => rfl
  | unsetDeleted p => rfl
  | memberBags => simp only [step, void_snd]; exact (memberBags_tree s false).1
  | lookupFile p => simp only [step, void_snd]; exact (lookupFile_tree s p false).1
  | filesInMember b => simp only [step, void_snd]; exact (filesInMember_tree s b).1
  | deletedPaths => simp only [step, void_snd]; exact (deletedPaths_tree s false).1
  | reloadMembers => simp only [step, void_snd]; exact (memberBags_tree s true).1
  | reloadLookup p => simp only [step, void_snd]; exact (lookupFile_tree s p true).1
  | reloadDeleted => simp only [step, void_snd]; exact (deletedPaths_tree s true).1
  | saveMembers => cases h
  | saveLookup => cases h
  | saveDeleted e => cases h
  | clearLookup => cases h

/-- What a save may do to the directory, whether it succeeds or not: only its
own file changes, and the tag directory may be created. -/
structure OnlyFile (t t' : Tree) (dir file : Path) : Prop where
  frame : ∀ p, p ≠ file → p ≠ dir → dget t' p = dget t p
  dir : dget t' dir = dget t dir ∨ (dget t dir = none ∧ dget t' dir = some .dir)

theorem onlyFile_refl (t : Tree) (dir file : Path) : OnlyFile t t dir file := ⟨fun _ _ _ => rfl, .inl rfl⟩

theorem onlyFile_trans {t t' t'' : Tree} {dir file : Path} (h : OnlyFile t t' dir file)
    (h' : OnlyFile t' t'' dir file) : OnlyFile t t'' dir file := by
  refine ⟨fun p h1 h2 => (h'.frame p h1 h2).trans (h.frame p h1 h2), ?_⟩
  rcases h.dir with a | ⟨a, b⟩ <;> rcases h'.dir with c | ⟨c, d⟩
  · exact .inl (c.trans a)
  · exact .inr ⟨a ▸ c, d⟩
  · exact .inr ⟨a, c.trans b⟩
  · rw [b] at c; cases c

theorem onlyFile_write {t t' : Tree} {dir file : Path} {c : Str} (hne : file ≠ dir)
    (h : t.write file c = .ok t') : OnlyFile t t' dir file := by
  have e := write_ok h
  subst e
  refine ⟨fun p hp _ => ?_, .inl ?_⟩
  · rw [dget_dset, if_neg (fun e => hp e.symm)]
  · rw [dget_dset, if_neg hne]

theorem onlyFile_remove {t t' : Tree} {dir file : Path} (hne : file ≠ dir)
    (h : t.remove file = .ok t') : OnlyFile t t' dir file := by
  have e := remove_ok h
  subst e
  refine ⟨fun p hp _ => ?_, .inl ?_⟩
  · rw [dget_ddel, if_neg (fun e => hp e.symm)]
  · rw [dget_ddel, if_neg hne]

theorem onlyFile_ensure (s : HeadBag) (file : Path) :
    OnlyFile s.tree (s.ensureTagdir).2.tree (comps (tagDir s.info)) file ∧
    (s.ensureTagdir).2.info = s.info := by
  unfold HeadBag.ensureTagdir
  simp only
  split
  · exact ⟨onlyFile_refl _ _ _, rfl⟩
  · split
    · exact ⟨onlyFile_refl _ _ _, rfl⟩
    · rename_i t ht
      obtain ⟨e, hn⟩ := mkdir_ok ht
      subst e
      refine ⟨⟨fun p _ hp => ?_, .inr ⟨hn, ?_⟩⟩, rfl⟩
      · simp only [dget_dset, if_neg (fun e => hp (Eq.symm e))]
      · simp only [dget_dset, if_pos]

theorem saveMembers_only (s : HeadBag) :
    OnlyFile s.tree (s.saveMemberBags).2.tree (comps (tagDir s.info))
      (tagFile (tagDir s.info) py!"member-bags.tsv") := by
  unfold HeadBag.saveMemberBags
  split
  · exact onlyFile_refl _ _ _
  · have he := onlyFile_ensure s (tagFile (tagDir s.info) py!"member-bags.tsv")
    split <;> rename_i s1 h <;> rw [h] at he
    · exact he.1
    · simp only at he ⊢
      split
      · exact he.1
      · rename_i ht
        rw [he.2] at ht
        exact onlyFile_trans he.1 (onlyFile_write (tagFile_ne_dir _ _ comps_members rfl) ht)

theorem saveLookup_only (s : HeadBag) :
    OnlyFile s.tree (s.saveFileLookup).2.tree (comps (tagDir s.info))
      (tagFile (tagDir s.info) py!"file-lookup.tsv") := by
  unfold HeadBag.saveFileLookup
  split
  · exact onlyFile_refl _ _ _
  · have he := onlyFile_ensure s (tagFile (tagDir s.info) py!"file-lookup.tsv")
    split <;> rename_i s1 h <;> rw [h] at he
    · exact he.1
    · simp only at he ⊢
      split
      · exact he.1
      · rename_i ht
        rw [he.2] at ht
        exact onlyFile_trans he.1 (onlyFile_write (tagFile_ne_dir _ _ comps_lookup rfl) ht)

theorem saveDeleted_only (s : HeadBag) (enum : List Str → List Str) :
    OnlyFile s.tree (s.saveDeleted enum).2.tree (comps (tagDir s.info)) (deletedFile s.info) := by
  have hne : deletedFile s.info ≠ comps (tagDir s.info) := tagFile_ne_dir _ _ comps_deleted rfl
  unfold HeadBag.saveDeleted
  split
  · exact onlyFile_refl _ _ _
  · rename_i ps hp
    simp only
    have key : ∀ r s1, (if ps = [] ∧ s.tree.exists (deletedFile s.info) = true then
          (match s.tree.remove (deletedFile s.info) with
          | .error e => ((.error e, s) : Res Unit)
          | .ok t => (.ok (), { s with tree := t }))
        else (.ok (), s)) = (r, s1) →
        OnlyFile s.tree s1.tree (comps (tagDir s.info)) (deletedFile s.info) ∧ s1.info = s.info := by
      intro r s1 h
      split at h
      · split at h
        · injection h with _ h; subst h; exact ⟨onlyFile_refl _ _ _, rfl⟩
        · rename_i t ht
          injection h with _ h; subst h
          exact ⟨onlyFile_remove hne ht, rfl⟩
      · injection h with _ h; subst h; exact ⟨onlyFile_refl _ _ _, rfl⟩
    split
    · rename_i h; exact (key _ _ h).1
    · rename_i s1 h
      obtain ⟨k1, k2⟩ := key _ _ h
      have he := onlyFile_ensure s1 (deletedFile s.info)
      rw [k2] at he
      split <;> rename_i s2 h2 <;> rw [h2] at he
      · exact onlyFile_trans k1 he.1
      · split
        · exact onlyFile_trans k1 he.1
        · rename_i ht
          exact onlyFile_trans k1 (onlyFile_trans he.1 (onlyFile_write hne ht))

theorem clearLookup_only (s : HeadBag) :
    OnlyFile s.tree (s.clearFileLookup).2.tree (comps (tagDir s.info))
      (tagFile (tagDir s.info) py!"file-lookup.tsv") := by
  unfold HeadBag.clearFileLookup
  simp only
  split
  · split
    · exact onlyFile_refl _ _ _
    · rename_i ht
      exact onlyFile_remove (tagFile_ne_dir _ _ comps_lookup rfl) ht
  · exact onlyFile_refl _ _ _

end Verif
