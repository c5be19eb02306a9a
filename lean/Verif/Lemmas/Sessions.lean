import Verif.Spec.Sessions
import Verif.Props.HeadBag
/-!
# Lemmas on several objects for one head bag
-/

namespace Verif
open Spec

/-! ## What a call does to an object -/

theorem ensureTagdir_mem (s : HeadBag) : ∃ t, (s.ensureTagdir).2 = { s with tree := t } := by
  unfold HeadBag.ensureTagdir
  simp only
  split
  · exact ⟨s.tree, rfl⟩
  · split
    · exact ⟨s.tree, rfl⟩
    · exact ⟨_, rfl⟩

theorem saveMembers_mem (s : HeadBag) : ∃ t, (s.saveMemberBags).2 = { s with tree := t } := by
  unfold HeadBag.saveMemberBags
  split
  · exact ⟨s.tree, rfl⟩
  · obtain ⟨t, ht⟩ := ensureTagdir_mem s
    split <;> rename_i s1 h <;> rw [h] at ht <;> simp only at ht <;> subst ht
    · exact ⟨t, rfl⟩
    · simp only
      split
      · exact ⟨t, rfl⟩
      · exact ⟨_, rfl⟩

theorem saveLookup_mem (s : HeadBag) : ∃ t, (s.saveFileLookup).2 = { s with tree := t } := by
  unfold HeadBag.saveFileLookup
  split
  · exact ⟨s.tree, rfl⟩
  · obtain ⟨t, ht⟩ := ensureTagdir_mem s
    split <;> rename_i s1 h <;> rw [h] at ht <;> simp only at ht <;> subst ht
    · exact ⟨t, rfl⟩
    · simp only
      split
      · exact ⟨t, rfl⟩
      · exact ⟨_, rfl⟩

theorem saveDeleted_mem (s : HeadBag) (enum : List Str → List Str) : ∃ t, (s.saveDeleted enum).2 = { s with tree := t } := by
  unfold HeadBag.saveDeleted
  split
  · exact ⟨s.tree, rfl⟩
  · rename_i ps hp
    simp only
    have key : ∀ r s1, (if ps = [] ∧ s.tree.exists (deletedFile s.info) = true then
          (match s.tree.remove (deletedFile s.info) with
          | .error e => ((.error e, s) : Res Unit)
          | .ok t => (.ok (), { s with tree := t }))
        else (.ok (), s)) = (r, s1) → ∃ t, s1 = { s with tree := t } := by
      intro r s1 h
      split at h
      · split at h
        · injection h with _ h; exact ⟨s.tree, h.symm⟩
        · injection h with _ h; exact ⟨_, h.symm⟩
      · injection h with _ h; exact ⟨s.tree, h.symm⟩
    split
    · rename_i h; exact key _ _ h
    · rename_i s1 h
      obtain ⟨t, rfl⟩ := key _ _ h
      obtain ⟨t2, ht⟩ := ensureTagdir_mem { s with tree := t }
      split <;> rename_i s1 h <;> rw [h] at ht <;> simp only at ht <;> subst ht
      · exact ⟨t2, rfl⟩
      · split
        · exact ⟨t2, rfl⟩
        · exact ⟨_, rfl⟩

theorem clearLookup_mem (s : HeadBag) : ∃ t l, (s.clearFileLookup).2 = { s with tree := t, lookup := l } ∧ (l = none ∨ l = s.lookup) := by
  unfold HeadBag.clearFileLookup
  simp only
  split
  · split
    · exact ⟨s.tree, s.lookup, rfl, .inr rfl⟩
    · exact ⟨_, none, rfl, .inl rfl⟩
  · exact ⟨s.tree, none, rfl, .inl rfl⟩

theorem step_keeps_info (s : HeadBag) (op : Op) : (step s op).2.info = s.info := by
  cases op with
  | addMember m ov => exact (addMemberBag_tree s m ov).2
  | setMembers ms => rfl
  | removeMember b => exact (removeMemberBag_tree s b).2
  | addLookup p b => exact (addFileLookup_tree s p b).2
  | removeLookup p => exact (removeFileLookup_tree s p).2
  | setDeleted p => rfl
  | unsetDeleted p => rfl
  | memberBags => simp only [step, void_snd]; exact (memberBags_tree s false).2
  | lookupFile p => simp only [step, void_snd]; exact (lookupFile_tree s p false).2
  | filesInMember b => simp only [step, void_snd]; exact (filesInMember_tree s b).2
  | deletedPaths => simp only [step, void_snd]; exact (deletedPaths_tree s false).2
  | reloadMembers => simp only [step, void_snd]; exact (memberBags_tree s true).2
  | reloadLookup p => simp only [step, void_snd]; exact (lookupFile_tree s p true).2
  | reloadDeleted => simp only [step, void_snd]; exact (deletedPaths_tree s true).2
  | saveMembers => obtain ⟨t, h⟩ := saveMembers_mem s; show (s.saveMemberBags).2.info = _; rw [h]
  | saveLookup => obtain ⟨t, h⟩ := saveLookup_mem s; show (s.saveFileLookup).2.info = _; rw [h]
  | saveDeleted e => obtain ⟨t, h⟩ := saveDeleted_mem s e; show (s.saveDeleted e).2.info = _; rw [h]
  | clearLookup => obtain ⟨t, l, h, _⟩ := clearLookup_mem s; show (s.clearFileLookup).2.info = _; rw [h]

/-! ## What is in memory -/

/-- The lists in memory are as Python has them: a dictionary has no key twice, a set no element twice. -/
structure InMemory (s : HeadBag) : Prop where
  lookup : ∀ d, s.lookup = some d → (dkeys d).Nodup
  deleted : ∀ ps, s.deleted = some ps → ps.Nodup

theorem InMemory.congr {s s' : HeadBag} (h : InMemory s) (h1 : s'.lookup = s.lookup) (h2 : s'.deleted = s.deleted) : InMemory s' :=
  ⟨fun d hd => h.lookup d (h1 ▸ hd), fun ps hp => h.deleted ps (h2 ▸ hp)⟩

theorem inMemory_memberBags {s : HeadBag} (h : InMemory s) (b : Bool) : InMemory (s.memberBags b).2 := by
  unfold HeadBag.memberBags
  split
  · split
    · exact ⟨h.lookup, h.deleted⟩
    · exact h
    · exact h
  · exact h

theorem inMemory_cacheLookup {s : HeadBag} (h : InMemory s) : InMemory (s.cacheLookup).2 := by
  unfold HeadBag.cacheLookup
  split
  · exact ⟨fun d hd => by cases hd; exact nodup_dofPairs _, h.deleted⟩
  · exact h

theorem inMemory_lookupFile {s : HeadBag} (h : InMemory s) (p : Str) (b : Bool) : InMemory (s.lookupFile p b).2 := by
  unfold HeadBag.lookupFile
  split
  · have := inMemory_cacheLookup h
    split <;> rename_i h1 <;> rw [h1] at this <;> exact this
  · exact h

theorem inMemory_filesInMember {s : HeadBag} (h : InMemory s) (b : Str) : InMemory (s.filesInMember b).2 := by
  unfold HeadBag.filesInMember
  simp only
  split
  · have := inMemory_cacheLookup h
    split <;> rename_i h1 <;> rw [h1] at this <;> exact this
  · exact h

theorem inMemory_deletedPaths {s : HeadBag} (h : InMemory s) (b : Bool) : InMemory (s.deletedPaths b).2 := by
  unfold HeadBag.deletedPaths
  split
  · split
    · exact ⟨h.lookup, fun ps hp => by cases hp; exact nodup_pySet _⟩
    · exact h
  · exact h

theorem nodup_getD {s : HeadBag} (h : InMemory s) : (dkeys (s.lookup.getD [])).Nodup := by
  cases hl : s.lookup with
  | none => simp [dkeys]
  | some d => exact h.lookup d hl

theorem inMemory_addLookup {s : HeadBag} (h : InMemory s) (p b : Str) : InMemory (s.addFileLookup p b).2 := by
  unfold HeadBag.addFileLookup
  split
  · exact h
  · split
    · rename_i d hd
      exact ⟨fun d' hd' => by cases hd'; exact nodup_dset (h.lookup d hd) _ _, h.deleted⟩
    · have := inMemory_cacheLookup h
      split <;> rename_i h1 <;> rw [h1] at this
      · exact ⟨fun d' hd' => by cases hd'; exact nodup_dset (nodup_getD this) _ _, this.deleted⟩
      · exact ⟨fun d' hd' => by cases hd'; exact nodup_dset (by simp [dkeys]) _ _, this.deleted⟩
      · exact this

theorem inMemory_removeLookup {s : HeadBag} (h : InMemory s) (p : Str) : InMemory (s.removeFileLookup p).2 := by
  unfold HeadBag.removeFileLookup
  split
  · exact h
  · split
    · rename_i d hd
      exact ⟨fun d' hd' => by cases hd'; exact nodup_ddel (h.lookup d hd) _, h.deleted⟩
    · have := inMemory_cacheLookup h
      split <;> rename_i h1 <;> rw [h1] at this
      · exact ⟨fun d' hd' => by cases hd'; exact nodup_ddel (nodup_getD this) _, this.deleted⟩
      · exact this
      · exact this

theorem nodup_deletedD {s : HeadBag} (h : InMemory s) : (s.deleted.getD []).Nodup := by
  cases hl : s.deleted with
  | none => simp
  | some d => exact h.deleted d hl

theorem inMemory_unset {s : HeadBag} (h : InMemory s) (p : Str) : InMemory (s.unsetDeleted p).2 :=
  ⟨h.lookup, fun ps hp => by cases hp; exact (nodup_deletedD h).sublist List.filter_sublist⟩

theorem inMemory_set {s : HeadBag} (h : InMemory s) (p : Str) : InMemory (s.setDeleted p).2 := by
  refine ⟨h.lookup, fun ps hp => ?_⟩
  cases hp
  have hn := nodup_deletedD h
  split
  · exact hn
  · rename_i hp
    rw [List.nodup_append]
    exact ⟨hn, by simp, fun a ha b hb e => by
      rw [List.mem_singleton] at hb
      subst hb
      subst e
      exact hp ha⟩

theorem inMemory_forget (fs : List Str) {s : HeadBag} (h : InMemory s) : InMemory (s.forgetFiles fs).2 := by
  induction fs generalizing s with
  | nil => exact h
  | cons f fs ih =>
    simp only [HeadBag.forgetFiles]
    have := inMemory_removeLookup (inMemory_unset h f) f
    split <;> rename_i h1 <;> rw [h1] at this
    · exact this
    · exact ih this

theorem inMemory_removeMember {s : HeadBag} (h : InMemory s) (b : Str) : InMemory (s.removeMemberBag b).2 := by
  unfold HeadBag.removeMemberBag
  simp only
  have h0 : InMemory { s with members := Option.map (fun (ms : List MemberInfo) => ms.filter (fun m => m.name ≠ b)) s.members } :=
    h.congr rfl rfl
  have := inMemory_filesInMember h0 b
  split <;> rename_i h1 <;> rw [h1] at this
  · exact this
  · exact inMemory_forget _ this

theorem inMemory_addMember {s : HeadBag} (h : InMemory s) (m : MemberInfo) (ov : Bool) : InMemory (s.addMemberBag m ov).2 := by
  unfold HeadBag.addMemberBag
  have he : InMemory (s.ensureMembers).2 := by
    unfold HeadBag.ensureMembers
    split
    · exact h
    · have := inMemory_memberBags h false
      split <;> rename_i h1 <;> rw [h1] at this
      · exact this
      · exact this.congr rfl rfl
  split <;> rename_i s1 h1 <;> rw [h1] at he
  · exact he
  · simp only at he ⊢
    cases ov with
    | false => exact he.congr rfl rfl
    | true =>
      have hr := inMemory_removeMember he m.name
      simp only [if_true]
      split <;> rename_i h2 <;> rw [h2] at hr
      · exact hr
      · exact hr.congr rfl rfl

theorem inMemory_step {s : HeadBag} (h : InMemory s) (op : Op) : InMemory (step s op).2 := by
  cases op with
  | addMember m ov => exact inMemory_addMember h m ov
  | setMembers ms => exact h.congr rfl rfl
  | removeMember b => exact inMemory_removeMember h b
  | addLookup p b => exact inMemory_addLookup h p b
  | removeLookup p => exact inMemory_removeLookup h p
  | setDeleted p => exact inMemory_set h p
  | unsetDeleted p => exact inMemory_unset h p
  | memberBags => simp only [step, void_snd]; exact inMemory_memberBags h false
  | lookupFile p => simp only [step, void_snd]; exact inMemory_lookupFile h p false
  | filesInMember b => simp only [step, void_snd]; exact inMemory_filesInMember h b
  | deletedPaths => simp only [step, void_snd]; exact inMemory_deletedPaths h false
  | reloadMembers => simp only [step, void_snd]; exact inMemory_memberBags h true
  | reloadLookup p => simp only [step, void_snd]; exact inMemory_lookupFile h p true
  | reloadDeleted => simp only [step, void_snd]; exact inMemory_deletedPaths h true
  | saveMembers => obtain ⟨t, e⟩ := saveMembers_mem s; show InMemory (s.saveMemberBags).2; rw [e]; exact h.congr rfl rfl
  | saveLookup => obtain ⟨t, e⟩ := saveLookup_mem s; show InMemory (s.saveFileLookup).2; rw [e]; exact h.congr rfl rfl
  | saveDeleted en => obtain ⟨t, e⟩ := saveDeleted_mem s en; show InMemory (s.saveDeleted en).2; rw [e]; exact h.congr rfl rfl
  | clearLookup =>
    obtain ⟨t, l, e, hl⟩ := clearLookup_mem s
    show InMemory (s.clearFileLookup).2
    rw [e]
    refine ⟨fun d hd => ?_, h.deleted⟩
    rcases hl with hl | hl
    · rw [hl] at hd
      cases hd
    · rw [hl] at hd
      exact h.lookup d hd

/-! ## Several objects -/

section
variable {ι : Type} [DecidableEq ι]

/-- All objects have the metadata `info`, and proper lists. -/
structure Fit (info : Info) (w : OpenBags ι) : Prop where
  info : ∀ i, (w.objs i).info = info
  mem : ∀ i, InMemory (w.objs i)

omit [DecidableEq ι] in
theorem fit_start (tree : Tree) (info : Info) : Fit info (OpenBags.start tree info : OpenBags ι) :=
  ⟨fun _ => rfl, fun _ => ⟨fun _ h => (by cases h), fun _ h => (by cases h)⟩⟩

omit [DecidableEq ι] in
theorem fit_here {info : Info} {w : OpenBags ι} (h : Fit info w) (i : ι) : (w.here i).info = info ∧ InMemory (w.here i) :=
  ⟨h.info i, (h.mem i).congr rfl rfl⟩

theorem fit_call {info : Info} {w : OpenBags ι} (h : Fit info w) (i : ι) (op : Op) : Fit info (w.call i op).2 := by
  refine ⟨fun j => ?_, fun j => ?_⟩
  · show (if j = i then (step (w.here i) op).2 else w.objs j).info = info
    split
    · rw [step_keeps_info]
      exact h.info i
    · exact h.info j
  · show InMemory (if j = i then (step (w.here i) op).2 else w.objs j)
    split
    · exact inMemory_step (fit_here h i).2 op
    · exact h.mem j

theorem fit_calls {info : Info} {w : OpenBags ι} (h : Fit info w) (l : List (ι × Op)) : Fit info (w.calls l) := by
  induction l generalizing w with
  | nil => exact h
  | cons c l ih => exact ih (fit_call h c.1 c.2)

/-- A tag file is changed by no calls but those that write it. -/
theorem calls_file {info : Info} {n : Str} (hn : comps n = [n]) {w : OpenBags ι} (h : Fit info w) (l : List (ι × Op))
    (hl : ∀ c ∈ l, ownFile c.2 ≠ some n) : dget (w.calls l).disk (tagFile (tagDir info) n) = dget w.disk (tagFile (tagDir info) n) := by
  induction l generalizing w with
  | nil => rfl
  | cons c l ih =>
    refine (ih (fit_call h c.1 c.2) (fun c hc => hl c (List.mem_cons_of_mem _ hc))).trans ?_
    have hi := (fit_here h c.1).1
    show dget (step (w.here c.1) c.2).2.tree _ = dget (w.here c.1).tree _
    cases ho : ownFile c.2 with
    | none =>
      rw [step_tree]
      cases hc : c.2 <;> simp [ownFile, writesDisk, hc] at ho ⊢
    | some m =>
      have hm : m ≠ n := fun e => hl c List.mem_cons_self (by rw [ho, e])
      have := (C17_save_frame (w.here c.1) c.2 m ho).1
      rw [hi] at this
      refine this _ ?_ (tagFile_ne_dir _ _ hn rfl)
      rw [tagFile_eq _ hn]
      intro e
      exact hm (by simpa using e.symm)

end

end Verif

namespace Verif
open Spec

/-! ## An object that has everything in memory -/

/-- The same object with another directory. -/
def HeadBag.moved (s : HeadBag) (t : Tree) : HeadBag := { s with tree := t }

/-- The outcome with another directory. -/
def Res.moved {α : Type} (r : Res α) (t : Tree) : Res α := (r.1, r.2.moved t)

theorem Spec.AllLoaded.congr {s s' : HeadBag} (h : AllLoaded s) (h1 : s'.members = s.members) (h2 : s'.lookup = s.lookup)
    (h3 : s'.deleted = s.deleted) : AllLoaded s' := ⟨h1 ▸ h.members, h2 ▸ h.lookup, h3 ▸ h.deleted⟩

theorem loaded_removeLookup {s : HeadBag} (h : AllLoaded s) (t : Tree) (p : Str) :
    (s.moved t).removeFileLookup p = (s.removeFileLookup p).moved t ∧ AllLoaded (s.removeFileLookup p).2 := by
  obtain ⟨tr, info, ms, lk, dl⟩ := s
  obtain ⟨d, rfl⟩ := Option.isSome_iff_exists.1 h.lookup
  unfold HeadBag.removeFileLookup
  by_cases hp : p = []
  · simp only [hp, if_true]
    exact ⟨rfl, h⟩
  · simp only [hp, if_false]
    exact ⟨rfl, ⟨h.members, rfl, h.deleted⟩⟩

theorem loaded_forget (fs : List Str) {s : HeadBag} (h : AllLoaded s) (t : Tree) :
    (s.moved t).forgetFiles fs = (s.forgetFiles fs).moved t ∧ AllLoaded (s.forgetFiles fs).2 := by
  induction fs generalizing s with
  | nil => exact ⟨rfl, h⟩
  | cons f fs ih =>
    have hu : AllLoaded (s.unsetDeleted f).2 := ⟨h.members, h.lookup, rfl⟩
    obtain ⟨e, hr⟩ := loaded_removeLookup hu t f
    simp only [HeadBag.forgetFiles]
    rw [show ((s.moved t).unsetDeleted f).2 = ((s.unsetDeleted f).2).moved t from rfl, e]
    rcases hres : (s.unsetDeleted f).2.removeFileLookup f with ⟨r, s1⟩
    rw [hres] at hr
    cases r with
    | error x => exact ⟨rfl, hr⟩
    | ok x => exact ih hr

theorem loaded_removeMember {s : HeadBag} (h : AllLoaded s) (t : Tree) (b : Str) :
    (s.moved t).removeMemberBag b = (s.removeMemberBag b).moved t ∧ AllLoaded (s.removeMemberBag b).2 := by
  obtain ⟨tr, info, ms, lk, dl⟩ := s
  obtain ⟨d, rfl⟩ := Option.isSome_iff_exists.1 h.lookup
  obtain ⟨m, rfl⟩ := Option.isSome_iff_exists.1 h.members
  have := loaded_forget ((d.filter (fun p => decide (p.2 = b))).map Prod.fst)
    (s := ⟨tr, info, some (m.filter (fun x => decide (x.name ≠ b))), some d, dl⟩) ⟨rfl, rfl, h.deleted⟩ t
  exact this

theorem loaded_addMember {s : HeadBag} (h : AllLoaded s) (t : Tree) (m : MemberInfo) (ov : Bool) :
    (s.moved t).addMemberBag m ov = (s.addMemberBag m ov).moved t ∧ AllLoaded (s.addMemberBag m ov).2 := by
  obtain ⟨ms, hms⟩ := Option.isSome_iff_exists.1 h.members
  have e1 : s.ensureMembers = (.ok (), s) := by unfold HeadBag.ensureMembers; rw [hms]
  have e2 : (s.moved t).ensureMembers = (.ok (), s.moved t) := by
    unfold HeadBag.ensureMembers
    rw [show (s.moved t).members = some ms from hms]
  unfold HeadBag.addMemberBag
  rw [e1, e2]
  cases ov with
  | false => exact ⟨rfl, ⟨rfl, h.lookup, h.deleted⟩⟩
  | true =>
    obtain ⟨e, hr⟩ := loaded_removeMember h t m.name
    simp only [if_true]
    rw [e]
    rcases hres : s.removeMemberBag m.name with ⟨r, s1⟩
    rw [hres] at hr
    cases r with
    | error x => exact ⟨rfl, hr⟩
    | ok x => exact ⟨rfl, ⟨rfl, hr.lookup, hr.deleted⟩⟩

/-- An object that has everything in memory answers without regard to the directory. -/
theorem loaded_step {s : HeadBag} (h : AllLoaded s) (t : Tree) (op : Op) (hw : writesDisk op = false) (hr : rereads op = false) :
    step (s.moved t) op = (step s op).moved t ∧ AllLoaded (step s op).2 := by
  cases op with
  | addMember m ov => exact loaded_addMember h t m ov
  | setMembers ms => exact ⟨rfl, ⟨rfl, h.lookup, h.deleted⟩⟩
  | removeMember b => exact loaded_removeMember h t b
  | addLookup p b =>
    obtain ⟨tr, info, ms, lk, dl⟩ := s
    obtain ⟨d, rfl⟩ := Option.isSome_iff_exists.1 h.lookup
    by_cases hp : (p = [] || b = []) = true
    · simp only [step, HeadBag.addFileLookup, hp, if_true]
      exact ⟨rfl, h⟩
    · simp only [step, HeadBag.addFileLookup, hp]
      exact ⟨rfl, ⟨h.members, rfl, h.deleted⟩⟩
  | removeLookup p => exact loaded_removeLookup h t p
  | setDeleted p => exact ⟨rfl, ⟨h.members, h.lookup, rfl⟩⟩
  | unsetDeleted p => exact ⟨rfl, ⟨h.members, h.lookup, rfl⟩⟩
  | memberBags =>
    obtain ⟨tr, info, ms, lk, dl⟩ := s
    obtain ⟨d, rfl⟩ := Option.isSome_iff_exists.1 h.members
    exact ⟨rfl, h⟩
  | lookupFile p =>
    obtain ⟨tr, info, ms, lk, dl⟩ := s
    obtain ⟨d, rfl⟩ := Option.isSome_iff_exists.1 h.lookup
    exact ⟨rfl, h⟩
  | filesInMember b =>
    obtain ⟨tr, info, ms, lk, dl⟩ := s
    obtain ⟨d, rfl⟩ := Option.isSome_iff_exists.1 h.lookup
    exact ⟨rfl, h⟩
  | deletedPaths =>
    obtain ⟨tr, info, ms, lk, dl⟩ := s
    obtain ⟨d, rfl⟩ := Option.isSome_iff_exists.1 h.deleted
    exact ⟨rfl, h⟩
  | saveMembers => cases hw
  | saveLookup => cases hw
  | saveDeleted e => cases hw
  | clearLookup => cases hw
  | reloadMembers => cases hr
  | reloadLookup p => cases hr
  | reloadDeleted => cases hr

/-- The same, for saving, which leaves the lists as they are. -/
theorem loaded_save (s : HeadBag) (op : Op) (hw : writesDisk op = true) (hr : rereads op = false) : ∃ t, (step s op).2 = s.moved t := by
  cases op with
  | saveMembers => exact saveMembers_mem s
  | saveLookup => exact saveLookup_mem s
  | saveDeleted e => exact saveDeleted_mem s e
  | clearLookup => cases hr
  | _ => cases hw

section
variable {ι : Type} [DecidableEq ι]

theorem runAll_cons (op : Op) (ops : List Op) (s : HeadBag) : runAll (op :: ops) s = runAll ops (step s op).2 := rfl

theorem loaded_any {s : HeadBag} (h : AllLoaded s) (t : Tree) (op : Op) (hr : rereads op = false) :
    (∃ t', (step (s.moved t) op).2 = ((step s op).2).moved t') ∧ AllLoaded (step s op).2 := by
  cases hw : writesDisk op with
  | false =>
    obtain ⟨e, hl⟩ := loaded_step h t op hw hr
    exact ⟨⟨t, by rw [e]; rfl⟩, hl⟩
  | true =>
    obtain ⟨t1, e1⟩ := loaded_save (s.moved t) op hw hr
    obtain ⟨t2, e2⟩ := loaded_save s op hw hr
    rw [e1, e2]
    exact ⟨⟨t1, rfl⟩, h.congr rfl rfl rfl⟩

/-- What the calls of the others do to the object. -/
theorem calls_object (l : List (ι × Op)) {w : OpenBags ι} {i : ι} {s : HeadBag} (h : AllLoaded s) (hs : ∃ t, w.objs i = s.moved t)
    (hl : ∀ op ∈ callsOf l i, rereads op = false) : ∃ t, (w.calls l).objs i = (runAll (callsOf l i) s).moved t := by
  induction l generalizing w s with
  | nil => exact hs
  | cons c l ih =>
    obtain ⟨t, ht⟩ := hs
    by_cases hc : c.1 = i
    · have e : callsOf (c :: l) i = c.2 :: callsOf l i := by simp [callsOf, hc]
      rw [e] at hl ⊢
      have hh : w.here c.1 = s.moved w.disk := by
        unfold OpenBags.here
        rw [hc, ht]
        rfl
      obtain ⟨⟨t', e'⟩, hl'⟩ := loaded_any h w.disk c.2 (hl _ List.mem_cons_self)
      refine ih hl' ⟨t', ?_⟩ (fun op hop => hl op (List.mem_cons_of_mem _ hop))
      show (if i = c.1 then (step (w.here c.1) c.2).2 else w.objs i) = _
      rw [if_pos hc.symm, hh, e']
    · have e : callsOf (c :: l) i = callsOf l i := by simp [callsOf, hc]
      rw [e] at hl ⊢
      refine ih h ⟨t, ?_⟩ hl
      show (if i = c.1 then (step (w.here c.1) c.2).2 else w.objs i) = _
      rw [if_neg (fun e => hc e.symm), ht]

/-- Calls of other objects leave an object alone. -/
theorem calls_other (l : List (ι × Op)) {w : OpenBags ι} {i : ι} (hl : ∀ c ∈ l, c.1 ≠ i) : (w.calls l).objs i = w.objs i := by
  induction l generalizing w with
  | nil => rfl
  | cons c l ih =>
    refine (ih (fun c hc => hl c (List.mem_cons_of_mem _ hc))).trans ?_
    show (if i = c.1 then _ else w.objs i) = _
    rw [if_neg (fun e => hl c List.mem_cons_self e.symm)]

theorem call_self (w : OpenBags ι) (i : ι) (op : Op) : (w.call i op).2.objs i = (step (w.here i) op).2 := by
  show (if i = i then _ else _) = _
  rw [if_pos rfl]

theorem here_call (w : OpenBags ι) (i : ι) (op : Op) : (w.call i op).2.here i = (step (w.here i) op).2 := by
  unfold OpenBags.here
  rw [call_self]
  rfl

theorem calls_append (l1 l2 : List (ι × Op)) (w : OpenBags ι) : w.calls (l1 ++ l2) = (w.calls l1).calls l2 := by
  induction l1 generalizing w with
  | nil => rfl
  | cons c l ih => exact ih _

end

/-! ## Updates of the member list -/

theorem removeLookup_members (s : HeadBag) (p : Str) : (s.removeFileLookup p).2.members = s.members := by
  unfold HeadBag.removeFileLookup HeadBag.cacheLookup
  repeat' split
  all_goals first | rfl | skip
  all_goals rename_i h; split at h <;> (injection h with h1 h2; first | (subst h2; rfl) | cases h1)

theorem forget_members (fs : List Str) (s : HeadBag) : (s.forgetFiles fs).2.members = s.members := by
  induction fs generalizing s with
  | nil => rfl
  | cons f fs ih =>
    simp only [HeadBag.forgetFiles]
    have := removeLookup_members (s.unsetDeleted f).2 f
    split <;> rename_i h <;> rw [h] at this
    · exact this
    · exact (ih _).trans this

theorem removeMember_members (s : HeadBag) (b : Str) :
    (s.removeMemberBag b).2.members = s.members.map (fun ms => ms.filter (fun m => m.name ≠ b)) := by
  unfold HeadBag.removeMemberBag
  simp only
  have := (filesInMember_spec { s with members := Option.map (fun (ms : List MemberInfo) => ms.filter (fun m => m.name ≠ b)) s.members } b).2.2.2.2.1
  split <;> rename_i h <;> rw [h] at this
  · exact this
  · exact (forget_members _ _).trans this

theorem addMember_members {s s' : HeadBag} {m : MemberInfo} {ov : Bool} {ms : List MemberInfo} (hm : s.members = some ms)
    (h : s.addMemberBag m ov = (.ok (), s')) :
    s'.members = some ((if ov then ms.filter (fun x => x.name ≠ m.name) else ms) ++ [m]) := by
  have e1 : s.ensureMembers = (.ok (), s) := by unfold HeadBag.ensureMembers; rw [hm]
  unfold HeadBag.addMemberBag at h
  rw [e1] at h
  cases ov with
  | false =>
    injection h with _ h
    rw [← h]
    show some (s.members.getD [] ++ [m]) = _
    rw [hm]
    rfl
  | true =>
    have hr := removeMember_members s m.name
    simp only [if_true] at h ⊢
    split at h <;> rename_i h2 <;> rw [h2] at hr
    · injection h with h
      cases h
    · injection h with _ h
      rw [← h]
      simp only at hr ⊢
      rw [hr, hm]
      rfl

/-! ## What a new object reports -/

theorem infoOk_of_metadata {info : Info} (o : Metadata info) : InfoOk info := ⟨by
  unfold readerTagDir tagDir
  cases h : dget info py!"Multibag-Tag-Directory" with
  | none => rfl
  | some v => cases v with
    | one x => rfl
    | many l => exact absurd h (o.tag l), o.ver⟩

theorem reported_members {t t' : Tree} {info : Info} (hi : InfoOk info)
    (h : dget t' (tagFile (tagDir info) py!"member-bags.tsv") = dget t (tagFile (tagDir info) py!"member-bags.tsv")) :
    membersView (HeadBag.open t' info) = membersView (HeadBag.open t info) :=
  membersView_congr (s := HeadBag.open t info) (s' := HeadBag.open t' info) hi rfl rfl (fun _ => by
    show t'.read (tagFile (tagDir info) py!"member-bags.tsv") = t.read (tagFile (tagDir info) py!"member-bags.tsv")
    rw [read_eq, read_eq, h])

theorem reported_lookup {t t' : Tree} {info : Info} (hi : InfoOk info)
    (h : dget t' (tagFile (tagDir info) py!"file-lookup.tsv") = dget t (tagFile (tagDir info) py!"file-lookup.tsv")) :
    lookupView (HeadBag.open t' info) = lookupView (HeadBag.open t info) :=
  lookupView_congr (s := HeadBag.open t info) (s' := HeadBag.open t' info) hi rfl rfl (fun _ => by
    show t'.read (tagFile (tagDir info) py!"file-lookup.tsv") = t.read (tagFile (tagDir info) py!"file-lookup.tsv")
    rw [read_eq, read_eq, h])

theorem reported_deleted {t t' : Tree} {info : Info} (h : dget t' (deletedFile info) = dget t (deletedFile info)) :
    deletedView (HeadBag.open t' info) = deletedView (HeadBag.open t info) :=
  deletedView_congr (s := HeadBag.open t info) (s' := HeadBag.open t' info) rfl rfl (fun _ => h)

/-! ## Files that are there -/

theorem readRecords_kind {α : Type} {parse : Str → Except PyErr α} (hp : ∀ l e, parse l = .error e → e = .multibagError)
    (ls : List Str) (e : PyErr) (h : readRecords parse ls = .error e) : e = .multibagError := by
  induction ls with
  | nil => cases h
  | cons l ls ih =>
    unfold readRecords at h
    split at h
    · split at h
      · rename_i e' he
        injection h with h
        exact h ▸ hp l e' he
      · split at h
        · rename_i e' he
          injection h with h
          exact ih (h ▸ he)
        · cases h
    · exact ih h

theorem parseLine03_error (l : Str) (e : PyErr) (h : parseLine03 l = .error e) : e = .multibagError := by
  unfold parseLine03 at h
  repeat' split at h
  all_goals first | (injection h with h; exact h.symm) | skip
  all_goals cases h

theorem parseFileLookup03_error (l : Str) (e : PyErr) (h : parseFileLookup03 l = .error e) : e = .multibagError := by
  unfold parseFileLookup03 at h
  split at h
  · cases h
  · injection h with h
    exact h.symm

/-- What is read from a member list that is there. -/
theorem iterMembers_there {t : Tree} {info : Info} (hi : InfoOk info) {ms : List MemberInfo}
    (hf : (t.read (tagFile (tagDir info) py!"member-bags.tsv")).isSome) (h : membersView (HeadBag.open t info) = .ok ms) :
    iterMembers .codecs t info = .ok ms := by
  obtain ⟨text, ht⟩ := Option.isSome_iff_exists.1 hf
  unfold membersView HeadBag.open at h
  simp only at h
  split at h
  · rename_i x hx
    rw [hx, h]
  · rename_i hx
    rw [iterMembers_03 hi, ht] at hx
    have := readRecords_kind parseLine03_error _ _ hx
    cases this
  · cases h

/-- What is read from a lookup file that is there. -/
theorem iterLookup_there {t : Tree} {info : Info} (hi : InfoOk info) {d : List (Str × Str)}
    (hf : (t.read (tagFile (tagDir info) py!"file-lookup.tsv")).isSome) (h : lookupView (HeadBag.open t info) = .ok d) :
    ∃ ps, iterLookup .codecs t info = .ok ps ∧ d = dofPairs ps := by
  obtain ⟨text, ht⟩ := Option.isSome_iff_exists.1 hf
  unfold lookupView HeadBag.open at h
  simp only at h
  split at h
  · rename_i x hx
    injection h with h
    exact ⟨x, hx, h.symm⟩
  · rename_i hx
    rw [iterLookup_03 hi, ht] at hx
    have := readRecords_kind parseFileLookup03_error _ _ hx
    cases this
  · cases h

end Verif
