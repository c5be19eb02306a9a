import Verif.Model.HeadBag
import Verif.Lemmas.TagFiles
/-!
# Lemmas about the head bag object

Each cache together with the corresponding file on disk gives a *view*: what the
object reports.  Here the effect of every method on the three views is worked
out.
-/

namespace Verif

/-- What `member_bags()` reports. -/
def membersView (s : HeadBag) : Except PyErr (List MemberInfo) :=
  match s.members with
  | some ms => .ok ms
  | none =>
    match iterMembers .codecs s.tree s.info with
    | .ok ms => .ok ms
    | .error .missingFile => .ok []
    | .error e => .error e

/-- The lookup table behind `lookup_file()`. -/
def lookupView (s : HeadBag) : Except PyErr (List (Str × Str)) :=
  match s.lookup with
  | some d => .ok d
  | none =>
    match iterLookup .codecs s.tree s.info with
    | .ok ps => .ok (dofPairs ps)
    | .error .missingFile => .ok []
    | .error e => .error e

/-- What `deleted_paths()` reports. -/
def deletedView (s : HeadBag) : Except PyErr (List Str) :=
  match s.deleted with
  | some d => .ok d
  | none =>
    match iterDeleted .codecs s.tree s.info with
    | .ok ps => .ok (pySet ps)
    | .error e => .error e

/-! ## Observers -/

theorem memberBags_fst (s : HeadBag) : (s.memberBags).1 = membersView s := by
  unfold HeadBag.memberBags membersView
  cases s.members with
  | some ms => simp
  | none =>
    simp only [Option.isNone_none, Bool.or_true, if_true]
    split <;> rename_i h <;> simp [h]

theorem memberBags_frame (s : HeadBag) :
    (s.memberBags).2.tree = s.tree ∧ (s.memberBags).2.info = s.info ∧
    (s.memberBags).2.lookup = s.lookup ∧ (s.memberBags).2.deleted = s.deleted := by
  unfold HeadBag.memberBags
  split
  · split <;> simp
  · simp

theorem memberBags_view (s : HeadBag) : membersView (s.memberBags).2 = membersView s := by
  unfold HeadBag.memberBags
  cases hm : s.members with
  | some ms => simp
  | none =>
    simp only [Option.isNone_none, Bool.or_true, if_true]
    split <;> rename_i h <;> simp [membersView, hm, h]

theorem cacheLookup_cases (s : HeadBag) (hn : s.lookup = none) :
    (∃ d, s.cacheLookup = (.ok (), { s with lookup := some d }) ∧ lookupView s = .ok d) ∨
    (s.cacheLookup = (.error .missingFile, s) ∧ lookupView s = .ok []) ∨
    (∃ e, e ≠ .missingFile ∧ s.cacheLookup = (.error e, s) ∧ lookupView s = .error e) := by
  unfold HeadBag.cacheLookup lookupView
  simp only [hn]
  cases h : iterLookup .codecs s.tree s.info with
  | ok ps => exact .inl ⟨_, rfl, rfl⟩
  | error e =>
    by_cases he : e = .missingFile
    · subst he; exact .inr (.inl ⟨rfl, rfl⟩)
    · refine .inr (.inr ⟨e, he, rfl, ?_⟩)
      cases e <;> first | rfl | contradiction

theorem lookupFile_spec (s : HeadBag) (p : Str) :
    (s.lookupFile p).1 = (lookupView s).map (fun d => dget d p) ∧
    lookupView (s.lookupFile p).2 = lookupView s ∧
    (s.lookupFile p).2.tree = s.tree ∧ (s.lookupFile p).2.info = s.info ∧
    (s.lookupFile p).2.members = s.members ∧ (s.lookupFile p).2.deleted = s.deleted := by
  unfold HeadBag.lookupFile
  cases hl : s.lookup with
  | some d =>
    simp [lookupView, hl, Except.map]
  | none =>
    simp only [Option.isNone_none, Bool.or_true, if_true]
    rcases cacheLookup_cases s hl with ⟨d, h1, h2⟩ | ⟨h1, h2⟩ | ⟨e, he, h1, h2⟩
    · rw [h1, h2]; simp [Except.map, lookupView]
    · rw [h1, h2]; simp [Except.map, h2, dget]
    · rw [h1, h2]
      cases e <;> first | contradiction | simp [Except.map, h2]

theorem filesInMember_spec (s : HeadBag) (b : Str) :
    (s.filesInMember b).1 = (lookupView s).map (fun d => (d.filter (fun p => p.2 = b)).map Prod.fst) ∧
    lookupView (s.filesInMember b).2 = lookupView s ∧
    (s.filesInMember b).2.tree = s.tree ∧ (s.filesInMember b).2.info = s.info ∧
    (s.filesInMember b).2.members = s.members ∧ (s.filesInMember b).2.deleted = s.deleted := by
  unfold HeadBag.filesInMember
  cases hl : s.lookup with
  | some d => simp [lookupView, hl, Except.map]
  | none =>
    simp only [Option.isNone_none, if_true]
    rcases cacheLookup_cases s hl with ⟨d, h1, h2⟩ | ⟨h1, h2⟩ | ⟨e, he, h1, h2⟩
    · rw [h1, h2]; simp [Except.map, lookupView]
    · rw [h1, h2]; simp [Except.map, h2]
    · rw [h1, h2]
      cases e <;> first | contradiction | simp [Except.map, h2]

theorem deletedPaths_spec (s : HeadBag) :
    (s.deletedPaths).1 = deletedView s ∧ deletedView (s.deletedPaths).2 = deletedView s ∧
    (s.deletedPaths).2.tree = s.tree ∧ (s.deletedPaths).2.info = s.info ∧
    (s.deletedPaths).2.members = s.members ∧ (s.deletedPaths).2.lookup = s.lookup := by
  unfold HeadBag.deletedPaths
  cases hl : s.deleted with
  | some d => simp [deletedView, hl]
  | none =>
    simp only [Option.isNone_none, Bool.or_true, if_true]
    cases h : iterDeleted .codecs s.tree s.info with
    | ok ps => simp [deletedView, hl, h]
    | error e => simp [deletedView, hl, h]

/-! ## Updates -/

theorem addFileLookup_spec (s : HeadBag) (p b : Str) (hp : p ≠ []) (hb : b ≠ []) (d : List (Str × Str))
    (hv : lookupView s = .ok d) :
    (s.addFileLookup p b).1 = .ok () ∧ lookupView (s.addFileLookup p b).2 = .ok (dset d p b) ∧
    (s.addFileLookup p b).2.lookup = some (dset d p b) ∧
    (s.addFileLookup p b).2.tree = s.tree ∧ (s.addFileLookup p b).2.info = s.info ∧
    (s.addFileLookup p b).2.members = s.members ∧ (s.addFileLookup p b).2.deleted = s.deleted := by
  unfold HeadBag.addFileLookup
  have hc : (decide (p = []) || decide (b = [])) = false := by simp [hp, hb]
  simp only [hc, Bool.false_eq_true, if_false]
  cases hl : s.lookup with
  | some d' =>
    have : d' = d := by simpa [lookupView, hl] using hv
    subst this
    simp [lookupView]
  | none =>
    simp only
    rcases cacheLookup_cases s hl with ⟨d', h1, h2⟩ | ⟨h1, h2⟩ | ⟨e, he, h1, h2⟩
    · rw [h2] at hv; injection hv with hv; subst hv
      rw [h1]; simp [lookupView]
    · rw [h2] at hv; injection hv with hv; subst hv
      rw [h1]; simp [lookupView]
    · rw [h2] at hv; cases hv

theorem removeFileLookup_spec (s : HeadBag) (p : Str) (hp : p ≠ []) (d : List (Str × Str))
    (hv : lookupView s = .ok d) :
    (s.removeFileLookup p).1 = .ok () ∧ lookupView (s.removeFileLookup p).2 = .ok (ddel d p) ∧
    (s.removeFileLookup p).2.tree = s.tree ∧ (s.removeFileLookup p).2.info = s.info ∧
    (s.removeFileLookup p).2.members = s.members ∧ (s.removeFileLookup p).2.deleted = s.deleted := by
  unfold HeadBag.removeFileLookup
  simp only [hp, if_false]
  cases hl : s.lookup with
  | some d' =>
    have : d' = d := by simpa [lookupView, hl] using hv
    subst this
    simp [lookupView]
  | none =>
    simp only
    rcases cacheLookup_cases s hl with ⟨d', h1, h2⟩ | ⟨h1, h2⟩ | ⟨e, he, h1, h2⟩
    · rw [h2] at hv; injection hv with hv; subst hv
      rw [h1]; simp [lookupView]
    · rw [h2] at hv; injection hv with hv; subst hv
      rw [h1]; simp [h2, ddel]
    · rw [h2] at hv; cases hv

theorem forgetFiles_spec (fs : List Str) (s : HeadBag) (hp : ∀ f ∈ fs, f ≠ []) (d : List (Str × Str))
    (hv : lookupView s = .ok d) :
    (s.forgetFiles fs).1 = .ok () ∧
    lookupView (s.forgetFiles fs).2 = .ok (fs.foldl ddel d) ∧
    (s.forgetFiles fs).2.tree = s.tree ∧ (s.forgetFiles fs).2.info = s.info ∧
    (s.forgetFiles fs).2.members = s.members ∧
    (s.forgetFiles fs).2.deleted = (if fs = [] then s.deleted else
      some ((s.deleted.getD []).filter (fun q => q ∉ fs))) := by
  induction fs generalizing s d with
  | nil => simp [HeadBag.forgetFiles, hv]
  | cons f fs ih =>
    simp only [HeadBag.forgetFiles]
    have hs' : lookupView (s.unsetDeleted f).2 = .ok d := by
      simpa [HeadBag.unsetDeleted, lookupView] using hv
    obtain ⟨h1, h2, h3, h4, h5, h6⟩ := removeFileLookup_spec (s.unsetDeleted f).2 f (hp f (by simp)) d hs'
    cases hr : HeadBag.removeFileLookup (s.unsetDeleted f).2 f with
    | mk r s2 =>
      rw [hr] at h1 h2 h3 h4 h5 h6
      simp only at h1 h2 h3 h4 h5 h6
      subst h1
      simp only
      obtain ⟨g1, g2, g3, g4, g5, g6⟩ := ih s2 (fun f hf => hp f (by simp [hf])) _ h2
      refine ⟨g1, ?_, ?_, ?_, ?_, ?_⟩
      · rw [g2]; rfl
      · rw [g3, h3]; rfl
      · rw [g4, h4]; rfl
      · rw [g5, h5]; rfl
      · rw [g6, h6]
        simp only [HeadBag.unsetDeleted, Option.getD_some, List.cons_ne_nil, if_false]
        by_cases hf : fs = []
        · subst hf; simp
        · simp only [hf, if_false, List.filter_filter, List.mem_cons, not_or, Option.some.injEq]
          apply List.filter_congr
          intro q _
          simp [Bool.and_comm]

theorem foldl_ddel (fs : List Str) (d : List (Str × Str)) :
    fs.foldl ddel d = d.filter (fun p => p.1 ∉ fs) := by
  induction fs generalizing d with
  | nil =>
    symm; simp
  | cons f fs ih =>
    rw [List.foldl_cons, ih, ddel, List.filter_filter]
    apply List.filter_congr
    intro p _
    simp [Bool.and_comm]

/-- Dropping the files mapped to a bag is the same as dropping the pairs with that bag. -/
theorem drop_member_files {d : List (Str × Str)} (hn : (dkeys d).Nodup) (b : Str) :
    ((d.filter (fun p => p.2 = b)).map Prod.fst).foldl ddel d = d.filter (fun p => p.2 ≠ b) := by
  rw [foldl_ddel]
  apply List.filter_congr
  intro p hp
  have : p.1 ∈ (d.filter (fun p => p.2 = b)).map Prod.fst ↔ p.2 = b := by
    constructor
    · intro h
      obtain ⟨q, hq, e⟩ := List.mem_map.1 h
      obtain ⟨hq1, hq2⟩ := List.mem_filter.1 hq
      have e1 := dget_of_mem hn (k := q.1) (v := q.2) hq1
      have e2 := dget_of_mem hn (k := p.1) (v := p.2) hp
      rw [e, e2] at e1
      injection e1 with e1
      rw [e1]; simpa using hq2
    · intro h
      exact List.mem_map.2 ⟨p, List.mem_filter.2 ⟨hp, by simpa using h⟩, rfl⟩
  simp only [this, ne_eq]

theorem removeMemberBag_spec (s : HeadBag) (b : Str) (d : List (Str × Str))
    (hv : lookupView s = .ok d) (hn : (dkeys d).Nodup) (hp : ∀ p ∈ dkeys d, p ≠ []) :
    (s.removeMemberBag b).1 = .ok () ∧
    lookupView (s.removeMemberBag b).2 = .ok (d.filter (fun p => p.2 ≠ b)) ∧
    (s.removeMemberBag b).2.tree = s.tree ∧ (s.removeMemberBag b).2.info = s.info ∧
    (s.removeMemberBag b).2.members = s.members.map (fun ms => ms.filter (fun m => m.name ≠ b)) ∧
    (s.removeMemberBag b).2.deleted =
      (if b ∈ d.map Prod.snd then
        some ((s.deleted.getD []).filter (fun q => dget d q ≠ some b)) else s.deleted) := by
  unfold HeadBag.removeMemberBag
  generalize hs1 : ({ s with members := Option.map (fun (ms : List MemberInfo) => ms.filter (fun m => m.name ≠ b)) s.members } : HeadBag) = s1
  have hv1 : lookupView s1 = .ok d := by subst hs1; simpa [lookupView] using hv
  obtain ⟨h1, h2, h3, h4, h5, h6⟩ := filesInMember_spec s1 b
  rw [hv1] at h1 h2
  simp only [Except.map] at h1
  cases hr : s1.filesInMember b with
  | mk r s2 =>
    rw [hr] at h1 h2 h3 h4 h5 h6
    simp only at h1 h2 h3 h4 h5 h6
    subst h1
    simp only [hr]
    obtain ⟨g1, g2, g3, g4, g5, g6⟩ :=
      forgetFiles_spec ((d.filter (fun p => p.2 = b)).map Prod.fst) s2 (by
        intro f hf
        obtain ⟨q, hq, e⟩ := List.mem_map.1 hf
        exact hp f (e ▸ List.mem_map.2 ⟨q, (List.mem_filter.1 hq).1, rfl⟩)) d h2
    refine ⟨g1, ?_, ?_, ?_, ?_, ?_⟩
    · rw [g2, drop_member_files hn]
    · rw [g3, h3, ← hs1]
    · rw [g4, h4, ← hs1]
    · rw [g5, h5, ← hs1]
    · rw [g6, h6, ← hs1]
      have hiff : ((d.filter (fun p => p.2 = b)).map Prod.fst = []) ↔ b ∉ d.map Prod.snd := by
        simp
        constructor
        · intro h x hx; exact h x b hx rfl
        · rintro h x y hxy rfl; exact h x hxy
      by_cases hb : b ∈ d.map Prod.snd
      · rw [if_neg (by rw [hiff]; simpa using hb), if_pos hb]
        congr 1
        apply List.filter_congr
        intro q _
        have : q ∈ (d.filter (fun p => p.2 = b)).map Prod.fst ↔ dget d q = some b := by
          rw [dget_iff_mem hn]
          simp
        simp only [this, ne_eq]
      · rw [if_pos (hiff.2 hb), if_neg hb]

theorem addMemberBag_spec (s : HeadBag) (m : MemberInfo) (ov : Bool) (ms : List MemberInfo)
    (d : List (Str × Str)) (hm : membersView s = .ok ms)
    (hv : lookupView s = .ok d) (hn : (dkeys d).Nodup) (hp : ∀ p ∈ dkeys d, p ≠ []) :
    (s.addMemberBag m ov).1 = .ok () ∧
    (s.addMemberBag m ov).2.members =
      some ((if ov then ms.filter (fun x => x.name ≠ m.name) else ms) ++ [m]) ∧
    lookupView (s.addMemberBag m ov).2 = .ok (if ov then d.filter (fun p => p.2 ≠ m.name) else d) ∧
    (s.addMemberBag m ov).2.tree = s.tree ∧ (s.addMemberBag m ov).2.info = s.info ∧
    (s.addMemberBag m ov).2.deleted =
      (if ov ∧ m.name ∈ d.map Prod.snd then
        some ((s.deleted.getD []).filter (fun q => dget d q ≠ some m.name)) else s.deleted) := by
  -- after loading
  have hload : ∃ s1 : HeadBag, s.ensureMembers = (.ok (), s1)
      ∧ s1.members = some ms ∧ s1.tree = s.tree ∧ s1.info = s.info ∧ s1.lookup = s.lookup ∧
      s1.deleted = s.deleted := by
    unfold HeadBag.ensureMembers
    cases hmm : s.members with
    | some ms' =>
      have : ms' = ms := by simpa [membersView, hmm] using hm
      subst this
      exact ⟨s, by simp, hmm, rfl, rfl, rfl, rfl⟩
    | none =>
      have h1 := memberBags_fst s
      have h2 := memberBags_frame s
      have h3 := memberBags_view s
      rw [hm] at h1 h3
      have h4 : (s.memberBags).2.members.getD [] = ms := by
        unfold HeadBag.memberBags at h1 ⊢
        simp only [hmm, Option.isNone_none, Bool.or_true, if_true] at h1 ⊢
        split at h1 <;> rename_i hq <;> simp at h1
        · simp [hq, h1]
        · subst h1; simp [hq, hmm]
      cases hr : s.memberBags with
      | mk r s2 =>
        rw [hr] at h1 h2 h4
        simp only at h1 h2 h4
        subst h1
        exact ⟨_, rfl, by simp [h4], h2.1, h2.2.1, h2.2.2.1, h2.2.2.2⟩
  obtain ⟨s1, he, hm1, ht1, hi1, hl1, hd1⟩ := hload
  have hv1 : lookupView s1 = .ok d := by rw [← hv]; simp [lookupView, hl1, ht1, hi1]
  unfold HeadBag.addMemberBag
  simp only [he]
  cases ov with
  | false => simp [hm1, ht1, hi1, hd1]; simpa [lookupView, ht1, hi1] using hv1
  | true =>
    obtain ⟨g1, g2, g3, g4, g5, g6⟩ := removeMemberBag_spec s1 m.name d hv1 hn hp
    simp only [if_true]
    cases hr : s1.removeMemberBag m.name with
    | mk r s2 =>
      rw [hr] at g1 g2 g3 g4 g5 g6
      simp only at g1 g2 g3 g4 g5 g6
      subst g1
      refine ⟨rfl, ?_, ?_, ?_, ?_, ?_⟩
      · simp [g5, hm1]
      · simpa [lookupView] using g2
      · simp [g3, ht1]
      · simp [g4, hi1]
      · simp only [g6, hd1, true_and]

end Verif
