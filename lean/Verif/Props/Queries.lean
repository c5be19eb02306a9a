import Verif.Spec.Queries
import Verif.Props.HeadBag
/-!
# C94 and C95: the queries of a head bag, and reading again from disk
-/

namespace Verif

open Spec

theorem memberBagNames_fst (s : HeadBag) : (s.memberBagNames).1 = (s.memberBags).1.map (fun ms => ms.map (·.name)) := by
  unfold HeadBag.memberBagNames
  split <;> rename_i h <;> rw [h] <;> rfl

theorem sameAnswers_of_views {s s' : HeadBag} (hm : membersView s = membersView s') (hl : lookupView s = lookupView s')
    (hd : deletedView s = deletedView s') : SameAnswers s s' where
  members := by rw [memberBags_fst, memberBags_fst, hm]
  names := by rw [memberBagNames_fst, memberBagNames_fst, memberBags_fst, memberBags_fst, hm]
  lookup p := by rw [(lookupFile_spec _ _).1, (lookupFile_spec _ _).1, hl]
  files b := by rw [(filesInMember_spec _ _).1, (filesInMember_spec _ _).1, hl]
  deleted := by rw [(deletedPaths_spec _).1, (deletedPaths_spec _).1, hd]

theorem membersView_same {s s' : HeadBag} (ht : s.tree = s'.tree) (hi : s.info = s'.info) (hm : s.members = s'.members) :
    membersView s = membersView s' := by simp [membersView, ht, hi, hm]

theorem lookupView_same {s s' : HeadBag} (ht : s.tree = s'.tree) (hi : s.info = s'.info) (hm : s.lookup = s'.lookup) :
    lookupView s = lookupView s' := by simp [lookupView, ht, hi, hm]

theorem deletedView_same {s s' : HeadBag} (ht : s.tree = s'.tree) (hi : s.info = s'.info) (hm : s.deleted = s'.deleted) :
    deletedView s = deletedView s' := by simp [deletedView, ht, hi, hm]

/-! ## C94 -/

/-- C94: `member_bag_names` gives the names of the members that `member_bags` gives, one by one and in the same
order. -/
theorem C94_names (s : HeadBag) (ms : List MemberInfo) (h : (s.memberBags).1 = .ok ms) :
    (s.memberBagNames).1 = .ok (ms.map (fun m => m.name)) := by
  rw [memberBagNames_fst, h]; rfl

example : ((HeadBag.open Sample.tree Sample.info).memberBagNames).1 = .ok [py!"b1", py!"b2"] :=
  C94_names _ [⟨py!"b1", some py!"ark:/1", none, []⟩, ⟨py!"b2", none, none, []⟩] (by decide)

/-- C94: after any history of calls, `files_in_member` lists exactly the paths that `lookup_file` finds in that bag,
each of them once. -/
theorem C94_files_in_member (tree : Tree) (info : Info) (ops : List Op) (s : HeadBag) (o : Opened tree info)
    (h : runOk ops (HeadBag.open tree info) = some s) (b : Str) :
    ∃ ps, (s.filesInMember b).1 = .ok ps ∧ ps.Nodup ∧ ∀ p, p ∈ ps ↔ (s.lookupFile p).1 = .ok (some b) := by
  obtain ⟨d, hd, ht⟩ := (inv_reached o h).lookup
  rw [(filesInMember_spec s b).1, hd]
  refine ⟨_, rfl, ?_, ?_⟩
  · exact List.Sublist.nodup (List.filter_sublist.map _) ht.nodup
  · intro p
    rw [(lookupFile_spec s p).1, hd]
    simp only [Except.map, Except.ok.injEq]
    rw [dget_iff_mem ht.nodup]
    simp

/-- The last line for a path counts. -/
example : ∃ ps, ((HeadBag.open Sample.tree Sample.info).filesInMember py!"b1").1 = .ok ps ∧ py!"data/x" ∉ ps := by
  obtain ⟨ps, h1, _, h3⟩ := C94_files_in_member Sample.tree Sample.info [] _ Sample.opened rfl py!"b1"
  exact ⟨ps, h1, fun hc => absurd ((h3 _).1 hc) (by decide)⟩

/-- C94: asking changes no answer, and touches neither disk nor metadata. -/
theorem C94_asking (s : HeadBag) (ops : List Op) (h : ∀ op ∈ ops, isQuery op = true) :
    SameAnswers (runAll ops s) s ∧ (runAll ops s).tree = s.tree ∧ (runAll ops s).info = s.info := by
  suffices hv : membersView (runAll ops s) = membersView s ∧ lookupView (runAll ops s) = lookupView s ∧
      deletedView (runAll ops s) = deletedView s ∧ (runAll ops s).tree = s.tree ∧ (runAll ops s).info = s.info from
    ⟨sameAnswers_of_views hv.1 hv.2.1 hv.2.2.1, hv.2.2.2⟩
  unfold runAll
  induction ops generalizing s with
  | nil => exact ⟨rfl, rfl, rfl, rfl, rfl⟩
  | cons op ops ih =>
    obtain ⟨i1, i2, i3, i4, i5⟩ := ih (step s op).2 (fun op' h' => h op' (by simp [h']))
    rw [List.foldl_cons, i1, i2, i3, i4, i5]
    have hq := h op (by simp)
    cases op <;> simp only [isQuery, Bool.false_eq_true] at hq <;> simp only [step, void_snd]
    · obtain ⟨a, b, c, d⟩ := memberBags_frame s
      exact ⟨memberBags_view s, lookupView_same a b c, deletedView_same a b d, a, b⟩
    · rename_i p
      obtain ⟨_, v, a, b, c, d⟩ := lookupFile_spec s p
      exact ⟨membersView_same a b c, v, deletedView_same a b d, a, b⟩
    · rename_i p
      obtain ⟨_, v, a, b, c, d⟩ := filesInMember_spec s p
      exact ⟨membersView_same a b c, v, deletedView_same a b d, a, b⟩
    · obtain ⟨_, v, a, b, c, d⟩ := deletedPaths_spec s
      exact ⟨membersView_same a b c, lookupView_same a b d, v, a, b⟩

example : SameAnswers (runAll [.lookupFile py!"data/x", .memberBags, .deletedPaths] Sample.edited) Sample.edited :=
  (C94_asking _ _ (by decide)).1

/-! ## The member list after any history -/

/-- C13: after any history of calls that begins by asking for the members, the list is the saved one with each call
having had its effect.
Missing: histories that do not ask first, where `remove_member_bag` has no effect (`C13_negation`). -/
theorem C13_history_partial (tree : Tree) (info : Info) (ops : List Op) (s : HeadBag) (o : Opened tree info)
    (h : runOk (.memberBags :: ops) (HeadBag.open tree info) = some s) (hr : Op.reloadMembers ∉ ops)
    (saved : List MemberInfo) (hs : ((HeadBag.open tree info).memberBags).1 = .ok saved) :
    (s.memberBags).1 = .ok (ops.foldl membersEffect saved) := by
  have gen : ∀ (ops : List Op) (s0 : HeadBag) (ms : List MemberInfo), Inv s0 → membersView s0 = .ok ms →
      (s0.members ≠ none ∨ ms = []) → Op.reloadMembers ∉ ops → runOk ops s0 = some s →
      membersView s = .ok (ops.foldl membersEffect ms) := by
    intro ops
    induction ops with
    | nil =>
      intro s0 ms _ hv _ _ hrun
      simp [runOk] at hrun; subst hrun; exact hv
    | cons op ops ih =>
      intro s0 ms hi hv hc hr hrun
      obtain ⟨s1, h1, h2⟩ := runOk_cons hrun
      have hr1 : op ≠ .reloadMembers := fun e => hr (by simp [e])
      have hr2 : Op.reloadMembers ∉ ops := fun e => hr (by simp [e])
      have hstep : membersView s1 = .ok (membersEffect ms op) ∧ (s1.members ≠ none ∨ membersEffect ms op = []) := by
        by_cases hn : s0.members = none
        · have hms : ms = [] := hc.resolve_left (fun h => h hn)
          subst hms
          obtain ⟨d, hd, ht⟩ := hi.lookup
          by_cases hrm : ∃ b, op = .removeMember b
          · obtain ⟨b, rfl⟩ := hrm
            obtain ⟨_, _, g3, g4, g5, _⟩ := removeMemberBag_spec s0 b d hd ht.nodup ht.nonempty
            have e1 : s1 = (s0.removeMemberBag b).2 := by
              have : s0.removeMemberBag b = (.ok (), s1) := h1
              rw [this]
            subst e1
            rw [hn] at g5
            exact ⟨(membersView_same g3 g4 (g5.trans hn.symm)).trans hv, .inr rfl⟩
          · obtain ⟨ms', e1, e2, _⟩ := step_members hi h1 hr1 (.inl fun b e => hrm ⟨b, e⟩)
            rw [hv] at e1
            injection e1 with e1
            subst e1
            refine ⟨e2, ?_⟩
            cases op with
            | addMember m ov =>
              obtain ⟨_, g2, _⟩ := addMemberBag_spec s0 m ov [] d hv hd ht.nodup ht.nonempty
              have : s0.addMemberBag m ov = (.ok (), s1) := h1
              rw [this] at g2
              exact .inl (by rw [g2]; simp)
            | setMembers l =>
              have : s0.setMemberBags l = (.ok (), s1) := h1
              simp [HeadBag.setMemberBags] at this
              exact .inl (by rw [← this]; simp)
            | _ => exact .inr rfl
        · obtain ⟨ms', e1, e2, e3⟩ := step_members hi h1 hr1 (.inr hn)
          rw [hv] at e1
          injection e1 with e1
          subst e1
          exact ⟨e2, .inl (e3 hn)⟩
      exact ih s1 _ (step_inv hi h1) hstep.1 hstep.2 hr2 h2
  rw [memberBags_fst] at hs ⊢
  obtain ⟨s1, h1, h2⟩ := runOk_cons h
  have hi := inv_open o
  have e : s1 = ((HeadBag.open tree info).memberBags).2 := by
    have := void_snd ((HeadBag.open tree info).memberBags)
    simp only [step] at h1
    rw [h1] at this
    exact this
  refine gen ops s1 saved (step_inv hi h1) (by rw [e, memberBags_view]; exact hs) ?_ hr h2
  subst e
  unfold membersView at hs
  unfold HeadBag.memberBags
  simp only [HeadBag.open, Option.isNone_none, Bool.or_true, if_true] at hs ⊢
  cases hq : iterMembers .codecs tree info with
  | ok ms => left; simp
  | error er =>
    rw [hq] at hs
    right
    cases er <;> simp at hs
    exact hs

/-- Members are added, replaced and removed. -/
example : ∃ s, runOk [.memberBags, .addMember ⟨py!"b1", none, none, []⟩ true, .removeMember py!"b2", .lookupFile py!"data/x"]
    (HeadBag.open Sample.tree Sample.info) = some s ∧ (s.memberBags).1 = .ok [⟨py!"b1", none, none, []⟩] := by
  have hr : runOk [.memberBags, .addMember ⟨py!"b1", none, none, []⟩ true, .removeMember py!"b2", .lookupFile py!"data/x"]
      (HeadBag.open Sample.tree Sample.info) = some _ := Sample.some_getD (d := HeadBag.open Sample.tree Sample.info) (by decide)
  exact ⟨_, hr, (C13_history_partial _ _ _ _ Sample.opened hr (by simp)
    [⟨py!"b1", some py!"ark:/1", none, []⟩, ⟨py!"b2", none, none, []⟩] (by decide)).trans (by decide)⟩

/-! ## C95 -/

/-- C95: a query that is to read again answers what a newly opened bag would. -/
theorem C95_answers (s : HeadBag) (p : Str) :
    (s.memberBags true).1 = ((HeadBag.open s.tree s.info).memberBags).1 ∧
    (s.lookupFile p true).1 = ((HeadBag.open s.tree s.info).lookupFile p).1 ∧
    (s.deletedPaths true).1 = ((HeadBag.open s.tree s.info).deletedPaths).1 := by
  refine ⟨?_, ?_, ?_⟩
  · unfold HeadBag.memberBags
    simp only [Bool.true_or, HeadBag.open, Option.isNone_none, Bool.or_true, if_true]
    split <;> rfl
  · unfold HeadBag.lookupFile HeadBag.cacheLookup
    simp only [Bool.true_or, HeadBag.open, Option.isNone_none, Bool.or_true, if_true]
    cases iterLookup .codecs s.tree s.info with
    | ok _ => rfl
    | error e => cases e <;> rfl
  · unfold HeadBag.deletedPaths
    simp only [Bool.true_or, HeadBag.open, Option.isNone_none, Bool.or_true, if_true]
    split <;> rfl

/-- C95: unsaved members are lost by reading again, if there is a member list that can be read.
Missing: bags without a member list (`C95_negation`). -/
theorem C95_members_partial (s : HeadBag) (ms : List MemberInfo) (h : iterMembers .codecs s.tree s.info = .ok ms) :
    ((s.memberBags true).2.memberBags).1 = ((HeadBag.open s.tree s.info).memberBags).1 := by
  rw [memberBags_fst, memberBags_fst]
  unfold HeadBag.memberBags
  simp [membersView, h, HeadBag.open]

/-- C95: the same for lookups.
Missing: bags without a lookup list (`C95_negation`). -/
theorem C95_lookup_partial (s : HeadBag) (p q : Str) (rs : List (Str × Str)) (h : iterLookup .codecs s.tree s.info = .ok rs) :
    ((s.lookupFile p true).2.lookupFile q).1 = ((HeadBag.open s.tree s.info).lookupFile q).1 := by
  rw [(lookupFile_spec _ q).1, (lookupFile_spec _ q).1]
  unfold HeadBag.lookupFile HeadBag.cacheLookup
  simp [lookupView, h, HeadBag.open]

/-- C95: the same for deletions, whether or not there is a saved list. -/
theorem C95_deleted (s : HeadBag) (ps : List Str) (h : (s.deletedPaths true).1 = .ok ps) :
    ((s.deletedPaths true).2.deletedPaths).1 = .ok ps := by
  rw [(deletedPaths_spec _).1]
  unfold HeadBag.deletedPaths at h ⊢
  simp only [Bool.true_or, if_true] at h ⊢
  cases hq : iterDeleted .codecs s.tree s.info with
  | ok l => rw [hq] at h; simp at h; simp [deletedView, h]
  | error e => rw [hq] at h; simp at h

namespace Sample

/-- A head bag in which nothing has been saved. -/
def bare : Tree := [([py!"data"], .dir)]

theorem opened_bare : Opened bare info where
  tag := by intro l; simp [dget, info]
  ver := by decide
  members := ⟨[], by decide⟩
  lookup := ⟨none, by decide⟩
  deleted := ⟨[], by decide⟩

end Sample

/-- C95 is false of the code where no list has been saved: the query that reads again reports nothing, and the next
one reports the unsaved updates, which should be lost. -/
theorem C95_negation :
    ∃ tree info ops s, Opened tree info ∧ runOk ops (HeadBag.open tree info) = some s ∧
      ((HeadBag.open s.tree s.info).memberBags).1 = .ok [] ∧
      (s.memberBags true).1 = .ok [] ∧ ((s.memberBags true).2.memberBags).1 = .ok [⟨py!"b1", none, none, []⟩] ∧
      (s.lookupFile py!"data/x" true).1 = .ok none ∧
      ((s.lookupFile py!"data/x" true).2.lookupFile py!"data/x").1 = .ok (some py!"b1") :=
  ⟨Sample.bare, Sample.info, [.addMember ⟨py!"b1", none, none, []⟩ true, .addLookup py!"data/x" py!"b1"], _, Sample.opened_bare,
    Sample.some_getD (d := HeadBag.open Sample.bare Sample.info) (by decide), by decide, by decide, by decide, by decide, by decide⟩

/-- In the sample bag there is a member list to be read. -/
example : ((Sample.edited.memberBags true).2.memberBags).1 =
    .ok [⟨py!"b1", some py!"ark:/1", none, []⟩, ⟨py!"b2", none, none, []⟩] :=
  (C95_members_partial _ [⟨py!"b1", some py!"ark:/1", none, []⟩, ⟨py!"b2", none, none, []⟩] (by decide)).trans (by decide)

example : ((Sample.edited.lookupFile py!"data/x" true).2.lookupFile py!"data/z").1 = .ok none :=
  (C95_lookup_partial _ _ _ [(py!"data/x", py!"b1"), (py!"data/y", py!"b2"), (py!"data/x", py!"b2")] (by decide)).trans (by decide)

example : ((Sample.edited.deletedPaths true).2.deletedPaths).1 = .ok [py!"data/old"] := C95_deleted _ _ (by decide)

end Verif
