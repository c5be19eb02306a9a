import Verif.Model.Live
import Verif.Lemmas.Sessions
/-!
# Lemmas on the lists that `member_bags()` hands out
-/

namespace Verif

/-! ## Deleting entries -/

theorem positions_cons (m : MemberInfo) (ms : List MemberInfo) (b : Str) :
    LiveBag.positions (m :: ms) b = (if m.name = b then [0] else []) ++ (LiveBag.positions ms b).map (· + 1) := by
  unfold LiveBag.positions
  rw [List.length_cons, List.range_succ_eq_map, List.filter_cons, List.filter_map]
  have e : ((fun i => ((m :: ms)[i]?).any (fun m => decide (m.name = b))) ∘ Nat.succ) =
      (fun i => (ms[i]?).any (fun m => decide (m.name = b))) := by
    funext i
    simp
  rw [e]
  by_cases h : m.name = b <;> simp [h]

theorem deleteAll_map (m : MemberInfo) (ms : List MemberInfo) (idxs : List Nat) :
    LiveBag.deleteAll (m :: ms) (idxs.map (· + 1)) = m :: LiveBag.deleteAll ms idxs := by
  unfold LiveBag.deleteAll
  rw [← List.map_reverse]
  generalize idxs.reverse = l
  induction l generalizing ms with
  | nil => rfl
  | cons i l ih => exact ih _

/-- Deleting the entries with a name, from the last one to the first one, leaves the others. -/
theorem deleteAll_positions (ms : List MemberInfo) (b : Str) :
    LiveBag.deleteAll ms (LiveBag.positions ms b) = ms.filter (fun m => decide (m.name ≠ b)) := by
  induction ms with
  | nil => rfl
  | cons m ms ih =>
    rw [positions_cons]
    by_cases h : m.name = b
    · have : LiveBag.deleteAll (m :: ms) ([0] ++ (LiveBag.positions ms b).map (· + 1)) =
          (LiveBag.deleteAll (m :: ms) ((LiveBag.positions ms b).map (· + 1))).eraseIdx 0 := by
        unfold LiveBag.deleteAll
        rw [List.reverse_append, List.foldl_append]
        rfl
      rw [if_pos h, this, deleteAll_map, ih]
      simp [h]
    · rw [if_neg h, List.nil_append, deleteAll_map, ih]
      simp [h]

/-! ## The object with lists as values -/

/-- The object's list exists. -/
def LiveBag.Proper (w : LiveBag) : Prop := ∀ k, w.cur = some k → k < w.lists.length

/-- The object with another member list. -/
def HeadBag.withMembers (s : HeadBag) (x : Option (List MemberInfo)) : HeadBag := { s with members := x }

theorem cacheLookup_withMembers (s : HeadBag) (x : Option (List MemberInfo)) :
    (s.withMembers x).cacheLookup = ((s.cacheLookup).1, (s.cacheLookup).2.withMembers x) := by
  unfold HeadBag.cacheLookup HeadBag.withMembers
  simp only
  split <;> rfl

theorem filesInMember_withMembers (s : HeadBag) (x : Option (List MemberInfo)) (b : Str) :
    (s.withMembers x).filesInMember b = ((s.filesInMember b).1, (s.filesInMember b).2.withMembers x) := by
  unfold HeadBag.filesInMember
  simp only
  rw [show (s.withMembers x).lookup = s.lookup from rfl, cacheLookup_withMembers]
  rcases s.cacheLookup with ⟨r, s'⟩
  by_cases h : s.lookup.isNone = true
  · simp only [if_pos h]
    cases r with
    | ok u => rfl
    | error e => cases e <;> rfl
  · simp only [if_neg h]

theorem removeLookup_withMembers (s : HeadBag) (x : Option (List MemberInfo)) (p : Str) :
    (s.withMembers x).removeFileLookup p = ((s.removeFileLookup p).1, (s.removeFileLookup p).2.withMembers x) := by
  unfold HeadBag.removeFileLookup
  rw [show (s.withMembers x).lookup = s.lookup from rfl, cacheLookup_withMembers]
  by_cases hp : p = []
  · simp only [if_pos hp]
  · simp only [if_neg hp]
    cases s.lookup with
    | some d => rfl
    | none =>
      rcases s.cacheLookup with ⟨r, s'⟩
      cases r with
      | ok u => rfl
      | error e => cases e <;> rfl

theorem forget_withMembers (fs : List Str) (s : HeadBag) (x : Option (List MemberInfo)) :
    (s.withMembers x).forgetFiles fs = ((s.forgetFiles fs).1, (s.forgetFiles fs).2.withMembers x) := by
  induction fs generalizing s with
  | nil => rfl
  | cons f fs ih =>
    simp only [HeadBag.forgetFiles]
    rw [show ((s.withMembers x).unsetDeleted f).2 = ((s.unsetDeleted f).2).withMembers x from rfl, removeLookup_withMembers]
    rcases (s.unsetDeleted f).2.removeFileLookup f with ⟨r, s'⟩
    cases r with
    | error e => rfl
    | ok u => exact ih s'

theorem here_put {w : LiveBag} {k : Nat} (hk : w.cur = some k) (hp : w.Proper) (l : List MemberInfo) :
    (w.put k l).here = w.base.withMembers (some l) := by
  unfold LiveBag.here LiveBag.put LiveBag.list HeadBag.withMembers
  simp [hk, hp k hk]

theorem here_fresh (w : LiveBag) (l : List MemberInfo) : (w.fresh l).here = w.base.withMembers (some l) := by
  unfold LiveBag.here LiveBag.fresh LiveBag.list HeadBag.withMembers
  simp

theorem here_base (w : LiveBag) (s : HeadBag) : ({ w with base := s } : LiveBag).here = s.withMembers (w.cur.map w.list) := rfl

theorem here_eq (w : LiveBag) : w.here = w.base.withMembers (w.cur.map w.list) := rfl

theorem map_list_append {w : LiveBag} (hp : w.Proper) (l : List MemberInfo) :
    w.cur.map (LiveBag.list { w with lists := w.lists ++ [l] }) = w.cur.map w.list := by
  cases h : w.cur with
  | none => rfl
  | some k =>
    have := hp k h
    simp [LiveBag.list, List.getElem?_append_left this]

theorem proper_put {w : LiveBag} (hp : w.Proper) (k : Nat) (l : List MemberInfo) : (w.put k l).Proper := by
  intro j hj
  show j < (w.lists.set k l).length
  rw [List.length_set]
  exact hp j hj

theorem proper_fresh (w : LiveBag) (l : List MemberInfo) : (w.fresh l).Proper := by
  intro j hj
  injection hj with hj
  show j < (w.lists ++ [l]).length
  simp [← hj]

theorem withMembers_self (s : HeadBag) : s.withMembers s.members = s := rfl

theorem memberBags_here {w : LiveBag} (hp : w.Proper) (b : Bool) :
    ((w.memberBags b).1.map (w.memberBags b).2.list = (w.here.memberBags b).1) ∧ (w.memberBags b).2.here = (w.here.memberBags b).2 ∧
      (w.memberBags b).2.Proper := by
  unfold LiveBag.memberBags HeadBag.memberBags
  have e : w.here.members.isNone = w.cur.isNone := by
    unfold LiveBag.here
    cases w.cur <;> rfl
  rw [e, show w.here.tree = w.base.tree from rfl, show w.here.info = w.base.info from rfl]
  by_cases hb : (b || w.cur.isNone) = true
  · simp only [if_pos hb]
    cases hit : iterMembers .codecs w.base.tree w.base.info with
    | ok ms =>
      refine ⟨?_, here_fresh w ms, proper_fresh w ms⟩
      simp [Except.map, LiveBag.fresh, LiveBag.list]
    | error x =>
      cases x with
      | missingFile =>
        refine ⟨?_, ?_, fun j hj => ?_⟩
        · simp [Except.map, LiveBag.list]
        · show w.base.withMembers (w.cur.map (LiveBag.list { w with lists := w.lists ++ [[]] })) = _
          rw [map_list_append hp]
          rfl
        · show j < (w.lists ++ [[]]).length
          have := hp j hj
          simp
          omega
      | _ => exact ⟨rfl, rfl, hp⟩
  · simp only [if_neg hb]
    refine ⟨?_, by trivial, hp⟩
    cases hc : w.cur with
    | none => simp [hc] at hb
    | some k => simp [Except.map, LiveBag.here, hc]

theorem removeMember_here {w : LiveBag} (hp : w.Proper) (b : Str) :
    (w.removeMemberBag b).1 = (w.here.removeMemberBag b).1 ∧ (w.removeMemberBag b).2.here = (w.here.removeMemberBag b).2 ∧
      (w.removeMemberBag b).2.Proper := by
  have key : ∀ w1 : LiveBag, w1.Proper → w1.base = w.base →
      w1.cur.map w1.list = w.here.members.map (fun ms => ms.filter (fun m => decide (m.name ≠ b))) →
      (match w1.base.filesInMember b with
        | (.error e, s) => ((.error e, { w1 with base := s }) : Except PyErr Unit × LiveBag)
        | (.ok files, s) => ((s.forgetFiles files).1, { w1 with base := (s.forgetFiles files).2 })).1 = (w.here.removeMemberBag b).1 ∧
      ((match w1.base.filesInMember b with
        | (.error e, s) => ((.error e, { w1 with base := s }) : Except PyErr Unit × LiveBag)
        | (.ok files, s) => ((s.forgetFiles files).1, { w1 with base := (s.forgetFiles files).2 })).2).here = (w.here.removeMemberBag b).2 ∧
      ((match w1.base.filesInMember b with
        | (.error e, s) => ((.error e, { w1 with base := s }) : Except PyErr Unit × LiveBag)
        | (.ok files, s) => ((s.forgetFiles files).1, { w1 with base := (s.forgetFiles files).2 })).2).Proper := by
    intro w1 hp1 hb hm
    unfold HeadBag.removeMemberBag
    simp only
    rw [← hm, show ({ w.here with members := w1.cur.map w1.list } : HeadBag) = w1.base.withMembers (w1.cur.map w1.list) by
      rw [hb]; rfl, filesInMember_withMembers]
    rcases w1.base.filesInMember b with ⟨r, s⟩
    cases r with
    | error e => exact ⟨rfl, rfl, hp1⟩
    | ok files =>
      simp only
      rw [forget_withMembers]
      exact ⟨rfl, rfl, hp1⟩
  unfold LiveBag.removeMemberBag
  simp only
  cases hc : w.cur with
  | none => exact key w hp rfl (by simp [LiveBag.here, hc])
  | some k =>
    refine key (w.put k _) (proper_put hp _ _) rfl ?_
    rw [deleteAll_positions]
    have := congrArg HeadBag.members (here_put hc hp ((w.list k).filter (fun m => decide (m.name ≠ b))))
    show (w.put k _).here.members = _
    rw [this]
    simp [LiveBag.here, HeadBag.withMembers, hc]

theorem ensureMembers_here {w : LiveBag} (hp : w.Proper) :
    (w.ensureMembers).1 = (w.here.ensureMembers).1 ∧ (w.ensureMembers).2.here = (w.here.ensureMembers).2 ∧ (w.ensureMembers).2.Proper ∧
      ((w.ensureMembers).1 = .ok () → (w.ensureMembers).2.cur.isSome) := by
  unfold LiveBag.ensureMembers HeadBag.ensureMembers
  cases hc : w.cur with
  | some k =>
    simp only [show w.here.members = some (w.list k) by simp [LiveBag.here, hc]]
    exact ⟨by trivial, trivial, hp, fun _ => by simp [hc]⟩
  | none =>
    simp only [show w.here.members = none by simp [LiveBag.here, hc]]
    obtain ⟨h1, h2, h3⟩ := memberBags_here hp false
    rcases hl : w.memberBags false with ⟨r, w1⟩
    rcases hv : w.here.memberBags false with ⟨r', s1⟩
    rw [hl, hv] at h1 h2
    rw [hl] at h3
    simp only at h1 h2 h3
    cases r with
    | error e =>
      cases r' with
      | ok x => cases h1
      | error e' =>
        injection h1 with h1
        subst h1
        exact ⟨rfl, h2, h3, fun h => by cases h⟩
    | ok j =>
      cases r' with
      | error e' => cases h1
      | ok x =>
        simp only
        cases hc1 : w1.cur with
        | some k =>
          refine ⟨by trivial, ?_, h3, fun _ => by simp [hc1]⟩
          have : s1.members = some (w1.list k) := by rw [← h2]; simp [LiveBag.here, hc1]
          rw [this, h2]
          show s1 = s1.withMembers (some (w1.list k))
          rw [← this]
          rfl
        | none =>
          refine ⟨by trivial, ?_, proper_fresh _ _, fun _ => rfl⟩
          simp only
          rw [here_fresh]
          have : s1.members = none := by rw [← h2]; simp [LiveBag.here, hc1]
          rw [this, ← h2]
          rfl

theorem removeMember_cur (w : LiveBag) (b : Str) : (w.removeMemberBag b).2.cur = w.cur := by
  unfold LiveBag.removeMemberBag
  simp only
  cases hc : w.cur with
  | none => simp only; split <;> exact hc
  | some k => simp only; split <;> exact hc

theorem addMember_here {w : LiveBag} (hp : w.Proper) (m : MemberInfo) (ov : Bool) :
    (w.addMemberBag m ov).1 = (w.here.addMemberBag m ov).1 ∧ (w.addMemberBag m ov).2.here = (w.here.addMemberBag m ov).2 ∧
      (w.addMemberBag m ov).2.Proper := by
  unfold LiveBag.addMemberBag HeadBag.addMemberBag
  obtain ⟨h1, h2, h3, h4⟩ := ensureMembers_here hp
  rcases hl : w.ensureMembers with ⟨r, w1⟩
  rcases hv : w.here.ensureMembers with ⟨r', s1⟩
  rw [hl, hv] at h1 h2
  rw [hl] at h3 h4
  simp only at h1 h2 h3 h4
  subst h1
  cases r with
  | error e => exact ⟨rfl, h2, h3⟩
  | ok u =>
    obtain ⟨k, hk⟩ := Option.isSome_iff_exists.1 (h4 rfl)
    have fin : ∀ w2 : LiveBag, w2.Proper → w2.cur = some k →
        (match w2.cur with
          | some k => ((.ok (), w2.put k (w2.list k ++ [m])) : Except PyErr Unit × LiveBag)
          | none => (.ok (), w2)).1 = .ok () ∧
        ((match w2.cur with
          | some k => ((.ok (), w2.put k (w2.list k ++ [m])) : Except PyErr Unit × LiveBag)
          | none => (.ok (), w2)).2).here = { w2.here with members := some (w2.here.members.getD [] ++ [m]) } ∧
        ((match w2.cur with
          | some k => ((.ok (), w2.put k (w2.list k ++ [m])) : Except PyErr Unit × LiveBag)
          | none => (.ok (), w2)).2).Proper := by
      intro w2 hp2 hk2
      rw [hk2]
      refine ⟨rfl, ?_, proper_put hp2 _ _⟩
      simp only
      rw [here_put hk2 hp2]
      simp [LiveBag.here, hk2, HeadBag.withMembers]
    cases ov with
    | false =>
      simp only [Bool.false_eq_true, if_false]
      rw [← h2]
      exact fin w1 h3 hk
    | true =>
      simp only [if_true]
      obtain ⟨g1, g2, g3⟩ := removeMember_here h3 m.name
      have g4 := removeMember_cur w1 m.name
      rw [h2] at g1 g2
      rcases hr : w1.removeMemberBag m.name with ⟨r, w2⟩
      rcases hs : s1.removeMemberBag m.name with ⟨r', s2⟩
      rw [hr, hs] at g1 g2
      rw [hr] at g3 g4
      simp only at g1 g2 g3 g4
      subst g1
      cases r with
      | error e => exact ⟨rfl, g2, g3⟩
      | ok u =>
        simp only
        rw [← g2]
        exact fin w2 g3 (g4.trans hk)

/-! ## Calls -/

theorem lookupFile_members (s : HeadBag) (p : Str) (b : Bool) : (s.lookupFile p b).2.members = s.members := by
  unfold HeadBag.lookupFile HeadBag.cacheLookup
  repeat' split
  all_goals first | rfl | skip
  all_goals rename_i h; split at h <;> (injection h with h1 h2; first | (subst h2; rfl) | cases h1)

theorem deletedPaths_members (s : HeadBag) (b : Bool) : (s.deletedPaths b).2.members = s.members := by
  unfold HeadBag.deletedPaths
  repeat' split
  all_goals rfl

theorem addLookup_members (s : HeadBag) (p b : Str) : (s.addFileLookup p b).2.members = s.members := by
  unfold HeadBag.addFileLookup HeadBag.cacheLookup
  repeat' split
  all_goals first | rfl | skip
  all_goals rename_i h; split at h <;> (injection h with h1 h2; first | (subst h2; rfl) | cases h1)

/-- Calls that leave the member list in memory as it is. -/
def sparesMembers : Op → Bool
  | .addMember _ _ | .setMembers _ | .removeMember _ | .memberBags | .reloadMembers => false
  | _ => true

theorem step_spares {s : HeadBag} {op : Op} (h : sparesMembers op = true) : (step s op).2.members = s.members := by
  cases op with
  | addMember m ov => cases h
  | setMembers ms => cases h
  | removeMember b => cases h
  | memberBags => cases h
  | reloadMembers => cases h
  | addLookup p b => exact addLookup_members s p b
  | removeLookup p => exact removeLookup_members s p
  | setDeleted p => rfl
  | unsetDeleted p => rfl
  | lookupFile p => simp only [step, void_snd]; exact lookupFile_members s p false
  | filesInMember b => simp only [step, void_snd]; exact (filesInMember_spec s b).2.2.2.2.1
  | deletedPaths => simp only [step, void_snd]; exact deletedPaths_members s false
  | reloadLookup p => simp only [step, void_snd]; exact lookupFile_members s p true
  | reloadDeleted => simp only [step, void_snd]; exact deletedPaths_members s true
  | saveMembers => obtain ⟨t, e⟩ := saveMembers_mem s; show (s.saveMemberBags).2.members = _; rw [e]
  | saveLookup => obtain ⟨t, e⟩ := saveLookup_mem s; show (s.saveFileLookup).2.members = _; rw [e]
  | saveDeleted en => obtain ⟨t, e⟩ := saveDeleted_mem s en; show (s.saveDeleted en).2.members = _; rw [e]
  | clearLookup => obtain ⟨t, l, e, _⟩ := clearLookup_mem s; show (s.clearFileLookup).2.members = _; rw [e]

theorem call_spares (w : LiveBag) {op : Op} (h : sparesMembers op = true) :
    w.call op = ((step w.here op).1, { w with base := (step w.here op).2 }) := by
  cases op <;> first | rfl | cases h

theorem void_fst {α : Type} (r : Res α) : (r.void).1 = r.1.map (fun _ => ()) := by
  rcases r with ⟨r, s⟩
  cases r <;> rfl

theorem call_here {w : LiveBag} (hp : w.Proper) (op : Op) :
    (w.call op).1 = (step w.here op).1 ∧ (w.call op).2.here = (step w.here op).2 ∧ (w.call op).2.Proper := by
  cases hs : sparesMembers op with
  | true =>
    rw [call_spares w hs]
    refine ⟨rfl, ?_, hp⟩
    show (step w.here op).2.withMembers (w.cur.map w.list) = _
    rw [show w.cur.map w.list = (step w.here op).2.members from (step_spares (s := w.here) hs).symm]
    rfl
  | false =>
    have mb : ∀ b, ((w.memberBags b).1.map (fun _ => ()), (w.memberBags b).2).1 = ((w.here.memberBags b).void).1 ∧
        (w.memberBags b).2.here = ((w.here.memberBags b).void).2 ∧ (w.memberBags b).2.Proper := by
      intro b
      obtain ⟨h1, h2, h3⟩ := memberBags_here hp b
      refine ⟨?_, by rw [void_snd]; exact h2, h3⟩
      rw [void_fst, ← h1]
      cases (w.memberBags b).1 <;> rfl
    cases op with
    | addMember m ov => exact addMember_here hp m ov
    | setMembers ms => exact ⟨rfl, here_fresh w ms, proper_fresh w ms⟩
    | removeMember b => exact removeMember_here hp b
    | memberBags => exact mb false
    | reloadMembers => exact mb true
    | _ => cases hs

/-! ## Which list is changed -/

/-- What a call may do to the lists: the object's own list is changed, or there is a new one. -/
structure Moved (w w' : LiveBag) : Prop where
  longer : w.lists.length ≤ w'.lists.length
  others : ∀ k, k < w.lists.length → w.cur ≠ some k → w'.list k = w.list k ∧ w'.cur ≠ some k

theorem moved_refl (w : LiveBag) : Moved w w := ⟨Nat.le_refl _, fun _ _ h => ⟨rfl, h⟩⟩

theorem Moved.trans {w w1 w2 : LiveBag} (h : Moved w w1) (h' : Moved w1 w2) : Moved w w2 :=
  ⟨Nat.le_trans h.longer h'.longer, fun k hk hc => by
    obtain ⟨a, b⟩ := h.others k hk hc
    obtain ⟨a', b'⟩ := h'.others k (Nat.lt_of_lt_of_le hk h.longer) b
    exact ⟨a'.trans a, b'⟩⟩

theorem moved_base (w : LiveBag) (s : HeadBag) : Moved w { w with base := s } := ⟨Nat.le_refl _, fun _ _ h => ⟨rfl, h⟩⟩

theorem moved_put {w : LiveBag} {k : Nat} (hk : w.cur = some k) (l : List MemberInfo) : Moved w (w.put k l) := by
  refine ⟨by simp [LiveBag.put], fun j hj hc => ⟨?_, hc⟩⟩
  have hne : k ≠ j := fun e => hc (by rw [hk, e])
  simp [LiveBag.list, LiveBag.put, List.getElem?_set, hne]

theorem list_append {w : LiveBag} {k : Nat} (hk : k < w.lists.length) (l : List MemberInfo) (c : Option Nat) :
    LiveBag.list { w with lists := w.lists ++ [l], cur := c } k = w.list k := by
  simp [LiveBag.list, List.getElem?_append_left hk]

theorem moved_fresh (w : LiveBag) (l : List MemberInfo) : Moved w (w.fresh l) := by
  refine ⟨by simp [LiveBag.fresh], fun j hj hc => ⟨list_append hj l _, fun e => ?_⟩⟩
  injection e with e
  omega

theorem moved_memberBags (w : LiveBag) (b : Bool) : Moved w (w.memberBags b).2 := by
  unfold LiveBag.memberBags
  split
  · split
    · exact moved_fresh _ _
    · exact ⟨by simp, fun j hj hc => ⟨list_append hj _ _, hc⟩⟩
    · exact moved_refl _
  · exact moved_refl _

theorem moved_remove (w : LiveBag) (b : Str) : Moved w (w.removeMemberBag b).2 := by
  unfold LiveBag.removeMemberBag
  simp only
  have key : ∀ w1 : LiveBag, Moved w w1 → Moved w (match w1.base.filesInMember b with
        | (.error e, s) => ((.error e, { w1 with base := s }) : Except PyErr Unit × LiveBag)
        | (.ok files, s) => ((s.forgetFiles files).1, { w1 with base := (s.forgetFiles files).2 })).2 := by
    intro w1 h
    split
    · exact h.trans (moved_base _ _)
    · exact h.trans (moved_base _ _)
  cases hc : w.cur with
  | none => exact key w (moved_refl w)
  | some k => exact key _ (moved_put hc _)

theorem moved_ensure (w : LiveBag) : Moved w (w.ensureMembers).2 := by
  unfold LiveBag.ensureMembers
  split
  · exact moved_refl w
  · have := moved_memberBags w false
    split <;> rename_i h <;> rw [h] at this
    · exact this
    · simp only at this ⊢
      split
      · exact this
      · exact this.trans (moved_fresh _ _)

theorem moved_add (w : LiveBag) (m : MemberInfo) (ov : Bool) : Moved w (w.addMemberBag m ov).2 := by
  unfold LiveBag.addMemberBag
  have h1 := moved_ensure w
  split <;> rename_i w1 h <;> rw [h] at h1
  · exact h1
  · simp only at h1
    have h2 : Moved w1 (if ov then w1.removeMemberBag m.name else (.ok (), w1)).2 := by
      cases ov with
      | false => exact moved_refl _
      | true => exact moved_remove w1 _
    split <;> rename_i w2 h' <;> rw [h'] at h2
    · exact h1.trans h2
    · simp only at h2
      split
      · rename_i k hk
        exact (h1.trans h2).trans (moved_put hk _)
      · exact h1.trans h2

theorem moved_call (w : LiveBag) (op : Op) : Moved w (w.call op).2 := by
  cases hs : sparesMembers op with
  | true =>
    rw [call_spares w hs]
    exact moved_base _ _
  | false =>
    cases op with
    | addMember m ov => exact moved_add w m ov
    | setMembers ms => exact moved_fresh w ms
    | removeMember b => exact moved_remove w b
    | memberBags => exact moved_memberBags w false
    | reloadMembers => exact moved_memberBags w true
    | _ => cases hs

/-! ## Calls that keep the list -/

/-- Calls that give the object another list. -/
def replacesList : Op → Bool
  | .setMembers _ | .reloadMembers => true
  | _ => false

theorem ensure_cur {w : LiveBag} {k : Nat} (h : w.cur = some k) : w.ensureMembers = (.ok (), w) := by
  unfold LiveBag.ensureMembers
  rw [h]

theorem call_cur {w : LiveBag} {k : Nat} (h : w.cur = some k) {op : Op} (ho : replacesList op = false) : (w.call op).2.cur = some k := by
  cases hs : sparesMembers op with
  | true =>
    rw [call_spares w hs]
    exact h
  | false =>
    cases op with
    | addMember m ov =>
      show (w.addMemberBag m ov).2.cur = _
      unfold LiveBag.addMemberBag
      rw [ensure_cur h]
      have h2 : ((if ov then w.removeMemberBag m.name else (.ok (), w)) : Except PyErr Unit × LiveBag).2.cur = some k := by
        cases ov with
        | false => exact h
        | true => exact (removeMember_cur w _).trans h
      simp only
      split <;> rename_i w2 h' <;> rw [h'] at h2
      · exact h2
      · simp only at h2 ⊢
        split
        · exact h2
        · exact h2
    | setMembers ms => cases ho
    | removeMember b => exact (removeMember_cur w b).trans h
    | memberBags =>
      show (w.memberBags false).2.cur = _
      unfold LiveBag.memberBags
      simp [h]
    | reloadMembers => cases ho
    | _ => cases hs

theorem act_cur {w : LiveBag} {k : Nat} (h : w.cur = some k) {a : LiveOp} (ha : ∀ op, a = .call op → replacesList op = false) :
    (w.act a).cur = some k := by
  cases a with
  | call op => exact call_cur h (ha op rfl)
  | edit j f => exact h

theorem acts_cur (l : List LiveOp) {w : LiveBag} {k : Nat} (h : w.cur = some k)
    (hl : ∀ a ∈ l, ∀ op, a = .call op → replacesList op = false) : (w.acts l).cur = some k := by
  induction l generalizing w with
  | nil => exact h
  | cons a l ih => exact ih (act_cur h (hl a List.mem_cons_self)) (fun b hb => hl b (List.mem_cons_of_mem _ hb))

theorem proper_act {w : LiveBag} (hp : w.Proper) (a : LiveOp) : (w.act a).Proper := by
  cases a with
  | call op => exact (call_here hp op).2.2
  | edit k f => exact proper_put hp _ _

theorem proper_acts (l : List LiveOp) {w : LiveBag} (hp : w.Proper) : (w.acts l).Proper := by
  induction l generalizing w with
  | nil => exact hp
  | cons a l ih => exact ih (proper_act hp a)

theorem proper_start (tree : Tree) (info : Info) : (LiveBag.start tree info).Proper := fun k h => by cases h

/-! ## Lists that are no longer the object's -/

/-- A list that is there and is not the object's. -/
structure Let (w : LiveBag) (k : Nat) : Prop where
  there : k < w.lists.length
  notOwn : w.cur ≠ some k

theorem let_act {w : LiveBag} {k : Nat} (h : Let w k) (a : LiveOp) : Let (w.act a) k := by
  cases a with
  | call op => exact ⟨Nat.lt_of_lt_of_le h.there (moved_call w op).longer, ((moved_call w op).others k h.there h.notOwn).2⟩
  | edit j f => exact ⟨by show k < (w.lists.set j _).length; rw [List.length_set]; exact h.there, h.notOwn⟩

/-- Two objects that differ in a list that is not theirs. -/
structure SameSeen (k : Nat) (w w' : LiveBag) : Prop where
  base : w'.base = w.base
  cur : w'.cur = w.cur
  length : w'.lists.length = w.lists.length
  lists : ∀ j, j ≠ k → w'.list j = w.list j

theorem sameSeen_here {k : Nat} {w w' : LiveBag} (h : SameSeen k w w') (hk : w.cur ≠ some k) : w'.here = w.here := by
  unfold LiveBag.here
  rw [h.base, h.cur]
  cases hc : w.cur with
  | none => rfl
  | some j => simp [h.lists j (fun e => hk (by rw [hc, e]))]

theorem sameSeen_base {k : Nat} {w w' : LiveBag} (h : SameSeen k w w') (s : HeadBag) :
    SameSeen k { w with base := s } { w' with base := s } := ⟨rfl, h.cur, h.length, h.lists⟩

theorem list_set (w : LiveBag) (i j : Nat) (l : List MemberInfo) :
    (w.put i l).list j = if j = i ∧ j < w.lists.length then l else w.list j := by
  unfold LiveBag.list LiveBag.put
  by_cases h : i = j
  · subst h
    by_cases hl : i < w.lists.length
    · simp [hl]
    · simp [hl]
  · simp [List.getElem?_set, h, Ne.symm h]

theorem sameSeen_put {k : Nat} {w w' : LiveBag} (h : SameSeen k w w') (i : Nat) (l : List MemberInfo) : SameSeen k (w.put i l) (w'.put i l) := by
  refine ⟨h.base, h.cur, by simp [LiveBag.put, h.length], fun j hj => ?_⟩
  rw [list_set, list_set, h.length, h.lists j hj]

theorem sameSeen_append {k : Nat} {w w' : LiveBag} (h : SameSeen k w w') (l : List MemberInfo) (c : Option Nat) :
    SameSeen k { w with lists := w.lists ++ [l], cur := c } { w' with lists := w'.lists ++ [l], cur := c } := by
  refine ⟨h.base, rfl, by simp [h.length], fun j hj => ?_⟩
  have := h.lists j hj
  unfold LiveBag.list at this ⊢
  simp only [List.getD_eq_getElem?_getD, List.getElem?_append, h.length] at this ⊢
  split
  · exact this
  · rfl

theorem sameSeen_fresh {k : Nat} {w w' : LiveBag} (h : SameSeen k w w') (l : List MemberInfo) : SameSeen k (w.fresh l) (w'.fresh l) := by
  unfold LiveBag.fresh
  rw [h.length]
  exact sameSeen_append h l _

theorem sameSeen_memberBags {k : Nat} {w w' : LiveBag} (h : SameSeen k w w') (b : Bool) :
    (w'.memberBags b).1 = (w.memberBags b).1 ∧ SameSeen k (w.memberBags b).2 (w'.memberBags b).2 := by
  unfold LiveBag.memberBags
  rw [h.base, h.cur, h.length]
  split
  · split
    · exact ⟨rfl, sameSeen_fresh h _⟩
    · refine ⟨rfl, ?_⟩
      have := sameSeen_append h [] w.cur
      exact ⟨rfl, rfl, this.length, this.lists⟩
    · exact ⟨rfl, h⟩
  · exact ⟨rfl, h⟩

theorem sameSeen_remove {k : Nat} {w w' : LiveBag} (h : SameSeen k w w') (hk : w.cur ≠ some k) (b : Str) :
    (w'.removeMemberBag b).1 = (w.removeMemberBag b).1 ∧ SameSeen k (w.removeMemberBag b).2 (w'.removeMemberBag b).2 := by
  have key : ∀ w1 w2 : LiveBag, SameSeen k w1 w2 →
      (match w2.base.filesInMember b with
        | (.error e, s) => ((.error e, { w2 with base := s }) : Except PyErr Unit × LiveBag)
        | (.ok files, s) => ((s.forgetFiles files).1, { w2 with base := (s.forgetFiles files).2 })).1 =
      (match w1.base.filesInMember b with
        | (.error e, s) => ((.error e, { w1 with base := s }) : Except PyErr Unit × LiveBag)
        | (.ok files, s) => ((s.forgetFiles files).1, { w1 with base := (s.forgetFiles files).2 })).1 ∧
      SameSeen k (match w1.base.filesInMember b with
        | (.error e, s) => ((.error e, { w1 with base := s }) : Except PyErr Unit × LiveBag)
        | (.ok files, s) => ((s.forgetFiles files).1, { w1 with base := (s.forgetFiles files).2 })).2
        (match w2.base.filesInMember b with
        | (.error e, s) => ((.error e, { w2 with base := s }) : Except PyErr Unit × LiveBag)
        | (.ok files, s) => ((s.forgetFiles files).1, { w2 with base := (s.forgetFiles files).2 })).2 := by
    intro w1 w2 h
    rw [h.base]
    rcases w1.base.filesInMember b with ⟨r, s⟩
    cases r with
    | error e => exact ⟨rfl, sameSeen_base h _⟩
    | ok fs => exact ⟨rfl, sameSeen_base h _⟩
  unfold LiveBag.removeMemberBag
  simp only
  rw [h.cur]
  cases hc : w.cur with
  | none => exact key w w' h
  | some j =>
    simp only
    rw [h.lists j (fun e => hk (by rw [hc, e]))]
    exact key _ _ (sameSeen_put h _ _)

theorem sameSeen_call {k : Nat} {w w' : LiveBag} (h : SameSeen k w w') (hl : Let w k) (op : Op) :
    (w'.call op).1 = (w.call op).1 ∧ SameSeen k (w.call op).2 (w'.call op).2 := by
  cases hs : sparesMembers op with
  | true =>
    rw [call_spares w hs, call_spares w' hs, sameSeen_here h hl.notOwn]
    exact ⟨rfl, sameSeen_base h _⟩
  | false =>
    cases op with
    | addMember m ov =>
      show (w'.addMemberBag m ov).1 = (w.addMemberBag m ov).1 ∧ SameSeen k (w.addMemberBag m ov).2 (w'.addMemberBag m ov).2
      have he : (w'.ensureMembers).1 = (w.ensureMembers).1 ∧ SameSeen k (w.ensureMembers).2 (w'.ensureMembers).2 := by
        unfold LiveBag.ensureMembers
        rw [h.cur]
        split
        · exact ⟨rfl, h⟩
        · obtain ⟨a, b⟩ := sameSeen_memberBags h false
          rcases hx : w.memberBags false with ⟨r, w1⟩
          rcases hy : w'.memberBags false with ⟨r', w1'⟩
          rw [hx, hy] at a b
          simp only at a b
          subst a
          cases r' with
          | error e => exact ⟨rfl, b⟩
          | ok j =>
            simp only
            rw [b.cur]
            refine ⟨by trivial, ?_⟩
            split
            · exact b
            · exact sameSeen_fresh b _
      have hm := moved_ensure w
      unfold LiveBag.addMemberBag
      rcases hx : w.ensureMembers with ⟨r, w1⟩
      rcases hy : w'.ensureMembers with ⟨r', w1'⟩
      rw [hx, hy] at he
      rw [hx] at hm
      simp only at he hm
      obtain ⟨he1, he2⟩ := he
      subst he1
      have hk1 := (hm.others k hl.there hl.notOwn).2
      cases r' with
      | error e => exact ⟨rfl, he2⟩
      | ok u =>
        simp only
        have hr : ((if ov then w1'.removeMemberBag m.name else (.ok (), w1')) : Except PyErr Unit × LiveBag).1 =
              ((if ov then w1.removeMemberBag m.name else (.ok (), w1)) : Except PyErr Unit × LiveBag).1 ∧
            SameSeen k ((if ov then w1.removeMemberBag m.name else (.ok (), w1)) : Except PyErr Unit × LiveBag).2
              ((if ov then w1'.removeMemberBag m.name else (.ok (), w1')) : Except PyErr Unit × LiveBag).2 ∧
            ((if ov then w1.removeMemberBag m.name else (.ok (), w1)) : Except PyErr Unit × LiveBag).2.cur = w1.cur := by
          cases ov with
          | false => exact ⟨rfl, he2, rfl⟩
          | true =>
            obtain ⟨a, b⟩ := sameSeen_remove he2 hk1 m.name
            exact ⟨a, b, removeMember_cur _ _⟩
        rcases hw2 : ((if ov then w1.removeMemberBag m.name else (.ok (), w1)) : Except PyErr Unit × LiveBag) with ⟨r, w2⟩
        rcases hw2' : ((if ov then w1'.removeMemberBag m.name else (.ok (), w1')) : Except PyErr Unit × LiveBag) with ⟨r', w2'⟩
        rw [hw2, hw2'] at hr
        simp only at hr
        obtain ⟨hr1, hr2, hr3⟩ := hr
        subst hr1
        cases r' with
        | error e => exact ⟨rfl, hr2⟩
        | ok u =>
          simp only
          rw [hr2.cur]
          cases hc : w2.cur with
          | none => exact ⟨rfl, hr2⟩
          | some j =>
            refine ⟨rfl, ?_⟩
            simp only
            rw [hr2.lists j (fun e => hk1 (by rw [← hr3, hc, e]))]
            exact sameSeen_put hr2 _ _
    | setMembers ms => exact ⟨rfl, sameSeen_fresh h ms⟩
    | removeMember b => exact sameSeen_remove h hl.notOwn b
    | memberBags =>
      obtain ⟨a, b⟩ := sameSeen_memberBags h false
      exact ⟨by show (w'.memberBags false).1.map _ = _; rw [a]; rfl, b⟩
    | reloadMembers =>
      obtain ⟨a, b⟩ := sameSeen_memberBags h true
      exact ⟨by show (w'.memberBags true).1.map _ = _; rw [a]; rfl, b⟩
    | _ => cases hs

end Verif
