import Verif.Spec.Live
import Verif.Lemmas.Live
/-!
# C123: the list that `member_bags()` returns
-/

namespace Verif
open Spec

/-! ## Programs that do not change the lists they are handed -/

/-- C123: as long as the caller does not change a list it was handed, the object does what it does if lists are values: after any
calls it is as `Model/HeadBag.lean` says. -/
theorem C123_values (tree : Tree) (info : Info) (ops : List Op) :
    ((LiveBag.start tree info).acts (ops.map .call)).here = runAll ops (HeadBag.open tree info) := by
  have key : ∀ (ops : List Op) (w : LiveBag), w.Proper → (w.acts (ops.map .call)).here = runAll ops w.here := by
    intro ops
    induction ops with
    | nil => intro w _; rfl
    | cons op ops ih =>
      intro w hp
      obtain ⟨_, h2, h3⟩ := call_here hp op
      rw [runAll_cons, ← h2]
      exact ih _ h3
  exact key ops _ (proper_start tree info)

/-- C123: the outcomes are the same too. -/
theorem C123_outcomes (tree : Tree) (info : Info) (ops : List Op) (op : Op) :
    (((LiveBag.start tree info).acts (ops.map .call)).call op).1 = (step (runAll ops (HeadBag.open tree info)) op).1 := by
  rw [← C123_values]
  exact (call_here (proper_acts _ (proper_start tree info)) op).1

/-- C123: and so are the contents of the list that `member_bags` returns, when it returns it. -/
theorem C123_returned (tree : Tree) (info : Info) (prog : List LiveOp) (reread : Bool) (k : Nat)
    (h : (((LiveBag.start tree info).acts prog).memberBags reread).1 = .ok k) :
    (((LiveBag.start tree info).acts prog).here.memberBags reread).1 = .ok ((((LiveBag.start tree info).acts prog).memberBags reread).2.list k) := by
  rw [← (memberBags_here (proper_acts prog (proper_start tree info)) reread).1, h]
  rfl

/-! ## The list is the object's own -/

/-- C123: once `member_bags` has returned the object's list, it returns the same list again, whatever is called and whatever the
caller does to lists, until the list is set or read again; what is in the list is what is reported. -/
theorem C123_same_list (tree : Tree) (info : Info) (before prog : List LiveOp) (k : Nat)
    (hk : ((LiveBag.start tree info).acts before).cur = some k)
    (hprog : ∀ a ∈ prog, ∀ op, a = .call op → replacesList op = false) :
    ((((LiveBag.start tree info).acts before).acts prog).memberBags false).1 = .ok k ∧
    (((((LiveBag.start tree info).acts before).acts prog).here).memberBags).1 = .ok ((((LiveBag.start tree info).acts before).acts prog).list k) := by
  have hc := acts_cur prog hk hprog
  generalize ((LiveBag.start tree info).acts before).acts prog = w at hc
  refine ⟨by simp [LiveBag.memberBags, hc], ?_⟩
  rw [memberBags_fst]
  simp [membersView, LiveBag.here, hc]

/-- C123: what the caller does to that list is what the object then reports. -/
theorem C123_edit (w : LiveBag) (hp : w.Proper) (k : Nat) (hk : w.cur = some k) (f : List MemberInfo → List MemberInfo) :
    (((w.act (.edit k f)).here).memberBags).1 = .ok (f (w.list k)) := by
  show (((w.put k (f (w.list k))).here).memberBags).1 = _
  rw [here_put hk hp, memberBags_fst]
  rfl

/-! ## Lists that are no longer the object's -/

/-- C123: when the list has been set or read again, a list that was returned before is the caller's: no call changes it, only
what the caller does to it. -/
theorem C123_let_go (w : LiveBag) (k : Nat) (hk : k < w.lists.length) (hc : w.cur ≠ some k) (prog : List LiveOp) :
    (w.acts prog).list k = edited k (w.list k) prog := by
  have hl : Let w k := ⟨hk, hc⟩
  clear hk hc
  induction prog generalizing w with
  | nil => rfl
  | cons a prog ih =>
    refine (ih (w.act a) (let_act hl a)).trans ?_
    cases a with
    | call op =>
      show edited k ((w.call op).2.list k) prog = edited k (w.list k) prog
      rw [((moved_call w op).others k hl.there hl.notOwn).1]
    | edit j f =>
      show edited k ((w.put j (f (w.list j))).list k) prog = edited k (if j = k then f (w.list k) else w.list k) prog
      rw [list_set]
      by_cases h : k = j
      · subst h
        simp [hl.there]
      · simp [h, Ne.symm h]

/-- C123: and what the caller does to it does not matter to the object. -/
theorem C123_let_go_object (w : LiveBag) (k : Nat) (hk : k < w.lists.length) (hc : w.cur ≠ some k) (prog : List LiveOp) :
    (w.acts prog).here = (w.acts (withoutEdits k prog)).here := by
  have key : ∀ (prog : List LiveOp) (w w' : LiveBag), Let w k → SameSeen k w w' → (w.acts prog).here = (w'.acts (withoutEdits k prog)).here := by
    intro prog
    induction prog with
    | nil => intro w w' hl ha; exact (sameSeen_here ha hl.notOwn).symm
    | cons a prog ih =>
      intro w w' hl ha
      cases a with
      | call op => exact ih _ _ (let_act hl _) (sameSeen_call ha hl op).2
      | edit j f =>
        by_cases h : j = k
        · have e : withoutEdits k (.edit j f :: prog) = withoutEdits k prog := by simp [withoutEdits, h]
          rw [e]
          refine ih (w.put j _) w' (let_act hl (.edit j f)) ⟨ha.base, ha.cur, ?_, fun i hi => ?_⟩
          · rw [ha.length]
            simp [LiveBag.put]
          · rw [list_set, if_neg (fun x => hi (x.1.trans h)), ha.lists i hi]
        · have e : withoutEdits k (.edit j f :: prog) = .edit j f :: withoutEdits k prog := by simp [withoutEdits, h]
          rw [e]
          refine ih (w.put j _) (w'.put j _) (let_act hl (.edit j f)) ?_
          rw [ha.lists j h]
          exact sameSeen_put ha _ _
  exact key prog w w ⟨hk, hc⟩ ⟨rfl, rfl, rfl, fun _ _ => rfl⟩

/-- C123: setting the list lets go of the one before, and so does reading again if the file is there. -/
theorem C123_lets_go (w : LiveBag) (hp : w.Proper) (k : Nat) (hk : w.cur = some k) :
    (∀ ms, (w.call (.setMembers ms)).2.cur ≠ some k) ∧
    ((w.call .reloadMembers).2.cur ≠ some k ↔ ∃ ms, iterMembers .codecs w.base.tree w.base.info = .ok ms) := by
  have hlt := hp k hk
  refine ⟨fun ms h => ?_, ?_⟩
  · injection h with h
    omega
  · show (w.memberBags true).2.cur ≠ some k ↔ _
    unfold LiveBag.memberBags
    simp only [Bool.true_or, if_true]
    split
    · rename_i ms hms
      refine ⟨fun _ => ⟨ms, hms⟩, fun _ h => ?_⟩
      injection h with h
      omega
    · rename_i hms
      refine ⟨fun h => absurd hk h, fun ⟨ms, h⟩ => ?_⟩
      rw [hms] at h
      cases h
    · rename_i e hne hms
      refine ⟨fun h => absurd hk h, fun ⟨ms, h⟩ => ?_⟩
      rw [hms] at h
      cases h

/-! ## Loops over the list -/

/-- Removing one of the bags. -/
theorem removed_list {w w' : LiveBag} {k : Nat} {b : Str} (hp : w.Proper) (hk : w.cur = some k) (h : w.removeMemberBag b = (.ok (), w')) :
    w'.cur = some k ∧ w'.Proper ∧ w'.list k = (w.list k).filter (fun m => decide (m.name ≠ b)) := by
  have h1 := removeMember_cur w b
  obtain ⟨_, h2, h3⟩ := removeMember_here hp b
  rw [h] at h1 h2 h3
  have hc : w'.cur = some k := h1.trans hk
  refine ⟨hc, h3, ?_⟩
  have h4 := congrArg HeadBag.members h2
  rw [removeMember_members] at h4
  have e1 : w'.here.members = some (w'.list k) := by simp [LiveBag.here, hc]
  have e2 : w.here.members = some (w.list k) := by simp [LiveBag.here, hk]
  rw [e1, e2] at h4
  exact Option.some.inj h4

theorem filter_other {l : List MemberInfo} {b : Str} (h : b ∉ l.map MemberInfo.name) : l.filter (fun m => decide (m.name ≠ b)) = l := by
  rw [List.filter_eq_self]
  intro m hm
  have : m.name ≠ b := fun e => h (e ▸ List.mem_map_of_mem hm)
  simp [this]

/-- C123: `for m in head.member_bags(): head.remove_member_bag(m.name)` removes the first, third, fifth … bag, and leaves the
others: for every list of bags with different names. -/
theorem C123_loop {w w' : LiveBag} (hp : w.Proper) {k : Nat} (hk : w.cur = some k) (hn : ((w.list k).map MemberInfo.name).Nodup)
    (h : ForIn k (fun m w => w.removeMemberBag m.name) 0 w w') : ((w'.here).memberBags).1 = .ok (everySecond (w.list k)) := by
  have key : ∀ (n : Nat) (rest kept : List MemberInfo) (i : Nat) (w : LiveBag), rest.length ≤ n → w.Proper → w.cur = some k →
      w.list k = kept ++ rest → kept.length = i → ((w.list k).map MemberInfo.name).Nodup →
      ForIn k (fun m w => w.removeMemberBag m.name) i w w' → w'.cur = some k ∧ w'.list k = kept ++ everySecond rest := by
    intro n
    induction n with
    | zero =>
      intro rest kept i w hl hp hk he hi hn h
      have : rest = [] := List.length_eq_zero_iff.1 (Nat.le_zero.1 hl)
      subst this
      cases h with
      | done h => exact ⟨hk, he⟩
      | next h hb hr =>
        rw [he, List.append_nil, List.getElem?_eq_none (by omega)] at h
        cases h
    | succ n ih =>
      intro rest kept i w hl hp hk he hi hn h
      cases rest with
      | nil => exact ih [] kept i w (by simp) hp hk he hi hn h
      | cons a rest =>
        cases h with
        | done h =>
          rw [he, List.length_append, List.length_cons] at h
          omega
        | next h hb hr =>
          rw [he, ← hi] at h
          rw [List.getElem?_append_right (Nat.le_refl _)] at h
          simp only [Nat.sub_self, List.getElem?_cons_zero, Option.some.injEq] at h
          subst h
          obtain ⟨c1, c2, c3⟩ := removed_list hp hk hb
          rw [he, List.map_append, List.map_cons, List.nodup_append] at hn
          obtain ⟨n1, n2, n3⟩ := hn
          rw [List.nodup_cons] at n2
          have hf : (kept ++ a :: rest).filter (fun m => decide (m.name ≠ a.name)) = kept ++ rest := by
            rw [List.filter_append, List.filter_cons, filter_other (fun hm => n3 _ hm _ List.mem_cons_self rfl), filter_other n2.1]
            simp
          rw [he, hf] at c3
          have hn' : ((kept ++ rest).map MemberInfo.name).Nodup := by
            rw [List.map_append, List.nodup_append]
            exact ⟨n1, n2.2, fun x hx y hy => n3 x hx y (List.mem_cons_of_mem _ hy)⟩
          cases rest with
          | nil =>
            cases hr with
            | done h => exact ⟨c1, c3⟩
            | next h hb hr =>
              rw [c3, List.append_nil, List.getElem?_eq_none (by omega)] at h
              cases h
          | cons b rest =>
            have := ih rest (kept ++ [b]) (i + 1) _ (by simp at hl; omega) c2 c1 (by rw [c3]; simp) (by simp [hi]) (by rw [c3]; exact hn') hr
            simpa [everySecond] using this
  obtain ⟨h1, h2⟩ := key (w.list k).length (w.list k) [] 0 w (Nat.le_refl _) hp hk rfl rfl hn h
  rw [memberBags_fst]
  simp only [membersView, LiveBag.here, h1, Option.map_some, h2]
  rfl

/-- C123: the loop does come to its end, if the lookups can be read and have no empty path. -/
theorem C123_loop_ends {w : LiveBag} (hp : w.Proper) {k : Nat} (hk : w.cur = some k) {d : List (Str × Str)}
    (hd : lookupView w.here = .ok d) (hn : (dkeys d).Nodup) (hne : ∀ p ∈ dkeys d, p ≠ []) :
    ∃ w', ForIn k (fun m w => w.removeMemberBag m.name) 0 w w' := by
  have key : ∀ (n i : Nat) (w : LiveBag) (d : List (Str × Str)), (w.list k).length - i ≤ n → w.Proper → w.cur = some k →
      lookupView w.here = .ok d → (dkeys d).Nodup → (∀ p ∈ dkeys d, p ≠ []) →
      ∃ w', ForIn k (fun m w => w.removeMemberBag m.name) i w w' := by
    intro n
    induction n with
    | zero => intro i w d hl _ _ _ _ _; exact ⟨w, .done (by omega)⟩
    | succ n ih =>
      intro i w d hl hp hk hd hn hne
      by_cases hi : i < (w.list k).length
      · obtain ⟨r1, r2, _⟩ := removeMemberBag_spec w.here ((w.list k)[i]).name d hd hn hne
        obtain ⟨h1, h2, h3⟩ := removeMember_here hp ((w.list k)[i]).name
        rcases hr : w.removeMemberBag ((w.list k)[i]).name with ⟨r, w1⟩
        rw [hr] at h1 h2 h3
        have hok : r = .ok () := h1.trans r1
        subst hok
        obtain ⟨c1, c2, c3⟩ := removed_list hp hk hr
        have hsub : ((d.filter (fun p => decide (p.2 ≠ ((w.list k)[i]).name))).map Prod.fst).Sublist (d.map Prod.fst) :=
          List.Sublist.map _ List.filter_sublist
        obtain ⟨w', hw'⟩ := ih (i + 1) w1 (d.filter (fun p => decide (p.2 ≠ ((w.list k)[i]).name)))
          (by
            have := List.length_filter_le (fun m : MemberInfo => decide (m.name ≠ ((w.list k)[i]).name)) (w.list k)
            rw [c3]
            omega) c2 c1 (by rw [h2]; exact r2) (hn.sublist hsub)
          (fun p hpp => hne p (hsub.subset hpp))
        exact ⟨w', .next (List.getElem?_eq_getElem hi) hr hw'⟩
      · exact ⟨w, .done (by omega)⟩
  exact key _ 0 w d (Nat.le_refl _) hp hk hd hn hne

/-- C123: a loop over a list that is not the object's own removes all the bags in that list. -/
theorem C123_loop_other {w w' : LiveBag} (hp : w.Proper) {k j : Nat} (hk : w.cur = some k) (hj : j < w.lists.length) (hjk : j ≠ k)
    (h : ForIn j (fun m w => w.removeMemberBag m.name) 0 w w') :
    ((w'.here).memberBags).1 = .ok ((w.list k).filter (fun m => decide (m.name ∉ (w.list j).map MemberInfo.name))) ∧ w'.list j = w.list j := by
  have key : ∀ (i : Nat) (w w' : LiveBag), ForIn j (fun m w => w.removeMemberBag m.name) i w w' → w.Proper → w.cur = some k →
      j < w.lists.length → w'.cur = some k ∧ w'.list j = w.list j ∧
      w'.list k = (w.list k).filter (fun m => decide (m.name ∉ ((w.list j).drop i).map MemberInfo.name)) := by
    intro i w w' h
    induction h with
    | done h =>
      intro _ hk _
      refine ⟨hk, rfl, ?_⟩
      rw [List.drop_eq_nil_of_le h, List.filter_eq_self.2 (by simp)]
    | next h hb hr ih =>
      rename_i i w w1 w2 m
      intro hp hk hj
      obtain ⟨c1, c2, c3⟩ := removed_list hp hk hb
      have hm := moved_remove w m.name
      rw [hb] at hm
      have hj' := (hm.others j hj (fun e => hjk (Option.some.inj (e.symm.trans hk)))).1
      obtain ⟨d1, d2, d3⟩ := ih c2 c1 (Nat.lt_of_lt_of_le hj hm.longer)
      refine ⟨d1, d2.trans hj', ?_⟩
      rw [d3, c3, hj', List.filter_filter]
      obtain ⟨hi, he⟩ := List.getElem?_eq_some_iff.1 h
      rw [List.drop_eq_getElem_cons hi, he]
      refine List.filter_congr (fun x _ => ?_)
      simp only [List.map_cons, List.mem_cons, not_or, Bool.decide_and]
      rw [Bool.and_comm]
  obtain ⟨h1, h2, h3⟩ := key 0 w w' h hp hk hj
  refine ⟨?_, h2⟩
  rw [memberBags_fst]
  simp only [membersView, LiveBag.here, h1, Option.map_some, h3, List.drop_zero]

/-- C123: that a loop over the list ends is false: `for m in head.member_bags(): head.add_member_bag(…, override=False)` does
not, unless there are no bags. -/
theorem C123_negation_ends {w : LiveBag} (hp : w.Proper) {k : Nat} (hk : w.cur = some k) (hne : w.list k ≠ []) (g : MemberInfo → MemberInfo) :
    ¬∃ w', ForIn k (fun m w => w.addMemberBag (g m) false) 0 w w' := by
  rintro ⟨w', h⟩
  have key : ∀ (i : Nat) (w w' : LiveBag), ForIn k (fun m w => w.addMemberBag (g m) false) i w w' → w.Proper → w.cur = some k →
      i < (w.list k).length → False := by
    intro i w w' h
    induction h with
    | done h => intro _ _ hi; omega
    | next h hb hr ih =>
      rename_i i w w1 w2 m
      intro hp hk hi
      have e : w.addMemberBag (g m) false = (.ok (), w.put k (w.list k ++ [g m])) := by
        unfold LiveBag.addMemberBag
        rw [ensure_cur hk]
        simp [hk]
      have hw1 : w1 = w.put k (w.list k ++ [g m]) := by
        have := hb.symm.trans e
        injection this
      subst hw1
      refine ih (proper_put hp _ _) hk ?_
      rw [list_set, if_pos ⟨rfl, hp k hk⟩]
      simp
      omega
  exact key 0 w w' h hp hk (List.length_pos_iff.2 hne)

/-! ## What is false of it -/

namespace Sample

/-- The sample bag, with its member list returned. -/
def asked : LiveBag := (LiveBag.start tree info).acts [.call .memberBags]

theorem asked_proper : asked.Proper := proper_acts _ (proper_start _ _)

theorem asked_cur : asked.cur = some 0 := by decide +kernel

theorem asked_list : asked.list 0 = [⟨py!"b1", some py!"ark:/1", none, []⟩, ⟨py!"b2", none, none, []⟩] := by decide +kernel

theorem asked_lookup : lookupView asked.here = .ok [(py!"data/x", py!"b2"), (py!"data/y", py!"b2")] := by decide +kernel

end Sample

/-- C123: that `member_bags()` returns a list of the caller's own is false: the caller empties the list, saves, and the bags are
gone; all calls return normally. -/
theorem C123_negation_own : ∃ (tree : Tree) (info : Info) (k : Nat), Opened tree info ∧
    (((LiveBag.start tree info).memberBags false).1 = .ok k) ∧
    ((((LiveBag.start tree info).acts [.call .memberBags, .edit k (fun _ => [])]).call .saveMembers).1 = .ok ()) ∧
    ((HeadBag.open tree info).memberBags).1 ≠ .ok [] ∧
    ((HeadBag.open ((LiveBag.start tree info).acts [.call .memberBags, .edit k (fun _ => []), .call .saveMembers]).base.tree info).memberBags).1 = .ok [] :=
  ⟨Sample.tree, Sample.info, 0, Sample.opened, by decide +kernel, by decide +kernel, by decide +kernel, by decide +kernel⟩

/-- C123: that the loop removes all bags is false. -/
theorem C123_negation_remove_all : ∃ (tree : Tree) (info : Info) (k : Nat) (w' : LiveBag), Opened tree info ∧
    (((LiveBag.start tree info).memberBags false).1 = .ok k) ∧
    ForIn k (fun m w => w.removeMemberBag m.name) 0 ((LiveBag.start tree info).memberBags false).2 w' ∧
    ((w'.here).memberBags).1 = .ok [⟨py!"b2", none, none, []⟩] := by
  obtain ⟨w', hw'⟩ := C123_loop_ends Sample.asked_proper Sample.asked_cur Sample.asked_lookup (by decide) (by decide)
  refine ⟨Sample.tree, Sample.info, 0, w', Sample.opened, by decide +kernel, hw', ?_⟩
  rw [C123_loop Sample.asked_proper Sample.asked_cur (by rw [Sample.asked_list]; decide) hw', Sample.asked_list]
  rfl

/-! ## Examples -/

/-- `C123_values`, `C123_outcomes`: the history with every kind of call. -/
example : ((LiveBag.start Sample.tree Sample.info).acts (Sample.ops.map .call)).here = runAll Sample.ops (HeadBag.open Sample.tree Sample.info) ∧
    (((LiveBag.start Sample.tree Sample.info).acts (Sample.ops.map .call)).call .saveMembers).1 = .ok () :=
  ⟨C123_values _ _ _, (C123_outcomes _ _ _ _).trans (by decide +kernel)⟩

/-- `C123_returned`: the list after an edit. -/
example : (((LiveBag.start Sample.tree Sample.info).acts [.call .memberBags, .edit 0 List.reverse]).here.memberBags false).1 =
    .ok [⟨py!"b2", none, none, []⟩, ⟨py!"b1", some py!"ark:/1", none, []⟩] :=
  (C123_returned Sample.tree Sample.info [.call .memberBags, .edit 0 List.reverse] false 0 (by decide +kernel)).trans (by decide +kernel)

/-- `C123_same_list`: the list shows the bag that is added after it was returned. -/
example : (((Sample.asked.acts [.call (.addMember ⟨py!"b3", none, none, []⟩ true)]).here).memberBags).1 =
    .ok ((Sample.asked.acts [.call (.addMember ⟨py!"b3", none, none, []⟩ true)]).list 0) ∧
    ((Sample.asked.acts [.call (.addMember ⟨py!"b3", none, none, []⟩ true)]).list 0).length = 3 :=
  ⟨(C123_same_list Sample.tree Sample.info [.call .memberBags] [.call (.addMember ⟨py!"b3", none, none, []⟩ true)] 0 Sample.asked_cur
    (fun a ha op he => by
      rw [List.mem_singleton] at ha
      rw [ha] at he
      injection he with he
      rw [← he]
      rfl)).2, by decide +kernel⟩

/-- `C123_edit`: the list is reversed. -/
example : (((Sample.asked.act (.edit 0 List.reverse)).here).memberBags).1 = .ok [⟨py!"b2", none, none, []⟩, ⟨py!"b1", some py!"ark:/1", none, []⟩] := by
  rw [C123_edit _ Sample.asked_proper 0 Sample.asked_cur, Sample.asked_list]
  rfl

/-- `C123_lets_go`, `C123_let_go`, `C123_let_go_object`: the list is read again; what is done to the first list then is of no
consequence. -/
example : ((Sample.asked.acts [.call .reloadMembers]).acts [.edit 0 (fun _ => []), .call (.addMember ⟨py!"b3", none, none, []⟩ true)]).list 0 = [] ∧
    (((((Sample.asked.acts [.call .reloadMembers]).acts [.edit 0 (fun _ => []), .call (.addMember ⟨py!"b3", none, none, []⟩ true)]).here).memberBags).1).map
      List.length = .ok 3 := by
  have hc : (Sample.asked.acts [.call .reloadMembers]).cur ≠ some 0 :=
    (C123_lets_go Sample.asked Sample.asked_proper 0 Sample.asked_cur).2.2
      ⟨[⟨py!"b1", some py!"ark:/1", none, []⟩, ⟨py!"b2", none, none, []⟩], by decide +kernel⟩
  refine ⟨(C123_let_go _ 0 (by decide +kernel) hc _).trans rfl, ?_⟩
  rw [C123_let_go_object _ 0 (by decide +kernel) hc]
  decide +kernel

/-- `C123_loop`, `C123_loop_ends`: of the two bags of the sample, the second is left. -/
example : ∃ w', ForIn 0 (fun m w => w.removeMemberBag m.name) 0 Sample.asked w' ∧ ((w'.here).memberBags).1 = .ok [⟨py!"b2", none, none, []⟩] := by
  obtain ⟨w', hw'⟩ := C123_loop_ends Sample.asked_proper Sample.asked_cur Sample.asked_lookup (by decide) (by decide)
  refine ⟨w', hw', ?_⟩
  rw [C123_loop Sample.asked_proper Sample.asked_cur (by rw [Sample.asked_list]; decide) hw', Sample.asked_list]
  rfl

/-- `C123_loop_other`: the list was read again, and the loop is over the first list; no bag is left. -/
example : ∃ w', ForIn 0 (fun m w => w.removeMemberBag m.name) 0 (Sample.asked.acts [.call .reloadMembers]) w' ∧
    ((w'.here).memberBags).1 = .ok [] := by
  have hc : (Sample.asked.acts [.call .reloadMembers]).cur = some 1 := by decide +kernel
  have e0 : (Sample.asked.acts [.call .reloadMembers]).list 0 = [⟨py!"b1", some py!"ark:/1", none, []⟩, ⟨py!"b2", none, none, []⟩] := by decide +kernel
  have e1 : (Sample.asked.acts [.call .reloadMembers]).list 1 = [⟨py!"b1", some py!"ark:/1", none, []⟩, ⟨py!"b2", none, none, []⟩] := by decide +kernel
  have h : ForIn 0 (fun m w => w.removeMemberBag m.name) 0 (Sample.asked.acts [.call .reloadMembers])
      (((Sample.asked.acts [.call .reloadMembers]).removeMemberBag py!"b1").2.removeMemberBag py!"b2").2 := by
    refine .next (m := ⟨py!"b1", some py!"ark:/1", none, []⟩) (w' := ((Sample.asked.acts [.call .reloadMembers]).removeMemberBag py!"b1").2)
      (by rw [e0]; rfl) (Prod.ext (by show _ = Except.ok (); decide +kernel) rfl) ?_
    refine .next (m := ⟨py!"b2", none, none, []⟩) (w' := (((Sample.asked.acts [.call .reloadMembers]).removeMemberBag py!"b1").2.removeMemberBag py!"b2").2)
      (by decide +kernel) (Prod.ext (by show _ = Except.ok (); decide +kernel) rfl) ?_
    exact .done (by decide +kernel)
  refine ⟨_, h, ?_⟩
  rw [(C123_loop_other (proper_acts _ Sample.asked_proper) hc (by decide +kernel) (by decide) h).1, e0, e1]
  rfl

/-- `C123_negation_ends`: adding a copy of each of the two bags. -/
example : ¬∃ w', ForIn 0 (fun m w => w.addMemberBag { m with comment := some py!"copy" } false) 0 Sample.asked w' :=
  C123_negation_ends Sample.asked_proper Sample.asked_cur (by rw [Sample.asked_list]; simp) (fun m => { m with comment := some py!"copy" })

end Verif
