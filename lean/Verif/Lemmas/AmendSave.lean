import Verif.Lemmas.Amend
/-!
# Lemmas about amending: the effect of the calls and of saving
-/

namespace Verif

open Spec

/-! ## Saving the metadata -/

theorem saveInfo_ok {E : SaveEnv} {s s' : HeadBag} (h : s.saveInfo E = (.ok (), s')) :
    ∃ t, s' = { s with tree := t } ∧
      t.read [py!"bag-info.txt"] = some (fieldsText (tagFields s.info)) ∧
      (∀ p, p ≠ [py!"bag-info.txt"] → (∀ a ∈ E.algs, p ≠ manPath py!"tagmanifest" a) → dget t p = dget s.tree p) ∧
      ((∀ a ∈ E.algs, '/' ∉ a) → WfTree s.tree → WfTree t) := by
  unfold HeadBag.saveInfo at h
  cases hw : s.tree.write [py!"bag-info.txt"] (fieldsText (tagFields s.info)) with
  | error e => rw [hw] at h; simp only at h; injection h with h; cases h
  | ok t1 =>
    rw [hw] at h
    simp only at h
    cases hm : writeTagManifests E.sum E.algs t1 with
    | error e => rw [hm] at h; simp only at h; injection h with h; cases h
    | ok t =>
      rw [hm] at h
      simp only at h
      injection h with _ h
      obtain ⟨rfl, _⟩ := Tree.write_ok hw
      obtain ⟨h1, h2⟩ := writeTagManifests_ok hm
      refine ⟨t, h.symm, ?_, ?_, ?_⟩
      · rw [read_eq, h1 _ (fun a _ e => ?_), dget_dset, if_pos rfl]
        unfold manPath at e
        have e' := List.cons.inj e
        exact absurd e'.1 (by simp)
      · intro p hp ha
        rw [h1 p ha, dget_dset, if_neg (fun e => hp e.symm)]
      · intro ha hwf
        exact h2 ha (wf_write hwf (by
          refine ⟨by simp, ?_⟩
          intro c hc
          simp only [List.mem_singleton] at hc
          subst hc
          exact Sample.goodName_of_check (by decide)) hw)

theorem updateInfo_ok {E : SaveEnv} {s s' : HeadBag} {version : Option Str} {pv : Str}
    (h : s.updateInfo E version pv = (.ok (), s')) :
    (∃ t0, s'.info = updateInfo (fun _ => E.size t0) version pv s.info) ∧
    s'.tree.read [py!"bag-info.txt"] = some (fieldsText (tagFields s'.info)) ∧
    (∀ p, p ≠ [py!"bag-info.txt"] → (∀ a ∈ E.algs, p ≠ manPath py!"tagmanifest" a) →
      dget s'.tree p = dget s.tree p) ∧
    ((∀ a ∈ E.algs, '/' ∉ a) → WfTree s.tree → WfTree s'.tree) ∧
    s'.members = s.members ∧ s'.lookup = s.lookup ∧ s'.deleted = s.deleted := by
  unfold HeadBag.updateInfo at h
  cases h1 : ({ s with info := headInfo version pv s.info } : HeadBag).saveInfo E with
  | mk r s1 =>
    rw [h1] at h
    cases r with
    | error e => simp only at h; injection h with h; cases h
    | ok u =>
      simp only at h
      obtain ⟨t1, rfl, _, f1, w1⟩ := saveInfo_ok h1
      obtain ⟨t2, rfl, r2, f2, w2⟩ := saveInfo_ok h
      refine ⟨⟨_, rfl⟩, r2, ?_, fun ha hw => w2 ha (w1 ha hw), rfl, rfl, rfl⟩
      intro p hp ha
      exact (f2 p hp ha).trans (f1 p hp ha)

/-! ## The metadata of the new head bag -/

theorem initInfo_dget (keep : Bool) (old new : Info) {k : Str} (h1 : k ≠ py!"Multibag-Version")
    (h2 : k ≠ py!"Multibag-Head-Deprecates") : dget (initInfo keep old new) k = dget new k := by
  unfold initInfo
  simp only [dget_dset]
  rw [if_neg (fun e => h2 e.symm), if_neg (fun e => h1 e.symm)]

theorem tagDir_congr {i j : Info} (h : dget i py!"Multibag-Tag-Directory" = dget j py!"Multibag-Tag-Directory") :
    tagDir i = tagDir j := by unfold tagDir; rw [h]

theorem tagDir_initInfo (keep : Bool) (old new : Info) : tagDir (initInfo keep old new) = tagDir new :=
  tagDir_congr (initInfo_dget keep old new (by decide) (by decide))

theorem profileVersion_initInfo (keep : Bool) (old new : Info) :
    profileVersion (initInfo keep old new) = if keep then profileVersion old else CURRENT_VERSION := by
  have h : dget (initInfo keep old new) py!"Multibag-Version" = some (newProfile keep old) := by
    unfold initInfo
    simp only [dget_dset]
    rw [if_neg (by decide), if_pos trivial]
  unfold profileVersion infoItem
  rw [h]
  unfold newProfile
  cases keep with
  | false => rfl
  | true =>
    simp only [if_true]
    cases hd : dget old py!"Multibag-Version" with
    | none => rfl
    | some v => cases v <;> rfl

theorem infoOk_initInfo {keep : Bool} {old new : Info}
    (ht : ∀ l, dget new py!"Multibag-Tag-Directory" ≠ some (.many l))
    (hv : keep = true → verLt (profileVersion old) py!"0.3" = false) : InfoOk (initInfo keep old new) := by
  refine infoOk_of_tag ?_ ?_
  · rw [initInfo_dget keep old new (by decide) (by decide)]; exact ht
  · rw [profileVersion_initInfo]
    cases keep with
    | false => show verLt CURRENT_VERSION py!"0.3" = false; decide
    | true => exact hv rfl

theorem inv_cleared {keep : Bool} {old : Info} {tree t : Tree} {info : Info} (o : Opened tree info)
    (hv : keep = true → verLt (profileVersion old) py!"0.3" = false)
    (hc : Cleared tree (initInfo keep old info) t) : Inv (HeadBag.open t (initInfo keep old info)) := by
  have hi := infoOk_initInfo (keep := keep) (old := old) o.tag hv
  have hi0 := infoOk_of_tag o.tag o.ver
  have h0 := inv_open o
  have ht := tagDir_initInfo keep old info
  refine ⟨hi, ⟨[], ?_⟩, ?_, ?_⟩
  · simp [membersView, HeadBag.open, iterMembers_03 hi, hc.gone]
  · obtain ⟨d, hd, hok⟩ := h0.lookup
    refine ⟨d, ?_, hok⟩
    rw [← hd]
    simp only [lookupView, HeadBag.open, iterLookup_03 hi, iterLookup_03 hi0, read_eq]
    rw [hc.frame _ (tagFile_inj comps_lookup comps_members (by decide)) (tagFile_ne_dir _ _ comps_lookup rfl), ht]
  · obtain ⟨ps, hd, hok⟩ := h0.deleted
    refine ⟨ps, ?_, hok⟩
    rw [← hd]
    simp only [deletedView, HeadBag.open, iterDeleted, deletedFile]
    rw [hc.frame _ (tagFile_inj comps_deleted comps_members (by decide)) (tagFile_ne_dir _ _ comps_deleted rfl), ht]

/-! ## Members -/

theorem run_members {ops : List Op} {s s' : HeadBag} (hi : Inv s) (h : runOk ops s = some s')
    (hr : Op.reloadMembers ∉ ops) (hr2 : ∀ b, Op.removeMember b ∉ ops) {ms : List MemberInfo}
    (hm : membersView s = .ok ms) : membersView s' = .ok (ops.foldl membersEffect ms) := by
  induction ops generalizing s ms with
  | nil => simp [runOk] at h; subst h; exact hm
  | cons op ops ih =>
    obtain ⟨s1, h1, h2⟩ := runOk_cons h
    obtain ⟨ms0, e0, e1, _⟩ := step_members hi h1 (fun e => hr (by simp [e]))
      (.inl (fun b e => hr2 b (by simp [e])))
    rw [hm] at e0; injection e0 with e0; subst e0
    exact ih (step_inv hi h1) h2 (fun hp => hr (by simp [hp])) (fun b hp => hr2 b (by simp [hp])) e1

/-- Adding a record after dropping those of the same bag. -/
def addOnce (ms : List MemberInfo) (m : MemberInfo) : List MemberInfo :=
  ms.filter (fun x => x.name ≠ m.name) ++ [m]

theorem foldl_memberOps (l acc : List MemberInfo) :
    (memberOps l).foldl membersEffect acc = l.foldl addOnce acc := by
  unfold memberOps
  rw [List.foldl_map]
  rfl

theorem foldl_lookupOps_members (es : List (Str × Str)) (acc : List MemberInfo) :
    (lookupOps es).foldl membersEffect acc = acc := by
  induction es generalizing acc with
  | nil => rfl
  | cons e es ih => exact ih acc

theorem foldl_bagOps_members (cs : List (MemberInfo × List Str)) (acc : List MemberInfo) :
    (cs.flatMap bagOps).foldl membersEffect acc = (cs.map Prod.fst).foldl addOnce acc := by
  induction cs generalizing acc with
  | nil => rfl
  | cons c cs ih =>
    rw [List.flatMap_cons, List.foldl_append, ih]
    simp only [bagOps, List.foldl_cons, List.map_cons]
    rw [foldl_lookupOps_members]
    rfl

theorem foldl_amendOps_members (oms : List MemberInfo) (oes : List (Str × Str))
    (cs : List (MemberInfo × List Str)) (acc : List MemberInfo) :
    (amendOps oms oes cs).foldl membersEffect acc = (oms ++ cs.map Prod.fst).foldl addOnce acc := by
  unfold amendOps
  rw [List.foldl_append, List.foldl_append, List.foldl_cons, foldl_lookupOps_members, foldl_bagOps_members,
    foldl_memberOps, List.foldl_append]
  rfl

/-- Filtering out names and then adding. -/
theorem foldl_addOnce (l acc : List MemberInfo) :
    l.foldl addOnce acc = acc.filter (fun x => x.name ∉ l.map (·.name)) ++ keepLast l := by
  induction l generalizing acc with
  | nil =>
    simp only [List.foldl_nil, List.map_nil, keepLast, List.append_nil]
    rw [List.filter_eq_self.2 (by simp)]
  | cons m l ih =>
    rw [List.foldl_cons, ih]
    unfold addOnce
    rw [List.filter_append, List.filter_filter, keepLast]
    have hf : (fun x : MemberInfo => decide (x.name ∉ List.map (·.name) (m :: l))) =
        fun x => (decide (x.name ∉ l.map (·.name)) && decide (x.name ≠ m.name)) := by
      funext x
      simp only [List.map_cons, List.mem_cons, not_or, Bool.decide_and]
      rw [Bool.and_comm]
    rw [hf]
    by_cases hm : m.name ∈ l.map (·.name)
    · rw [if_pos hm, List.filter_cons, if_neg (by simpa using hm), List.filter_nil, List.append_nil]
    · rw [if_neg hm, List.filter_cons, if_pos (by simpa using hm), List.filter_nil, List.append_assoc]
      rfl

theorem foldl_addOnce_nil (l : List MemberInfo) : l.foldl addOnce [] = keepLast l := by
  rw [foldl_addOnce]; rfl

theorem mem_keepLast {l : List MemberInfo} {m : MemberInfo} (h : m ∈ keepLast l) : m ∈ l := by
  induction l with
  | nil => exact h
  | cons x l ih =>
    unfold keepLast at h
    split at h
    · exact List.mem_cons_of_mem _ (ih h)
    · rcases List.mem_cons.1 h with rfl | h
      · exact List.mem_cons_self
      · exact List.mem_cons_of_mem _ (ih h)

/-! ## Lookups -/

theorem foldl_lookupOps (es : List (Str × Str)) (f : Str → Option Str) (q : Str) :
    (lookupOps es).foldl lookupEffect f q = (lastFor es q).or (f q) := by
  induction es generalizing f with
  | nil => rfl
  | cons e es ih =>
    have : (lookupOps (e :: es)).foldl lookupEffect f q =
        (lookupOps es).foldl lookupEffect (lookupEffect f (.addLookup e.1 e.2)) q := rfl
    rw [this, ih]
    unfold lastFor
    rw [List.reverse_cons, List.find?_append]
    cases hf : es.reverse.find? (fun e => e.1 = q) with
    | some x => rfl
    | none =>
      simp only [Option.map_none, Option.none_or, lookupEffect]
      by_cases hq : q = e.1
      · subst hq; simp
      · rw [if_neg hq, List.find?_cons_of_neg (by simpa using fun e => hq e.symm)]; rfl

theorem lastFor_map (fs : List Str) (n q : Str) :
    lastFor (fs.map (fun f => (f, n))) q = if q ∈ fs then some n else none := by
  unfold lastFor
  cases hf : (fs.map (fun f => (f, n))).reverse.find? (fun e => e.1 = q) with
  | none =>
    rw [if_neg]
    · rfl
    · intro hq
      have := List.find?_eq_none.1 hf (q, n) (by simp [hq])
      simp at this
  | some x =>
    have h1 := List.find?_some hf
    have h2 := List.mem_of_find?_eq_some hf
    simp only [List.mem_reverse, List.mem_map] at h2
    obtain ⟨f, hf1, rfl⟩ := h2
    simp only [decide_eq_true_eq] at h1
    subst h1
    rw [if_pos hf1]; rfl

/-- The effect of adding a bag with files on the lookups. -/
def bagLookup (c : MemberInfo × List Str) (r : Option Str) (q : Str) : Option Str :=
  if q ∈ c.2 then some c.1.name else if r = some c.1.name then none else r

theorem foldl_bagOps_lookup (cs : List (MemberInfo × List Str)) (f : Str → Option Str) (q : Str) :
    (cs.flatMap bagOps).foldl lookupEffect f q = cs.foldl (fun r c => bagLookup c r q) (f q) := by
  induction cs generalizing f with
  | nil => rfl
  | cons c cs ih =>
    rw [List.flatMap_cons, List.foldl_append, ih, List.foldl_cons]
    congr 1
    have : (bagOps c).foldl lookupEffect f q =
        (lookupOps (c.2.map (fun f => (f, c.1.name)))).foldl lookupEffect (lookupEffect f (.addMember c.1 true)) q := rfl
    rw [this, foldl_lookupOps, lastFor_map]
    unfold bagLookup lookupEffect
    by_cases hq : q ∈ c.2
    · simp [hq]
    · simp [hq]

theorem foldl_amendOps_lookup (oms : List MemberInfo) (oes : List (Str × Str))
    (cs : List (MemberInfo × List Str)) (f : Str → Option Str) (q : Str) :
    (amendOps oms oes cs).foldl lookupEffect f q = cs.foldl (fun r c => bagLookup c r q) (lastFor oes q) := by
  unfold amendOps
  rw [List.foldl_append, foldl_bagOps_lookup, List.foldl_append, List.foldl_cons, foldl_lookupOps]
  congr 1
  simp [lookupEffect]

/-- Bags that do not have the file and are not the one on record change nothing. -/
theorem foldl_bagLookup_keep (cs : List (MemberInfo × List Str)) (r : Option Str) (q : Str)
    (h : ∀ c ∈ cs, q ∉ c.2) :
    cs.foldl (fun r c => bagLookup c r q) r =
      match r with
      | none => none
      | some n => if n ∈ cs.map (·.1.name) then none else some n := by
  induction cs generalizing r with
  | nil => cases r <;> simp
  | cons c cs ih =>
    rw [List.foldl_cons, ih _ (fun c' hc => h c' (List.mem_cons_of_mem _ hc))]
    unfold bagLookup
    rw [if_neg (h c List.mem_cons_self)]
    cases r with
    | none => simp
    | some n =>
      by_cases hn : n = c.1.name
      · subst hn; simp
      · rw [if_neg (fun e => hn (Option.some.inj e))]
        show (if n ∈ cs.map (·.1.name) then none else some n) = if n ∈ (c :: cs).map (·.1.name) then none else some n
        by_cases hm : n ∈ cs.map (·.1.name)
        · rw [if_pos hm, if_pos (by rw [List.map_cons]; exact List.mem_cons_of_mem _ hm)]
        · rw [if_neg hm, if_neg]
          rw [List.map_cons, List.mem_cons]
          exact fun e => e.elim hn hm

/-! ## The whole amendment -/

theorem dget_addAbout {info : Info} {k : Str} (h : k ≠ py!"Internal-Sender-Description") :
    dget (addAbout info) k = dget info k := by
  unfold addAbout
  split
  · rw [dget_dset, if_neg (fun e => h e.symm)]
  · simp only; rw [dget_dset, if_neg (fun e => h e.symm)]

theorem dget_updateInfo_tag (z : (Str → List Str) → Str) (version : Option Str) (pv : Str) (info : Info) :
    dget (updateInfo z version pv info) py!"Multibag-Tag-Directory" =
      some ((dget info py!"Multibag-Tag-Directory").getD (.one py!"multibag")) := by
  unfold updateInfo headInfo
  simp only
  rw [dget_dset, if_neg (by decide), dget_ddel, if_neg (by decide), dget_ddel, if_neg (by decide),
    dget_addAbout (by decide), dget_dset, if_neg (by decide), dget_dsetDefault, if_neg (by
      intro hc; exact absurd hc.1 (by decide)), dget_dsetDefault]
  have hd : ∀ i0 : Info, dget i0 py!"Multibag-Tag-Directory" = dget info py!"Multibag-Tag-Directory" →
      (if py!"Multibag-Tag-Directory" = py!"Multibag-Tag-Directory" ∧ dget i0 py!"Multibag-Tag-Directory" = none
        then some (InfoVal.one py!"multibag") else dget i0 py!"Multibag-Tag-Directory") =
      some ((dget info py!"Multibag-Tag-Directory").getD (.one py!"multibag")) := by
    intro i0 h0
    rw [h0]
    cases hg : dget info py!"Multibag-Tag-Directory" with
    | none => simp
    | some v => simp
  cases version with
  | none => exact hd (dset info py!"Multibag-Version" (.one pv)) (by rw [dget_dset, if_neg (by decide)])
  | some v =>
    refine hd (dset (if v = [] then info else dset info py!"Multibag-Head-Version" (.one v))
      py!"Multibag-Version" (.one pv)) ?_
    rw [dget_dset, if_neg (by decide)]
    by_cases hv : v = []
    · rw [if_pos hv]
    · rw [if_neg hv, dget_dset, if_neg (by decide)]

theorem dget_updateInfo_version (z : (Str → List Str) → Str) (version : Option Str) (pv : Str) (info : Info) :
    dget (updateInfo z version pv info) py!"Multibag-Version" = some (.one pv) := by
  unfold updateInfo headInfo
  simp only
  rw [dget_dset, if_neg (by decide), dget_ddel, if_neg (by decide), dget_ddel, if_neg (by decide),
    dget_addAbout (by decide), dget_dset, if_neg (by decide), dget_dsetDefault, if_neg (by
      intro hc; exact absurd hc.1 (by decide)), dget_dsetDefault, if_neg (by
      intro hc; exact absurd hc.1 (by decide)), dget_dset, if_pos rfl]

theorem tagDir_updateInfo (z : (Str → List Str) → Str) (version : Option Str) (pv : Str) (info : Info) :
    tagDir (updateInfo z version pv info) = tagDir info := by
  unfold tagDir
  rw [dget_updateInfo_tag]
  cases dget info py!"Multibag-Tag-Directory" <;> rfl

theorem infoOk_updateInfo {z : (Str → List Str) → Str} {version : Option Str} {pv : Str} {info : Info}
    (h : InfoOk info) (hv : verLt pv py!"0.3" = false) : InfoOk (updateInfo z version pv info) := by
  refine ⟨?_, ?_⟩
  · have := h.tag
    unfold readerTagDir at this ⊢
    rw [tagDir_updateInfo, dget_updateInfo_tag]
    cases hg : dget info py!"Multibag-Tag-Directory" with
    | none => rw [hg] at this; exact this
    | some v => rw [hg] at this; exact this
  · unfold profileVersion infoItem
    rw [dget_updateInfo_version]
    exact hv

theorem run_keeps_members {ops : List Op} {s s' : HeadBag} (hi : Inv s) (h : runOk ops s = some s')
    (hr : Op.reloadMembers ∉ ops) (hm : s.members ≠ none) : s'.members ≠ none := by
  induction ops generalizing s with
  | nil => simp [runOk] at h; subst h; exact hm
  | cons op ops ih =>
    obtain ⟨s1, h1, h2⟩ := runOk_cons h
    obtain ⟨_, _, _, e1⟩ := step_members hi h1 (fun e => hr (by simp [e])) (.inr hm)
    exact ih (step_inv hi h1) h2 (fun hp => hr (by simp [hp])) (e1 hm)

theorem run_sets_members {a b : List Op} {m : MemberInfo} {s s' : HeadBag} (hi : Inv s)
    (h : runOk (a ++ .addMember m true :: b) s = some s') (hr : Op.reloadMembers ∉ b) : s'.members ≠ none := by
  rw [runOk_append] at h
  cases ha : runOk a s with
  | none => rw [ha] at h; cases h
  | some s1 =>
    rw [ha] at h
    have h' : runOk (.addMember m true :: b) s1 = some s' := h
    obtain ⟨s2, h1, h2⟩ := runOk_cons h'
    have hi1 := run_inv hi ha
    obtain ⟨d, hd, ht⟩ := hi1.lookup
    obtain ⟨ms, hms⟩ := hi1.members
    have hs := (addMemberBag_spec s1 m true ms d hms hd ht.nodup ht.nonempty).2.1
    have h1' : s1.addMemberBag m true = (.ok (), s2) := h1
    rw [h1'] at hs
    exact run_keeps_members (step_inv hi1 h1) h2 hr (by simp only at hs; rw [hs]; simp)

theorem ops_amend {oms : List MemberInfo} {oes : List (Str × Str)} {cs : List (MemberInfo × List Str)} :
    ∀ op ∈ amendOps oms oes cs, (∃ m, op = .addMember m true) ∨ (∃ p b, op = .addLookup p b) ∨ op = .clearLookup := by
  intro op hop
  have hl : ∀ es : List (Str × Str), op ∈ lookupOps es → ∃ p b, op = .addLookup p b := by
    intro es h
    obtain ⟨e, _, rfl⟩ := List.mem_map.1 h
    exact ⟨_, _, rfl⟩
  unfold amendOps at hop
  rcases List.mem_append.1 hop with hop | hop
  · rcases List.mem_append.1 hop with hop | hop
    · obtain ⟨m, _, rfl⟩ := List.mem_map.1 hop
      exact .inl ⟨m, rfl⟩
    · rcases List.mem_cons.1 hop with rfl | hop
      · exact .inr (.inr rfl)
      · exact .inr (.inl (hl _ hop))
  · obtain ⟨c, _, hc⟩ := List.mem_flatMap.1 hop
    rcases List.mem_cons.1 hc with rfl | hc
    · exact .inl ⟨_, rfl⟩
    · exact .inr (.inl (hl _ hc))

/-- The files `update_info` writes are not below the tag directory's own files. -/
theorem tagFile_ne_info {dir n : Str} (hn : comps n = [n]) (h1 : n ≠ py!"bag-info.txt")
    (h2 : n.head? ≠ some 't') :
    tagFile dir n ≠ [py!"bag-info.txt"] ∧ ∀ a, tagFile dir n ≠ manPath py!"tagmanifest" a := by
  rw [tagFile_eq dir hn]
  constructor
  · intro e
    have := congrArg List.getLast? e
    simp at this
    exact h1 this
  · intro a e
    have := congrArg List.getLast? e
    simp [manPath] at this
    rw [this] at h2
    simp at h2

theorem wf_saveMembers {s s' : HeadBag} (h : s.saveMemberBags = (.ok (), s'))
    (hg : GoodPath (comps (tagDir s.info))) (hw : WfTree s.tree) : WfTree s'.tree := by
  unfold HeadBag.saveMemberBags at h
  split at h
  · injection h with _ h; subst h; exact hw
  · split at h
    · injection h with h; cases h
    · rename_i s1 he
      have hw1 := wf_ensureTagdir he hg hw
      obtain ⟨t1, rfl, hfr, _⟩ := ensureTagdir_ok he
      split at h
      split at h
      · injection h with h; cases h
      · rename_i t ht
        injection h with _ h
        subst h
        refine wf_write hw1 ?_ ht
        rw [tagFile_eq _ comps_members]
        exact ⟨by simp, fun c hc => by
          rcases List.mem_append.1 hc with hc | hc
          · exact hg.2 c hc
          · rw [List.mem_singleton] at hc; subst hc; exact Sample.goodName_of_check (by decide)⟩

theorem wf_saveLookup {s s' : HeadBag} (h : s.saveFileLookup = (.ok (), s'))
    (hg : GoodPath (comps (tagDir s.info))) (hw : WfTree s.tree) : WfTree s'.tree := by
  unfold HeadBag.saveFileLookup at h
  split at h
  · injection h with _ h; subst h; exact hw
  · split at h
    · injection h with h; cases h
    · rename_i s1 he
      have hw1 := wf_ensureTagdir he hg hw
      obtain ⟨t1, rfl, hfr, _⟩ := ensureTagdir_ok he
      split at h
      · injection h with h; cases h
      · rename_i t ht
        injection h with _ h
        subst h
        refine wf_write hw1 ?_ ht
        rw [tagFile_eq _ comps_lookup]
        exact ⟨by simp, fun c hc => by
          rcases List.mem_append.1 hc with hc | hc
          · exact hg.2 c hc
          · rw [List.mem_singleton] at hc; subst hc; exact Sample.goodName_of_check (by decide)⟩

/-- What a successful amendment leaves behind. -/
structure Amended (E : SaveEnv) (keep : Bool) (old : Amendee) (me : NewHead) (version : Str)
    (bags : List Amending) (tree : Tree) (info : Info) (oms : List MemberInfo) (oes : List (Str × Str))
    (u : Tree) (s' : HeadBag) : Prop where
  oldMembers : old.members = .ok oms
  oldLookup : old.lookup = .ok oes
  uframe : ∀ p, p ≠ tagFile (tagDir info) py!"member-bags.tsv" → p ≠ tagFile (tagDir info) py!"file-lookup.tsv" →
    p ≠ comps (tagDir info) → dget u p = dget tree p
  uwf : GoodPath (comps (tagDir info)) → WfTree tree → WfTree u
  members : Writable (oms ++ bags.map record ++ [headRecord me]) →
    membersView (HeadBag.open s'.tree s'.info) = .ok (keepLast (oms ++ bags.map record ++ [headRecord me]))
  lookup : ∃ d, TableOk d ∧
    (∀ q, dget d q = (contributions bags me u).foldl (fun r c => bagLookup c r q) (lastFor oes q)) ∧
    ((∀ e ∈ d, Plain e.1 ∧ Plain e.2) → lookupView (HeadBag.open s'.tree s'.info) = .ok d) ∧
    (d = [] ∧ s'.tree.read (tagFile (tagDir info) py!"file-lookup.tsv") = none ∨
      s'.tree.read (tagFile (tagDir info) py!"file-lookup.tsv") = some (lookupText d))
  memberText : ∃ text, membersText (keepLast (oms ++ bags.map record ++ [headRecord me])) = .ok text ∧
    s'.tree.read (tagFile (tagDir info) py!"member-bags.tsv") = some text
  newInfo : ∃ t0, s'.info = updateInfo (fun _ => E.size t0) (some version)
    (if keep then profileVersion old.info else CURRENT_VERSION) (initInfo keep old.info info)
  infoOk : InfoOk s'.info
  saved : s'.tree.read [py!"bag-info.txt"] = some (fieldsText (tagFields s'.info))
  frame : ∀ p, p ≠ tagFile (tagDir info) py!"member-bags.tsv" → p ≠ tagFile (tagDir info) py!"file-lookup.tsv" →
    p ≠ comps (tagDir info) → p ≠ [py!"bag-info.txt"] → (∀ a, p ≠ manPath py!"tagmanifest" a) →
    dget s'.tree p = dget tree p
  last : ∃ s : HeadBag, s.updateInfo E (some version) (profileVersion s.info) = (.ok (), s') ∧
    s.info = initInfo keep old.info info ∧
    (GoodPath (comps (tagDir info)) → WfTree tree → WfTree s.tree) ∧
    ∀ p, p ≠ tagFile (tagDir info) py!"member-bags.tsv" → p ≠ tagFile (tagDir info) py!"file-lookup.tsv" →
      p ≠ comps (tagDir info) → dget s.tree p = dget tree p

theorem clearLookup_shape {s s' : HeadBag} (h : s.clearFileLookup = (.ok (), s')) :
    s'.lookup = none ∧ s'.tree.read (tagFile (tagDir s.info) py!"file-lookup.tsv") = none ∧
    (WfTree s.tree → WfTree s'.tree) := by
  unfold HeadBag.clearFileLookup at h
  simp only at h
  split at h
  · split at h
    · injection h with h; cases h
    · rename_i t ht
      injection h with _ h
      subst h
      have e := remove_ok ht
      refine ⟨rfl, ?_, fun hw => ?_⟩
      · simp only [read_eq, e, dget_ddel, if_pos]
      · simp only [e]
        refine wf_ddel hw ?_
        unfold Tree.remove at ht
        split at ht
        · rename_i hd; exact hd
        · cases ht
  · rename_i hex
    injection h with _ h
    subst h
    refine ⟨rfl, ?_, id⟩
    have : dget s.tree (tagFile (tagDir s.info) py!"file-lookup.tsv") = none := by
      cases hg : dget s.tree (tagFile (tagDir s.info) py!"file-lookup.tsv") with
      | none => rfl
      | some n => exact absurd ((exists_iff (by rw [tagFile_eq _ comps_lookup]; simp)).2 (by rw [hg]; simp)) hex
    rw [read_eq, this]

/-- After the lookup is cleared, there is no lookup file until it is saved. -/
theorem run_gone {a b : List Op} {s s' : HeadBag} (hi : Inv s) (h : runOk (a ++ .clearLookup :: b) s = some s')
    (ha : ∀ op ∈ a, writesDisk op = false) (hb : ∀ op ∈ b, writesDisk op = false) :
    s'.tree.read (tagFile (tagDir s.info) py!"file-lookup.tsv") = none := by
  rw [runOk_append] at h
  cases hq : runOk a s with
  | none => rw [hq] at h; cases h
  | some s1 =>
    rw [hq] at h
    obtain ⟨s2, h1, h2⟩ := runOk_cons (show runOk (.clearLookup :: b) s1 = some s' from h)
    have e1 := (run_frame hq hi.info hi (fun op hop => .inr (ha op hop))).1
    rw [run_tree h2 hb, ← e1]
    exact (clearLookup_shape h1).2.1

theorem amended {E : SaveEnv} {keep : Bool} {old : Amendee} {me : NewHead} {version : Str}
    {bags : List Amending} {tree : Tree} {info : Info} {s' : HeadBag} (o : Opened tree info)
    (hv : keep = true → verLt (profileVersion old.info) py!"0.3" = false)
    (h : amend E keep old me version bags (HeadBag.open tree info) = (.ok (), s')) :
    ∃ oms oes u, Amended E keep old me version bags tree info oms oes u s' := by
  have hi := infoOk_initInfo (keep := keep) (old := old.info) o.tag hv
  have ht := tagDir_initInfo keep old.info info
  obtain ⟨oms, oes, t, s1, s2, s3, ho, hl, hcl, hrun, hinfo, hfr, hwf, hsm, hsl, hup⟩ :=
    amend_run hi (fun t hc => inv_cleared o hv hc) h
  have hinv0 := inv_cleared o hv hcl
  have hinv := run_inv hinv0 hrun
  have hops := ops_amend (oms := oms) (oes := oes) (cs := contributions bags me s1.tree)
  have hno : ∀ op : Op, (∀ m, op ≠ .addMember m true) → (∀ p b, op ≠ .addLookup p b) → op ≠ .clearLookup →
      op ∉ amendOps oms oes (contributions bags me s1.tree) := by
    intro op a1 a2 a3 hop
    rcases hops op hop with ⟨m, e⟩ | ⟨p, b, e⟩ | e
    · exact a1 m e
    · exact a2 p b e
    · exact a3 e
  have hcs : (contributions bags me s1.tree).map Prod.fst = bags.map record ++ [headRecord me] := by
    unfold contributions
    rw [List.map_append, List.map_map]
    rfl
  have hmem0 : membersView (HeadBag.open t (initInfo keep old.info info)) = .ok [] := by
    simp [membersView, HeadBag.open, iterMembers_03 hi, hcl.gone]
  have hmem := run_members hinv0 hrun (hno _ (by simp) (by simp) (by simp))
    (fun b => hno _ (by simp) (by simp) (by simp)) hmem0
  rw [foldl_amendOps_members, foldl_addOnce_nil, hcs, ← List.append_assoc] at hmem
  have hmsome : s1.members ≠ none := by
    have hsplit : amendOps oms oes (contributions bags me s1.tree) =
        (memberOps oms ++ (.clearLookup :: lookupOps oes) ++
          (bags.map (fun b => (record b, b.files))).flatMap bagOps) ++
        .addMember (headRecord me) true ::
          lookupOps ((filesFor false s1.tree (includeList me.incl me.excl) me.excl.has).map
            (fun f => (f, (headRecord me).name))) := by
      unfold amendOps contributions
      rw [List.flatMap_append, List.flatMap_cons, List.flatMap_nil, List.append_nil]
      simp only [List.append_assoc, bagOps]
    rw [hsplit] at hrun
    refine run_sets_members hinv0 hrun ?_
    intro hop
    obtain ⟨e, _, he⟩ := List.mem_map.1 hop
    cases he
  obtain ⟨d0, hd0, _⟩ := hinv0.lookup
  obtain ⟨d, hd, hdq⟩ := run_lookup hinv0 hrun (fun p => hno _ (by simp) (by simp) (by simp)) hd0
  have hdok : TableOk d := by
    obtain ⟨d', e1, e2⟩ := hinv.lookup
    rw [hd] at e1; injection e1 with e1; subst e1; exact e2
  -- saving
  have hi1 : InfoOk s1.info := by rw [hinfo]; exact hi
  have hinfo1 : tagDir s1.info = tagDir info := by rw [hinfo, ht]
  obtain ⟨v1, v2, _, w1, w2, w3, _⟩ := saveMembers_views hi1 hsm
  have hi2 : InfoOk s2.info := by rw [w1]; exact hi1
  obtain ⟨x1, x2, _, y1, y2, y3, _⟩ := saveLookup_views hi2 hsl
  have hi3 : InfoOk s3.info := by rw [y1]; exact hi2
  have htd3 : tagDir s3.info = tagDir info := by rw [y1, w1, hinfo1]
  obtain ⟨⟨z, hz⟩, hsv, hf4, hw4, _⟩ := updateInfo_ok hup
  have hpv : profileVersion s3.info = if keep then profileVersion old.info else CURRENT_VERSION := by
    rw [y1, w1, hinfo, profileVersion_initInfo]
  have hinfo4 : InfoOk s'.info := by rw [hz]; exact infoOk_updateInfo hi3 hi3.ver
  have htd4 : tagDir s'.info = tagDir info := by rw [hz, tagDir_updateInfo, htd3]
  obtain ⟨ms, hms⟩ := Option.ne_none_iff_exists'.1 hmsome
  have hms' : ms = keepLast (oms ++ bags.map record ++ [headRecord me]) := by
    rw [membersView, hms] at hmem
    exact Except.ok.inj hmem
  rcases saveMembers_ok hsm with ⟨e, _⟩ | ⟨ms2, text, t2, e, htext, e2, hs2⟩
  · exact absurd e hmsome
  rw [hms] at e; injection e with e; subst e
  -- member-bags.tsv at the end
  have hread : s'.tree.read (tagFile (tagDir s'.info) py!"member-bags.tsv") = some text := by
    have n1 := tagFile_ne_info (dir := tagDir info) comps_members (by decide) (by decide)
    rw [read_eq, htd4, hf4 _ n1.1 (fun a _ => n1.2 a)]
    have h2 : s2.tree.read (tagFile (tagDir info) py!"member-bags.tsv") = some text := by
      rw [e2, ← hinfo1]; exact hs2.content
    rw [← read_eq]
    rcases saveLookup_ok hsl with ⟨_, e3⟩ | ⟨d3, t3, _, e3, hs3⟩
    · rw [e3]; exact h2
    · have := savedTo_read comps_lookup comps_members (by decide) hs3
      rw [w1, hinfo1] at this
      rw [e3]
      exact this.trans h2
  have hgone : s1.tree.read (tagFile (tagDir info) py!"file-lookup.tsv") = none := by
    rw [← ht]
    refine run_gone (a := memberOps oms) (b := lookupOps oes ++ (contributions bags me s1.tree).flatMap bagOps) hinv0 ?_
      quiet_memberOps ?_
    · rw [← hrun]
      unfold amendOps
      rw [List.append_assoc, List.cons_append]
    · intro op hop
      rcases List.mem_append.1 hop with hop | hop
      · exact quiet_lookupOps op hop
      · obtain ⟨c, _, hc⟩ := List.mem_flatMap.1 hop
        exact quiet_bagOps op hc
  refine ⟨oms, oes, s1.tree, ho, hl, ?_, ?_, ?_, ?_, ⟨text, by rw [← hms']; exact htext, by rw [← htd4]; exact hread⟩, ⟨z, by rw [hz, hpv, y1, w1, hinfo]⟩, hinfo4, hsv, ?_, s3, hup,
    by rw [y1, w1, hinfo], ?_, ?_⟩
  · intro p h1 h2 h3
    rw [hfr p (by rw [ht]; exact h2), hcl.frame p (by rw [ht]; exact h1) (by rw [ht]; exact h3)]
  · intro hg hw
    exact hwf (hcl.wf (by rw [ht]; exact hg) hw)
  · intro hwr
    rw [← hms']
    refine open_members_eq hinfo4 hread htext ?_ ?_
    · intro m hm
      rw [hms'] at hm
      exact (hwr m (mem_keepLast hm)).1
    · intro m hm
      have hm' := List.mem_of_mem_head? hm
      rw [hms'] at hm'
      exact (hwr m (mem_keepLast hm')).2
  · have n1 := tagFile_ne_info (dir := tagDir info) comps_lookup (by decide) (by decide)
    have hsame : s'.tree.read (tagFile (tagDir info) py!"file-lookup.tsv") =
        s3.tree.read (tagFile (tagDir info) py!"file-lookup.tsv") := by
      rw [read_eq, hf4 _ n1.1 (fun a _ => n1.2 a), ← read_eq]
    have hd3 : lookupView s3 = .ok d := by rw [x2, v2, hd]
    refine ⟨d, hdok, fun q => by rw [hdq, foldl_amendOps_lookup], ?_, ?_⟩
    rotate_left
    · rcases saveLookup_ok hsl with ⟨e3, e4⟩ | ⟨d3, t3, e3, e4, hs3⟩
      · have hg2 : s2.tree.read (tagFile (tagDir info) py!"file-lookup.tsv") = none := by
          rw [e2]
          have := savedTo_read comps_members comps_lookup (by decide) hs2
          rw [hinfo1] at this
          exact this.trans hgone
        rw [e4, lookupView, e3] at hd3
        have htd2 : tagDir s2.info = tagDir info := by rw [w1, hinfo1]
        simp only [iterLookup_03 hi2, htd2, hg2] at hd3
        exact .inl ⟨by simpa using hd3.symm, by rw [hsame, e4]; exact hg2⟩
      · right
        have : d3 = d := by
          rw [lookupView, y3, e3] at hd3
          exact Except.ok.inj hd3
        subst this
        rw [hsame, e4]
        rw [w1, hinfo1] at hs3
        exact hs3.content
    intro hpl
    rcases saveLookup_ok hsl with ⟨e3, e4⟩ | ⟨d3, t3, e3, e4, hs3⟩
    · subst e4
      rw [lookupView, e3] at hd3
      simp only [iterLookup_03 hi3] at hd3
      rw [lookupView]
      simp only [HeadBag.open, iterLookup_03 hinfo4]
      rw [htd4, hsame, ← htd3]
      exact hd3
    · have : d3 = d := by
        rw [lookupView, y3, e3] at hd3
        exact Except.ok.inj hd3
      subst this
      refine open_lookup_eq hinfo4 ?_ hdok.nodup (fun e he => ⟨(hpl e he).1.clean, (hpl e he).2.clean⟩)
        (fun e he => (hpl e (List.mem_of_mem_head? he)).1.nobom)
      rw [htd4, hsame, e4]
      rw [w1, hinfo1] at hs3
      exact hs3.content
  · intro p h1 h2 h3 h4 h5
    rw [hf4 p h4 (fun a _ => h5 a)]
    have e3 : dget s3.tree p = dget s2.tree p := by
      rcases saveLookup_ok hsl with ⟨_, e4⟩ | ⟨d3, t3, _, e4, hs3⟩
      · rw [e4]
      · rw [w1, hinfo1] at hs3
        rw [e4]; exact hs3.frame p h2 h3
    have e2' : dget s2.tree p = dget s1.tree p := by
      rw [hinfo1] at hs2
      rw [e2]; exact hs2.frame p h1 h3
    rw [e3, e2', hfr p (by rw [ht]; exact h2), hcl.frame p (by rw [ht]; exact h1) (by rw [ht]; exact h3)]
  · intro hg hw
    refine wf_saveLookup hsl (by rw [w1, hinfo1]; exact hg) (wf_saveMembers hsm (by rw [hinfo1]; exact hg) ?_)
    exact hwf (hcl.wf (by rw [ht]; exact hg) hw)
  · intro p h1 h2 h3
    have e3 : dget s3.tree p = dget s2.tree p := by
      rcases saveLookup_ok hsl with ⟨_, e4⟩ | ⟨d3, t3, _, e4, hs3⟩
      · rw [e4]
      · rw [w1, hinfo1] at hs3
        rw [e4]; exact hs3.frame p h2 h3
    have e2' : dget s2.tree p = dget s1.tree p := by
      rw [hinfo1] at hs2
      rw [e2]; exact hs2.frame p h1 h3
    rw [e3, e2', hfr p (by rw [ht]; exact h2), hcl.frame p (by rw [ht]; exact h1) (by rw [ht]; exact h3)]

end Verif
