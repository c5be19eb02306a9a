import Verif.Model.Amend
import Verif.Spec.Amend
import Verif.Props.UpdateMember
import Verif.Props.Info
import Verif.Props.RestoreInfo
/-!
# Lemmas about amending
-/

namespace Verif

open Spec

/-! ## Amending as a history of calls -/

theorem runOk_append (a b : List Op) (s : HeadBag) : runOk (a ++ b) s = (runOk a s).bind (runOk b) := by
  induction a generalizing s with
  | nil => rfl
  | cons op a ih =>
    simp only [List.cons_append, runOk]
    cases hs : step s op with
    | mk r s1 =>
      cases r with
      | error e => rfl
      | ok u => exact ih s1

theorem runOk_append_some {a b : List Op} {s s1 s2 : HeadBag} (h1 : runOk a s = some s1)
    (h2 : runOk b s1 = some s2) : runOk (a ++ b) s = some s2 := by
  rw [runOk_append, h1]; exact h2

/-- Calls adding members. -/
def memberOps (ms : List MemberInfo) : List Op := ms.map (fun m => .addMember m true)

/-- Calls adding lookup entries. -/
def lookupOps (es : List (Str × Str)) : List Op := es.map (fun e => .addLookup e.1 e.2)

/-- Calls adding a bag with its files. -/
def bagOps (c : MemberInfo × List Str) : List Op :=
  .addMember c.1 true :: lookupOps (c.2.map (fun f => (f, c.1.name)))

theorem addMembers_run (ms : List MemberInfo) (s s' : HeadBag) :
    s.addMembers ms = (.ok (), s') ↔ runOk (memberOps ms) s = some s' := by
  induction ms generalizing s with
  | nil => simp [HeadBag.addMembers, memberOps, runOk]
  | cons m ms ih =>
    simp only [HeadBag.addMembers, memberOps, List.map_cons, runOk, step]
    cases hs : s.addMemberBag m true with
    | mk r s1 =>
      cases r with
      | error e => simp
      | ok u => exact ih s1

theorem addLookups_run (es : List (Str × Str)) (s s' : HeadBag) :
    s.addLookups es = (.ok (), s') ↔ runOk (lookupOps es) s = some s' := by
  induction es generalizing s with
  | nil => simp [HeadBag.addLookups, lookupOps, runOk]
  | cons m ms ih =>
    simp only [HeadBag.addLookups, lookupOps, List.map_cons, runOk, step]
    cases hs : s.addFileLookup m.1 m.2 with
    | mk r s1 =>
      cases r with
      | error e => simp
      | ok u => exact ih s1

theorem registerAll_run (bag : Str) (fs : List Str) (s s' : HeadBag) :
    s.registerAll bag fs = (.ok (), s') ↔ runOk (lookupOps (fs.map (fun f => (f, bag)))) s = some s' := by
  induction fs generalizing s with
  | nil => simp [HeadBag.registerAll, lookupOps, runOk]
  | cons m ms ih =>
    simp only [HeadBag.registerAll, lookupOps, List.map_cons, runOk, step]
    cases hs : s.addFileLookup m bag with
    | mk r s1 =>
      cases r with
      | error e => simp
      | ok u => exact ih s1

theorem updateForMember_false (s : HeadBag) (ro : Bool) (t : Tree) (name : Str) (incl excl : Arg) :
    s.updateForMember ro t name incl excl false =
      s.registerAll name (filesFor ro t (includeList incl excl) excl.has) := by
  unfold HeadBag.updateForMember; rfl

/-- The files an amending bag contributes. -/
def Amending.files (b : Amending) : List Str := filesFor b.readonly b.tree (includeList b.incl b.excl) b.excl.has

theorem addAmending_run (b : Amending) (s s' : HeadBag) :
    s.addAmending b = (.ok (), s') ↔ runOk (bagOps ((record b), b.files)) s = some s' := by
  simp only [HeadBag.addAmending, bagOps, runOk, step]
  show (match s.addMemberBag (record b) true with
    | (.error e, s) => (.error e, s)
    | (.ok _, s) => s.updateForMember b.readonly b.tree b.name b.incl b.excl false : Res Unit) = (.ok (), s') ↔ _
  cases hs : s.addMemberBag (record b) true with
  | mk r s1 =>
    cases r with
    | error e => simp
    | ok u =>
      simp only [updateForMember_false]
      exact registerAll_run b.name b.files s1 s'

theorem addAllAmending_run (bs : List Amending) (s s' : HeadBag) :
    s.addAllAmending bs = (.ok (), s') ↔
      runOk (bs.flatMap (fun b => bagOps ((record b), b.files))) s = some s' := by
  induction bs generalizing s with
  | nil => simp [HeadBag.addAllAmending, runOk]
  | cons b bs ih =>
    simp only [HeadBag.addAllAmending, List.flatMap_cons, runOk_append]
    cases hs : s.addAmending b with
    | mk r s1 =>
      cases r with
      | ok u => rw [(addAmending_run b s s1).1 hs]; exact ih s1
      | error e =>
        cases hr : runOk (bagOps ((record b), b.files)) s with
        | none => simp
        | some s2 => rw [(addAmending_run b s s2).2 hr] at hs; cases hs

/-! ## The start of an amendment -/

/-- The members taken over from the bag that is amended. -/
def Amendee.members (old : Amendee) : Except PyErr (List MemberInfo) :=
  if isHeadInfo old.info then iterMembers old.mode old.tree old.info else .ok [⟨old.name, none, none, []⟩]

/-- The lookup entries taken over from the bag that is amended. -/
def Amendee.lookup (old : Amendee) : Except PyErr (List (Str × Str)) :=
  if isHeadInfo old.info then iterLookup old.mode old.tree old.info
  else .ok ((filesFor old.readonly old.tree [py!"data"] (fun _ => false)).map (fun f => (f, old.name)))

/-- The new head bag after its old member list was removed. -/
structure Cleared (tree : Tree) (info : Info) (t : Tree) : Prop where
  gone : t.read (tagFile (tagDir info) py!"member-bags.tsv") = none
  frame : ∀ p, p ≠ tagFile (tagDir info) py!"member-bags.tsv" → p ≠ comps (tagDir info) →
    dget t p = dget tree p
  dir : dget tree (comps (tagDir info)) ≠ none → dget t (comps (tagDir info)) = dget tree (comps (tagDir info))
  wf : GoodPath (comps (tagDir info)) → WfTree tree → WfTree t

/-- Making room for the new member list. -/
def HeadBag.cleared (s : HeadBag) : Res Unit :=
  if s.tree.isfile (tagFile (tagDir s.info) py!"member-bags.tsv") then
    match s.tree.remove (tagFile (tagDir s.info) py!"member-bags.tsv") with
    | .error e => (.error e, s)
    | .ok t => (({ s with tree := t } : HeadBag).memberBags true).void
  else s.ensureTagdir

theorem wf_ensureTagdir {s s' : HeadBag} (h : s.ensureTagdir = (.ok (), s'))
    (hg : GoodPath (comps (tagDir s.info))) (hw : WfTree s.tree) : WfTree s'.tree := by
  unfold HeadBag.ensureTagdir at h
  simp only at h
  split at h
  · injection h with _ h; subst h; exact hw
  · split at h
    · injection h with h; cases h
    · rename_i t ht
      injection h with _ h
      subst h
      exact wf_mkdir hw hg ht

theorem cleared_ok {tree : Tree} {info : Info} {s' : HeadBag} (hi : InfoOk info)
    (h : (HeadBag.open tree info).cleared = (.ok (), s')) :
    ∃ t, s' = HeadBag.open t info ∧ Cleared tree info t := by
  unfold HeadBag.cleared at h
  have hi' : (HeadBag.open tree info).info = info := rfl
  have ht' : (HeadBag.open tree info).tree = tree := rfl
  rw [hi', ht'] at h
  by_cases hf : tree.isfile (tagFile (tagDir info) py!"member-bags.tsv") = true
  · rw [if_pos hf] at h
    have hr : tree.remove (tagFile (tagDir info) py!"member-bags.tsv") =
        .ok (ddel tree (tagFile (tagDir info) py!"member-bags.tsv")) := by
      unfold Tree.remove; rw [if_pos hf]
    rw [hr] at h
    simp only at h
    have hn : Tree.read (ddel tree (tagFile (tagDir info) py!"member-bags.tsv"))
        (tagFile (tagDir info) py!"member-bags.tsv") = none := by
      rw [read_eq, dget_ddel, if_pos rfl]
    refine ⟨ddel tree (tagFile (tagDir info) py!"member-bags.tsv"), ?_, hn, ?_, ?_, fun _ hw => wf_ddel hw hf⟩
    · unfold HeadBag.memberBags at h
      simp only [Bool.true_or, if_true] at h
      rw [iterMembers_03 hi, hn] at h
      simp only [Res.void] at h
      injection h with _ h
      exact h.symm
    · intro p hp _
      rw [dget_ddel, if_neg (fun e => hp e.symm)]
    · intro _
      rw [dget_ddel, if_neg (tagFile_ne_dir _ _ comps_members rfl)]
  · rw [if_neg hf] at h
    obtain ⟨t, h1, h2, h3⟩ := ensureTagdir_ok h
    have hwf := wf_ensureTagdir h
    subst h1
    refine ⟨t, rfl, ?_, fun p _ hp => h2 p hp, h3, hwf⟩
    have : dget t (tagFile (tagDir info) py!"member-bags.tsv") =
        dget tree (tagFile (tagDir info) py!"member-bags.tsv") :=
      h2 _ (tagFile_ne_dir _ _ comps_members rfl)
    rw [read_eq, this]
    cases hd : dget tree (tagFile (tagDir info) py!"member-bags.tsv") with
    | none => rfl
    | some n =>
      cases n with
      | dir => rfl
      | file c => exact absurd (isfile_iff.2 ⟨c, hd⟩) hf

theorem initFrom_run {tree : Tree} {info : Info} {keep : Bool} {old : Amendee} {s' : HeadBag}
    (hi : InfoOk (initInfo keep old.info info))
    (h : (HeadBag.open tree info).initFrom keep old = (.ok (), s')) :
    ∃ oms oes t, old.members = .ok oms ∧ old.lookup = .ok oes ∧
      Cleared tree (initInfo keep old.info info) t ∧
      runOk (memberOps oms ++ (.clearLookup :: lookupOps oes))
        (HeadBag.open t (initInfo keep old.info info)) = some s' := by
  unfold HeadBag.initFrom at h
  cases hm : ({ HeadBag.open tree info with info := initInfo keep old.info (HeadBag.open tree info).info } :
      HeadBag).initMembers old with
  | mk r s1 =>
    rw [hm] at h
    cases r with
    | error e => simp only at h; injection h with h; cases h
    | ok u =>
      simp only at h
      have hm' : (HeadBag.open tree (initInfo keep old.info info)).initMembers old = (.ok u, s1) := hm
      unfold HeadBag.initMembers at hm'
      simp only at hm'
      change (match (HeadBag.open tree (initInfo keep old.info info)).cleared with
        | (.error e, s) => _
        | (.ok _, s) => _ : Res Unit) = _ at hm'
      cases hc : (HeadBag.open tree (initInfo keep old.info info)).cleared with
      | mk r0 s0 =>
        rw [hc] at hm'
        cases r0 with
        | error e => simp only at hm'; injection hm' with h1; cases h1
        | ok u0 =>
          simp only at hm'
          obtain ⟨t, rfl, hcl⟩ := cleared_ok hi hc
          have hms : ∃ oms, old.members = .ok oms ∧ runOk (memberOps oms)
              (HeadBag.open t (initInfo keep old.info info)) = some s1 := by
            unfold Amendee.members
            by_cases hh : isHeadInfo old.info = true
            · rw [if_pos hh] at hm' ⊢
              cases hit : iterMembers old.mode old.tree old.info with
              | error e => rw [hit] at hm'; simp only at hm'; injection hm' with h1; cases h1
              | ok oms => rw [hit] at hm'; exact ⟨oms, rfl, (addMembers_run _ _ _).1 hm'⟩
            · rw [if_neg hh] at hm' ⊢
              refine ⟨_, rfl, ?_⟩
              simp only [memberOps, List.map_cons, List.map_nil, runOk, step, hm']
          obtain ⟨oms, ho, hrun⟩ := hms
          unfold HeadBag.initLookup at h
          cases hcl2 : s1.clearFileLookup with
          | mk r2 s2 =>
            rw [hcl2] at h
            cases r2 with
            | error e => simp only at h; injection h with h1; cases h1
            | ok u2 =>
              simp only at h
              have hls : ∃ oes, old.lookup = .ok oes ∧ runOk (lookupOps oes) s2 = some s' := by
                unfold Amendee.lookup
                by_cases hh : isHeadInfo old.info = true
                · rw [if_pos hh] at h ⊢
                  cases hit : iterLookup old.mode old.tree old.info with
                  | error e => rw [hit] at h; simp only at h; injection h with h1; cases h1
                  | ok oes => rw [hit] at h; exact ⟨oes, rfl, (addLookups_run _ _ _).1 h⟩
                · rw [if_neg hh] at h ⊢
                  rw [updateForMember_false] at h
                  exact ⟨_, rfl, (registerAll_run _ _ _ _).1 h⟩
              obtain ⟨oes, ho2, hrun2⟩ := hls
              refine ⟨oms, oes, t, ho, ho2, hcl, runOk_append_some hrun ?_⟩
              simp only [runOk, step, hcl2]
              exact hrun2

/-- The calls that make up an amendment, up to saving. -/
def amendOps (oms : List MemberInfo) (oes : List (Str × Str)) (cs : List (MemberInfo × List Str)) : List Op :=
  memberOps oms ++ (.clearLookup :: lookupOps oes) ++ cs.flatMap bagOps

/-- What each amending bag contributes, and the new head bag at last. -/
def contributions (bags : List Amending) (me : NewHead) (t : Tree) : List (MemberInfo × List Str) :=
  bags.map (fun b => ((record b), b.files)) ++
    [((headRecord me), filesFor false t (includeList me.incl me.excl) me.excl.has)]

/-- Looking up and adding leaves the directory alone, except that `clear_file_lookup` removes
its file. -/
theorem run_frame {ops : List Op} {s s' : HeadBag} (h : runOk ops s = some s') (hi : InfoOk s.info)
    (hinv : Inv s) (ho : ∀ op ∈ ops, op = .clearLookup ∨ writesDisk op = false) :
    s'.info = s.info ∧
    (∀ p, p ≠ tagFile (tagDir s.info) py!"file-lookup.tsv" → dget s'.tree p = dget s.tree p) ∧
    (WfTree s.tree → WfTree s'.tree) := by
  induction ops generalizing s with
  | nil => simp [runOk] at h; subst h; exact ⟨rfl, fun _ _ => rfl, id⟩
  | cons op ops ih =>
    obtain ⟨s1, h1, h2⟩ := runOk_cons h
    have hinfo : s1.info = s.info := (step_deleted hinv h1).1
    obtain ⟨g1, g2, g3⟩ := ih h2 (by rw [hinfo]; exact hi) (step_inv hinv h1)
      (fun o hm => ho o (List.mem_cons_of_mem _ hm))
    rw [hinfo] at g1 g2
    have key : (∀ p, p ≠ tagFile (tagDir s.info) py!"file-lookup.tsv" → dget s1.tree p = dget s.tree p) ∧
        (WfTree s.tree → WfTree s1.tree) := by
      rcases ho op List.mem_cons_self with rfl | hw
      · refine ⟨(clearLookup_ok hi h1).2.2.2.2.2.2, fun hwf => ?_⟩
        have h1' : s.clearFileLookup = (.ok (), s1) := h1
        unfold HeadBag.clearFileLookup at h1'
        simp only at h1'
        split at h1'
        · split at h1'
          · injection h1' with e; cases e
          · rename_i t ht
            injection h1' with _ e
            subst e
            unfold Tree.remove at ht
            split at ht
            · rename_i hf; injection ht with ht; subst ht; exact wf_ddel hwf hf
            · cases ht
        · injection h1' with _ e
          subst e; exact hwf
      · have := step_tree s op hw
        rw [h1] at this
        simp only at this
        rw [this]; exact ⟨fun _ _ => rfl, id⟩
    exact ⟨g1, fun p hp => (g2 p hp).trans (key.1 p hp), fun hw => g3 (key.2 hw)⟩

theorem run_tree {ops : List Op} {s s' : HeadBag} (h : runOk ops s = some s')
    (ho : ∀ op ∈ ops, writesDisk op = false) : s'.tree = s.tree := by
  induction ops generalizing s with
  | nil => simp [runOk] at h; subst h; rfl
  | cons op ops ih =>
    obtain ⟨s1, h1, h2⟩ := runOk_cons h
    rw [ih h2 (fun o hm => ho o (List.mem_cons_of_mem _ hm))]
    have := step_tree s op (ho op List.mem_cons_self)
    rw [h1] at this; exact this

theorem quiet_memberOps {ms : List MemberInfo} : ∀ op ∈ memberOps ms, writesDisk op = false := by
  intro op h
  obtain ⟨m, _, rfl⟩ := List.mem_map.1 h
  rfl

theorem quiet_lookupOps {es : List (Str × Str)} : ∀ op ∈ lookupOps es, writesDisk op = false := by
  intro op h
  obtain ⟨m, _, rfl⟩ := List.mem_map.1 h
  rfl

theorem quiet_bagOps {c : MemberInfo × List Str} : ∀ op ∈ bagOps c, writesDisk op = false := by
  intro op h
  rcases List.mem_cons.1 h with rfl | h
  · rfl
  · exact quiet_lookupOps op h

theorem finalize_run {E : SaveEnv} {s s' : HeadBag} {me : NewHead} {version : Str}
    (h : s.finalize E me version = (.ok (), s')) :
    ∃ s1 s2 s3,
      runOk (bagOps ((headRecord me), filesFor false s.tree (includeList me.incl me.excl) me.excl.has)) s = some s1 ∧
      s1.saveMemberBags = (.ok (), s2) ∧ s2.saveFileLookup = (.ok (), s3) ∧
      s3.updateInfo E (some version) (profileVersion s3.info) = (.ok (), s') := by
  unfold HeadBag.finalize at h
  change (match s.addMemberBag (headRecord me) true with
    | (.error e, s) => _
    | (.ok _, s) => _ : Res Unit) = _ at h
  cases ha : s.addMemberBag (headRecord me) true with
  | mk r s0 =>
    rw [ha] at h
    cases r with
    | error e => simp only at h; injection h with h; cases h
    | ok u =>
      simp only [updateForMember_false] at h
      have ht : s0.tree = s.tree := by
        have := step_tree s (.addMember (headRecord me) true) rfl
        simpa only [step, ha] using this
      rw [ht] at h
      cases hr : s0.registerAll me.name (filesFor false s.tree (includeList me.incl me.excl) me.excl.has) with
      | mk r s1 =>
        rw [hr] at h
        cases r with
        | error e => simp only at h; injection h with h; cases h
        | ok u =>
          simp only at h
          cases hm : s1.saveMemberBags with
          | mk r s2 =>
            rw [hm] at h
            cases r with
            | error e => simp only at h; injection h with h; cases h
            | ok u =>
              simp only at h
              cases hl : s2.saveFileLookup with
              | mk r s3 =>
                rw [hl] at h
                cases r with
                | error e => simp only at h; injection h with h; cases h
                | ok u =>
                  refine ⟨s1, s2, s3, ?_, hm, hl, h⟩
                  simp only [bagOps, runOk, step, ha]
                  exact (registerAll_run _ _ _ _).1 hr

/-- An amendment seen as calls on a freshly opened head bag, followed by the saves. -/
theorem amend_run {E : SaveEnv} {keep : Bool} {old : Amendee} {me : NewHead} {version : Str}
    {bags : List Amending} {tree : Tree} {info : Info} {s' : HeadBag}
    (hi : InfoOk (initInfo keep old.info info))
    (hinv : ∀ t, Cleared tree (initInfo keep old.info info) t → Inv (HeadBag.open t (initInfo keep old.info info)))
    (h : amend E keep old me version bags (HeadBag.open tree info) = (.ok (), s')) :
    ∃ oms oes t s1 s2 s3, old.members = .ok oms ∧ old.lookup = .ok oes ∧
      Cleared tree (initInfo keep old.info info) t ∧
      runOk (amendOps oms oes (contributions bags me s1.tree))
        (HeadBag.open t (initInfo keep old.info info)) = some s1 ∧
      s1.info = initInfo keep old.info info ∧
      (∀ p, p ≠ tagFile (tagDir (initInfo keep old.info info)) py!"file-lookup.tsv" → dget s1.tree p = dget t p) ∧
      (WfTree t → WfTree s1.tree) ∧
      s1.saveMemberBags = (.ok (), s2) ∧ s2.saveFileLookup = (.ok (), s3) ∧
      s3.updateInfo E (some version) (profileVersion s3.info) = (.ok (), s') := by
  unfold amend at h
  cases hf : (HeadBag.open tree info).initFrom keep old with
  | mk r sa =>
    rw [hf] at h
    cases r with
    | error e => simp only at h; injection h with h; cases h
    | ok u =>
      simp only at h
      obtain ⟨oms, oes, t, ho, hl, hcl, hrun⟩ := initFrom_run hi hf
      cases hb : sa.addAllAmending bags with
      | mk r sb =>
        rw [hb] at h
        cases r with
        | error e => simp only at h; injection h with h; cases h
        | ok u =>
          simp only at h
          have hb' := (addAllAmending_run _ _ _).1 hb
          obtain ⟨s1, s2, s3, r1, r2, r3, r4⟩ := finalize_run h
          have ht1 : s1.tree = sb.tree := run_tree r1 quiet_bagOps
          have hall : runOk (amendOps oms oes (contributions bags me s1.tree))
              (HeadBag.open t (initInfo keep old.info info)) = some s1 := by
            unfold amendOps contributions
            rw [List.flatMap_append, List.flatMap_map]
            refine runOk_append_some hrun (runOk_append_some hb' ?_)
            rw [ht1, List.flatMap_cons, List.flatMap_nil, List.append_nil]
            exact r1
          obtain ⟨g1, g2, g3⟩ := run_frame hall hi (hinv t hcl) (by
            intro op hop
            unfold amendOps at hop
            rcases List.mem_append.1 hop with hop | hop
            · rcases List.mem_append.1 hop with hop | hop
              · exact .inr (quiet_memberOps op hop)
              · rcases List.mem_cons.1 hop with rfl | hop
                · exact .inl rfl
                · exact .inr (quiet_lookupOps op hop)
            · obtain ⟨c, _, hc⟩ := List.mem_flatMap.1 hop
              exact .inr (quiet_bagOps op hc))
          exact ⟨oms, oes, t, s1, s2, s3, ho, hl, hcl, hall, g1, g2, g3, r2, r3, r4⟩

end Verif
