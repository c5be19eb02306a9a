import Verif.Lemmas.Sessions
/-!
# C122: several objects for one head bag
-/

namespace Verif
open Spec

section
variable {ι : Type} [DecidableEq ι]

/-! ## The last save counts -/

/-- C122: when one of the objects has saved its member list, and nobody has saved a member list since, a newly opened bag
reports the list of that object. -/
theorem C122_members (tree : Tree) (info : Info) (o : Metadata info) (before after : List (ι × Op)) (i : ι) (ms : List MemberInfo)
    (hms : ((((OpenBags.start tree info).calls before).here i).memberBags).1 = .ok ms)
    (hsave : (((OpenBags.start tree info).calls before).call i .saveMembers).1 = .ok ())
    (hafter : ∀ c ∈ after, c.2 ≠ .saveMembers)
    (hc : ∀ m ∈ ms, CleanMember m ∧ m.name.head? ≠ some bom) :
    ((HeadBag.open ((((OpenBags.start tree info).calls before).call i .saveMembers).2.calls after).disk info).memberBags).1 = .ok ms := by
  have hi := infoOk_of_metadata o
  have hf := fit_calls (fit_start (ι := ι) tree info) before
  revert hms hsave hf
  generalize (OpenBags.start tree info : OpenBags ι).calls before = w
  intro hms hsave hf
  rw [memberBags_fst] at hms ⊢
  have hfile := calls_file comps_members (fit_call hf i .saveMembers) after (fun c hc' => by
    have := hafter c hc'
    cases hop : c.2 <;> simp [ownFile, hop] at this ⊢)
  rw [reported_members hi hfile]
  have hinfo := (fit_here hf i).1
  show membersView (HeadBag.open (step (w.here i) .saveMembers).2.tree info) = _
  rcases hst : step (w.here i) .saveMembers with ⟨r, s'⟩
  have hr : r = .ok () := by
    have : (step (w.here i) .saveMembers).1 = .ok () := hsave
    rw [hst] at this
    exact this
  subst hr
  rcases saveMembers_ok hst with ⟨hm, rfl⟩ | ⟨ms', text, t, hm, ht, rfl, hsv⟩
  · rw [← hms, ← view_open_none.1 hm, hinfo]
  · have e : membersView (w.here i) = .ok ms' := by simp [membersView, hm]
    rw [e] at hms
    injection hms with hms
    subst hms
    rw [← hinfo]
    exact open_members_eq (s := { w.here i with tree := t }) (hinfo ▸ hi) hsv.content ht (fun m hm => (hc m hm).1)
      (fun m hm => (hc m (mem_of_mem_head? hm)).2)

/-- C122: the same for the lookups, unless somebody has cleared them since. -/
theorem C122_lookup (tree : Tree) (info : Info) (o : Metadata info) (before after : List (ι × Op)) (i : ι)
    (hsave : (((OpenBags.start tree info).calls before).call i .saveLookup).1 = .ok ())
    (hafter : ∀ c ∈ after, c.2 ≠ .saveLookup ∧ c.2 ≠ .clearLookup)
    (hc : ∀ p b, ((((OpenBags.start tree info).calls before).here i).lookupFile p).1 = .ok (some b) → Plain p ∧ Clean b) :
    let new := HeadBag.open ((((OpenBags.start tree info).calls before).call i .saveLookup).2.calls after).disk info
    (∀ p, (new.lookupFile p).1 = ((((OpenBags.start tree info).calls before).here i).lookupFile p).1) ∧
    (∀ b, (new.filesInMember b).1 = ((((OpenBags.start tree info).calls before).here i).filesInMember b).1) := by
  have hi := infoOk_of_metadata o
  have hf := fit_calls (fit_start (ι := ι) tree info) before
  revert hsave hc hf
  generalize (OpenBags.start tree info : OpenBags ι).calls before = w
  intro hsave hc hf
  suffices key : lookupView (HeadBag.open (((w.call i .saveLookup).2.calls after).disk) info) = lookupView (w.here i) by
    exact ⟨fun p => by rw [(lookupFile_spec _ _).1, (lookupFile_spec _ _).1, key],
      fun b => by rw [(filesInMember_spec _ _).1, (filesInMember_spec _ _).1, key]⟩
  have hfile := calls_file comps_lookup (fit_call hf i .saveLookup) after (fun c hc' => by
    have := hafter c hc'
    cases hop : c.2 <;> simp [ownFile, hop] at this ⊢)
  rw [reported_lookup hi hfile]
  have hinfo := (fit_here hf i).1
  show lookupView (HeadBag.open (step (w.here i) .saveLookup).2.tree info) = _
  rcases hst : step (w.here i) .saveLookup with ⟨r, s'⟩
  have hr : r = .ok () := by
    have : (step (w.here i) .saveLookup).1 = .ok () := hsave
    rw [hst] at this
    exact this
  subst hr
  rcases saveLookup_ok hst with ⟨hm, rfl⟩ | ⟨d, t, hm, rfl, hsv⟩
  · rw [← view_open_none.2.1 hm, hinfo]
  · have e : lookupView (w.here i) = .ok d := by simp [lookupView, hm]
    have hn := (fit_here hf i).2.lookup d hm
    have hp : ∀ p ∈ d, Plain p.1 ∧ Clean p.2 := fun p hp => hc p.1 p.2 (by
      rw [(lookupFile_spec _ _).1, e]
      simp only [Except.map]
      rw [(dget_iff_mem hn).2 hp])
    rw [e, ← hinfo]
    exact open_lookup_eq (s := { w.here i with tree := t }) (hinfo ▸ hi) hsv.content hn
      (fun p hpd => ⟨(hp p hpd).1.clean, (hp p hpd).2⟩) (fun p hpd => (hp p (mem_of_mem_head? hpd)).1.nobom)

/-- C122: the same for the deleted paths, in some order. -/
theorem C122_deleted (tree : Tree) (info : Info) (before after : List (ι × Op)) (i : ι)
    (enum : List Str → List Str) (hen : ∀ l, (enum l).Perm l) (ps : List Str)
    (hps : ((((OpenBags.start tree info).calls before).here i).deletedPaths).1 = .ok ps)
    (hsave : (((OpenBags.start tree info).calls before).call i (.saveDeleted enum)).1 = .ok ())
    (hafter : ∀ c ∈ after, ∀ e, c.2 ≠ .saveDeleted e) (hc : ∀ p ∈ ps, Plain p) :
    ∃ ps', ((HeadBag.open ((((OpenBags.start tree info).calls before).call i (.saveDeleted enum)).2.calls after).disk info).deletedPaths).1
      = .ok ps' ∧ ps'.Perm ps := by
  have hf := fit_calls (fit_start (ι := ι) tree info) before
  revert hps hsave hf
  generalize (OpenBags.start tree info : OpenBags ι).calls before = w
  intro hps hsave hf
  simp only [(deletedPaths_spec _).1] at hps ⊢
  have hfile := calls_file comps_deleted (fit_call hf i (.saveDeleted enum)) after (fun c hc' => by
    have := hafter c hc'
    cases hop : c.2 <;> simp [ownFile, hop] at this ⊢)
  rw [reported_deleted hfile]
  have hinfo := (fit_here hf i).1
  show ∃ ps', deletedView (HeadBag.open (step (w.here i) (.saveDeleted enum)).2.tree info) = _ ∧ _
  rcases hst : step (w.here i) (.saveDeleted enum) with ⟨r, s'⟩
  have hr : r = .ok () := by
    have : (step (w.here i) (.saveDeleted enum)).1 = .ok () := hsave
    rw [hst] at this
    exact this
  subst hr
  rcases saveDeleted_ok hst with ⟨hm, rfl⟩ | ⟨ps', t, hm, rfl, hsv⟩
  · exact ⟨ps, by rw [← hps, ← view_open_none.2.2 hm, hinfo], .refl _⟩
  · have e : deletedView (w.here i) = .ok ps' := by simp [deletedView, hm]
    rw [e] at hps
    injection hps with hps
    subst hps
    have hpl : ∀ p ∈ enum ps', Plain p := fun p hpp => hc p ((hen ps').mem_iff.1 hpp)
    refine ⟨enum ps', ?_, hen ps'⟩
    rw [← hinfo]
    exact open_deleted_eq (s := { w.here i with tree := t }) hsv.content ((hen ps').nodup_iff.2 ((fit_here hf i).2.deleted ps' hm))
      (fun p hpp => (hpl p hpp).clean) (fun p hpp => (hpl p (mem_of_mem_head? hpp)).nobom)

/-! ## Lists in memory -/

/-- C122: an object with all lists in memory that does not read again answers as if the others were not there, whatever they
save. -/
theorem C122_isolated (w : OpenBags ι) (i : ι) (h : AllLoaded (w.here i)) (l : List (ι × Op))
    (hl : ∀ op ∈ callsOf l i, rereads op = false) :
    (((w.calls l).here i).memberBags).1 = ((runAll (callsOf l i) (w.here i)).memberBags).1 ∧
    (∀ p, (((w.calls l).here i).lookupFile p).1 = ((runAll (callsOf l i) (w.here i)).lookupFile p).1) ∧
    (∀ b, (((w.calls l).here i).filesInMember b).1 = ((runAll (callsOf l i) (w.here i)).filesInMember b).1) ∧
    (((w.calls l).here i).deletedPaths).1 = ((runAll (callsOf l i) (w.here i)).deletedPaths).1 := by
  obtain ⟨t, ht⟩ := calls_object l h ⟨(w.objs i).tree, rfl⟩ hl
  have hall : AllLoaded (runAll (callsOf l i) (w.here i)) := by
    revert hl
    generalize callsOf l i = ops
    generalize w.here i = s at h
    clear ht
    intro hl
    induction ops generalizing s with
    | nil => exact h
    | cons op ops ih => exact ih _ (loaded_any h s.tree op (hl op List.mem_cons_self)).2 (fun o ho => hl o (List.mem_cons_of_mem _ ho))
  have hh : (w.calls l).here i = (runAll (callsOf l i) (w.here i)).moved (w.calls l).disk := by
    unfold OpenBags.here at ht ⊢
    rw [ht]
    rfl
  rw [hh]
  generalize runAll (callsOf l i) (w.here i) = s at hall
  obtain ⟨tr, info, ms, lk, dl⟩ := s
  obtain ⟨a, rfl⟩ := Option.isSome_iff_exists.1 hall.members
  obtain ⟨b, rfl⟩ := Option.isSome_iff_exists.1 hall.lookup
  obtain ⟨c, rfl⟩ := Option.isSome_iff_exists.1 hall.deleted
  exact ⟨rfl, fun _ => rfl, fun _ => rfl, rfl⟩

/-! ## How to add something without losing what others have saved -/

/-- C122: an object that reads the member list again, adds a bag and saves loses nothing of what was on disk when it read,
whatever the others do meanwhile.  (What they save meanwhile is lost: `C122_negation_merge`.) -/
theorem C122_add_member (tree : Tree) (info : Info) (o : Metadata info) (before l1 l2 after : List (ι × Op)) (i : ι)
    (m : MemberInfo) (ov : Bool) (ms : List MemberInfo)
    (hfile : (((OpenBags.start tree info).calls before).disk.read (comps (tagDir info) ++ [py!"member-bags.tsv"])).isSome)
    (hms : ((HeadBag.open ((OpenBags.start tree info).calls before).disk info).memberBags).1 = .ok ms)
    (h1 : ∀ c ∈ l1, c.1 ≠ i) (h2 : ∀ c ∈ l2, c.1 ≠ i) (hafter : ∀ c ∈ after, c.2 ≠ .saveMembers)
    (hadd : (((OpenBags.start tree info).calls (before ++ (i, .reloadMembers) :: l1)).call i (.addMember m ov)).1 = .ok ())
    (hsave : (((OpenBags.start tree info).calls (before ++ (i, .reloadMembers) :: l1 ++ (i, .addMember m ov) :: l2)).call i .saveMembers).1 = .ok ())
    (hc : ∀ x ∈ m :: ms, CleanMember x ∧ x.name.head? ≠ some bom) :
    ((HeadBag.open ((((OpenBags.start tree info).calls (before ++ (i, .reloadMembers) :: l1 ++ (i, .addMember m ov) :: l2)).call i
        .saveMembers).2.calls after).disk info).memberBags).1 =
      .ok ((if ov then ms.filter (fun x => x.name ≠ m.name) else ms) ++ [m]) := by
  have hi := infoOk_of_metadata o
  refine C122_members tree info o _ after i _ ?_ hsave hafter (fun x hx => hc x ?_)
  · clear hsave
    have hf := fit_calls (fit_start (ι := ι) tree info) before
    simp only [calls_append] at hadd ⊢
    revert hfile hms hf hadd
    generalize (OpenBags.start tree info : OpenBags ι).calls before = w
    intro hfile hms hf hadd
    have hinfo := (fit_here hf i).1
    rw [memberBags_fst] at hms
    have e1 : ((w.call i .reloadMembers).2.objs i).members = some ms := by
      rw [call_self]
      show ((w.here i).memberBags true).void.2.members = _
      rw [void_snd]
      rw [← tagFile_eq _ comps_members] at hfile
      have hms' := iterMembers_there hi hfile hms
      unfold HeadBag.memberBags
      rw [show (w.here i).tree = w.disk from rfl, hinfo, hms']
      rfl
    have e2 : ((w.call i .reloadMembers).2.calls l1).objs i = (w.call i .reloadMembers).2.objs i := calls_other l1 h1
    have e3 : (((w.calls ((i, .reloadMembers) :: l1)).call i (.addMember m ov)).2.objs i).members =
        some ((if ov then ms.filter (fun x => x.name ≠ m.name) else ms) ++ [m]) := by
      rw [call_self]
      have hst : ((w.calls ((i, .reloadMembers) :: l1)).here i).members = some ms := by
        show (((w.call i .reloadMembers).2.calls l1).objs i).members = _
        rw [e2, e1]
      have hok : (step ((w.calls ((i, .reloadMembers) :: l1)).here i) (.addMember m ov)).1 = .ok () := hadd
      rcases hres : step ((w.calls ((i, .reloadMembers) :: l1)).here i) (.addMember m ov) with ⟨r, s'⟩
      rw [hres] at hok
      simp only at hok
      subst hok
      exact addMember_members hst hres
    rw [memberBags_fst]
    unfold membersView
    have e4 : ((((w.calls ((i, .reloadMembers) :: l1)).calls ((i, .addMember m ov) :: l2))).here i).members =
        some ((if ov then ms.filter (fun x => x.name ≠ m.name) else ms) ++ [m]) := by
      show ((((w.calls ((i, .reloadMembers) :: l1)).call i (.addMember m ov)).2.calls l2).objs i).members = _
      rw [calls_other l2 h2, e3]
    rw [e4]
  · rcases List.mem_append.1 hx with hx | hx
    · refine List.mem_cons_of_mem _ ?_
      cases ov with
      | false => exact hx
      | true => exact (List.mem_filter.1 hx).1
    · rw [List.mem_singleton] at hx
      exact hx ▸ List.mem_cons_self

/-- C122: the same for a lookup. -/
theorem C122_add_lookup (tree : Tree) (info : Info) (o : Metadata info) (before l1 l2 after : List (ι × Op)) (i : ι) (q p b : Str)
    (hfile : (((OpenBags.start tree info).calls before).disk.read (comps (tagDir info) ++ [py!"file-lookup.tsv"])).isSome)
    (hok : ∃ r, ((HeadBag.open ((OpenBags.start tree info).calls before).disk info).lookupFile []).1 = .ok r)
    (h1 : ∀ c ∈ l1, c.1 ≠ i) (h2 : ∀ c ∈ l2, c.1 ≠ i) (hafter : ∀ c ∈ after, c.2 ≠ .saveLookup ∧ c.2 ≠ .clearLookup)
    (hp : p ≠ []) (hb : b ≠ [])
    (hsave : (((OpenBags.start tree info).calls (before ++ (i, .reloadLookup q) :: l1 ++ (i, .addLookup p b) :: l2)).call i .saveLookup).1 = .ok ())
    (hc : ∀ x y, ((HeadBag.open ((OpenBags.start tree info).calls before).disk info).lookupFile x).1 = .ok (some y) → Plain x ∧ Clean y)
    (hpc : Plain p ∧ Clean b) :
    ∀ x, ((HeadBag.open ((((OpenBags.start tree info).calls (before ++ (i, .reloadLookup q) :: l1 ++ (i, .addLookup p b) :: l2)).call i
        .saveLookup).2.calls after).disk info).lookupFile x).1 =
      if x = p then .ok (some b) else ((HeadBag.open ((OpenBags.start tree info).calls before).disk info).lookupFile x).1 := by
  have hi := infoOk_of_metadata o
  have hf := fit_calls (fit_start (ι := ι) tree info) before
  have key : ∃ d, lookupView (HeadBag.open ((OpenBags.start tree info : OpenBags ι).calls before).disk info) = .ok d ∧
      (((OpenBags.start tree info).calls (before ++ (i, .reloadLookup q) :: l1 ++ (i, .addLookup p b) :: l2)).here i).lookup
        = some (dset d p b) := by
    clear hsave hc
    simp only [calls_append]
    revert hfile hok hf
    generalize (OpenBags.start tree info : OpenBags ι).calls before = w
    intro hfile hok hf
    have hinfo := (fit_here hf i).1
    obtain ⟨r, hr⟩ := hok
    rw [(lookupFile_spec _ _).1] at hr
    cases hv : lookupView (HeadBag.open w.disk info) with
    | error e => rw [hv] at hr; cases hr
    | ok d =>
      refine ⟨d, rfl, ?_⟩
      rw [← tagFile_eq _ comps_lookup] at hfile
      obtain ⟨ps, hps, hd⟩ := iterLookup_there hi hfile hv
      have e1 : ((w.call i (.reloadLookup q)).2.objs i).lookup = some d := by
        rw [call_self]
        show ((w.here i).lookupFile q true).void.2.lookup = _
        rw [void_snd]
        unfold HeadBag.lookupFile HeadBag.cacheLookup
        rw [show (w.here i).tree = w.disk from rfl, hinfo, hps, hd]
        rfl
      have e2 : ((w.call i (.reloadLookup q)).2.calls l1).objs i = (w.call i (.reloadLookup q)).2.objs i := calls_other l1 h1
      have hst : ((w.calls ((i, .reloadLookup q) :: l1)).here i).lookup = some d := by
        show (((w.call i (.reloadLookup q)).2.calls l1).objs i).lookup = _
        rw [e2, e1]
      show ((((w.calls ((i, .reloadLookup q) :: l1)).call i (.addLookup p b)).2.calls l2).objs i).lookup = _
      rw [calls_other l2 h2, call_self]
      show (((w.calls ((i, .reloadLookup q) :: l1)).here i).addFileLookup p b).2.lookup = _
      unfold HeadBag.addFileLookup
      rw [if_neg (by simp [hp, hb]), hst]
  obtain ⟨d, hd, hl⟩ := key
  have hview : ∀ x, ((((OpenBags.start tree info).calls (before ++ (i, .reloadLookup q) :: l1 ++ (i, .addLookup p b) :: l2)).here i).lookupFile x).1 =
      if x = p then .ok (some b) else ((HeadBag.open ((OpenBags.start tree info : OpenBags ι).calls before).disk info).lookupFile x).1 := by
    intro x
    rw [(lookupFile_spec _ _).1, (lookupFile_spec _ _).1, hd]
    simp only [lookupView, hl, Except.map, dget_dset]
    by_cases hx : x = p
    · simp [hx]
    · simp [hx, Ne.symm hx]
  intro x
  rw [← hview x]
  refine (C122_lookup tree info o _ after i hsave hafter ?_).1 x
  · intro x y hxy
    rw [hview x] at hxy
    split at hxy
    · rename_i hx
      injection hxy with hxy
      injection hxy with hxy
      rw [hx, ← hxy]
      exact hpc
    · exact hc x y hxy

end

/-! ## What is lost otherwise -/

namespace Sample

theorem metadata : Metadata info := ⟨opened.tag, opened.ver⟩

/-- A bag to be added. -/
def bag3 : MemberInfo := ⟨py!"b3", none, none, []⟩

/-- Another. -/
def bag4 : MemberInfo := ⟨py!"b4", none, none, []⟩

/-- Two objects read the list; each adds a bag; the first saves. -/
def bothAdd : List (Bool × Op) :=
  [(false, .memberBags), (true, .memberBags), (false, .addMember bag3 true), (true, .addMember bag4 true), (false, .saveMembers)]

/-- The first adds a bag and saves; the second has read the list before. -/
def firstAdds : List (Bool × Op) :=
  [(false, .memberBags), (true, .memberBags), (false, .addMember bag3 true), (false, .saveMembers)]

/-- The calls of the first that go on while the second adds its bag. -/
def meanwhile : List (Bool × Op) := [(false, .addLookup py!"data/z" py!"b3"), (false, .saveLookup)]

end Sample

/-- C122: that all objects that add a bag and save find it in the list afterwards is false: two objects read the list, each adds
a bag and saves; all calls return normally, and the bag of the first is gone. -/
theorem C122_negation_merge :
    ∃ (tree : Tree) (info : Info) (m m' : MemberInfo), Opened tree info ∧
      (∀ k, ∀ c, ([(false, Op.memberBags), (true, .memberBags), (false, .addMember m true), (true, .addMember m' true), (false, .saveMembers),
          (true, .saveMembers)] : List (Bool × Op))[k]? = some c →
        (((OpenBags.start tree info).calls (([(false, Op.memberBags), (true, .memberBags), (false, .addMember m true), (true, .addMember m' true),
          (false, .saveMembers), (true, .saveMembers)] : List (Bool × Op)).take k)).call c.1 c.2).1 = .ok ()) ∧
      ∃ ms, ((HeadBag.open ((OpenBags.start tree info).calls ([(false, Op.memberBags), (true, .memberBags), (false, .addMember m true),
          (true, .addMember m' true), (false, .saveMembers), (true, .saveMembers)] : List (Bool × Op))).disk info).memberBags).1 = .ok ms ∧
        m' ∈ ms ∧ m ∉ ms := by
  refine ⟨Sample.tree, Sample.info, Sample.bag3, Sample.bag4, Sample.opened, ?_,
    [⟨py!"b1", some py!"ark:/1", none, []⟩, ⟨py!"b2", none, none, []⟩, Sample.bag4], by decide +kernel, by decide, by decide⟩
  intro k c hk
  match k with
  | 0 => cases hk; decide +kernel
  | 1 => cases hk; decide +kernel
  | 2 => cases hk; decide +kernel
  | 3 => cases hk; decide +kernel
  | 4 => cases hk; decide +kernel
  | 5 => cases hk; decide +kernel
  | n + 6 => simp at hk

namespace Sample

theorem clean_member {n : Str} (h : n ≠ [] ∧ '\t' ∉ n ∧ (∀ c ∈ n, isBreak c = false) ∧ strip n = n) (hb : n.head? ≠ some bom) :
    CleanMember ⟨n, none, none, []⟩ ∧ (⟨n, none, none, []⟩ : MemberInfo).name.head? ≠ some bom :=
  ⟨⟨clean_of_check h, (fun u h => by cases h), (fun u h => by cases h), by simp, rfl⟩, hb⟩

theorem sample_members {m : MemberInfo} (h : m ∈ ([⟨py!"b1", some py!"ark:/1", none, []⟩, ⟨py!"b2", none, none, []⟩, bag3, bag4] : List MemberInfo)) :
    CleanMember m ∧ m.name.head? ≠ some bom := by
  simp only [List.mem_cons, List.not_mem_nil, or_false] at h
  rcases h with rfl | rfl | rfl | rfl
  · exact ⟨⟨clean_of_check (by decide), fun u h => by injection h with h; subst h; exact clean_of_check (by decide),
      (fun u h => by cases h), by simp, rfl⟩, by decide⟩
  all_goals exact clean_member (by decide) (by decide)

end Sample

/-- `C122_members`: the second saves, and then the first saves something else. -/
example : ((HeadBag.open ((((OpenBags.start Sample.tree Sample.info).calls Sample.bothAdd).call true .saveMembers).2.calls
    Sample.meanwhile).disk Sample.info).memberBags).1 =
    .ok [⟨py!"b1", some py!"ark:/1", none, []⟩, ⟨py!"b2", none, none, []⟩, Sample.bag4] :=
  C122_members Sample.tree Sample.info Sample.metadata Sample.bothAdd Sample.meanwhile true _ (by decide +kernel) (by decide +kernel)
    (fun c hc => by
      simp only [Sample.meanwhile, List.mem_cons, List.not_mem_nil, or_false] at hc
      rcases hc with rfl | rfl <;> simp)
    (fun m hm => Sample.sample_members (by
      simp only [List.mem_cons, List.not_mem_nil, or_false] at hm ⊢
      rcases hm with h | h | h <;> simp [h]))

/-- `C122_add_member`: the second reads again, and keeps the bag of the first, who saves a lookup meanwhile. -/
example : ((HeadBag.open ((((OpenBags.start Sample.tree Sample.info).calls (Sample.firstAdds ++ (true, .reloadMembers) :: Sample.meanwhile ++
    (true, .addMember Sample.bag4 true) :: [])).call true .saveMembers).2.calls Sample.meanwhile).disk Sample.info).memberBags).1 =
    .ok [⟨py!"b1", some py!"ark:/1", none, []⟩, ⟨py!"b2", none, none, []⟩, Sample.bag3, Sample.bag4] :=
  C122_add_member Sample.tree Sample.info Sample.metadata Sample.firstAdds Sample.meanwhile [] Sample.meanwhile true Sample.bag4 true
    [⟨py!"b1", some py!"ark:/1", none, []⟩, ⟨py!"b2", none, none, []⟩, Sample.bag3] (by decide +kernel) (by decide +kernel)
    (fun c hc => by
      simp only [Sample.meanwhile, List.mem_cons, List.not_mem_nil, or_false] at hc
      rcases hc with rfl | rfl <;> simp)
    (fun c hc => by cases hc)
    (fun c hc => by
      simp only [Sample.meanwhile, List.mem_cons, List.not_mem_nil, or_false] at hc
      rcases hc with rfl | rfl <;> simp)
    (by decide +kernel) (by decide +kernel)
    (fun m hm => Sample.sample_members (by
      simp only [List.mem_cons, List.not_mem_nil, or_false] at hm ⊢
      rcases hm with h | h | h | h <;> simp [h]))

/-- `C122_isolated`: the second has its lists in memory, and does not see the bag of the first. -/
example : ((((OpenBags.start Sample.tree Sample.info).calls [(true, .memberBags), (true, .lookupFile []), (true, .deletedPaths)]).calls
    (Sample.firstAdds ++ Sample.meanwhile)).here true).memberBags.1 = .ok [⟨py!"b1", some py!"ark:/1", none, []⟩, ⟨py!"b2", none, none, []⟩] :=
  (C122_isolated _ true ⟨by decide +kernel, by decide +kernel, by decide +kernel⟩ (Sample.firstAdds ++ Sample.meanwhile)
    (fun op hop => by
      have e : callsOf (Sample.firstAdds ++ Sample.meanwhile) true = [Op.memberBags] := rfl
      rw [e, List.mem_singleton] at hop
      rw [hop]
      rfl)).1.trans (by decide +kernel)

namespace Sample

/-- The first adds a lookup and saves. -/
def firstLooks : List (Bool × Op) :=
  [(true, .lookupFile py!"data/x"), (false, .addLookup py!"data/z" py!"b3"), (false, .saveLookup)]

/-- What is in the lookup file then. -/
theorem firstLooks_view : lookupView (HeadBag.open ((OpenBags.start tree info : OpenBags Bool).calls firstLooks).disk info) =
    .ok [(py!"data/x", py!"b2"), (py!"data/y", py!"b2"), (py!"data/z", py!"b3")] := by decide +kernel

end Sample

/-- `C122_add_lookup`: the second reads again, and keeps the lookup of the first. -/
example : ((HeadBag.open ((((OpenBags.start Sample.tree Sample.info).calls (Sample.firstLooks ++ (true, .reloadLookup py!"data/x") ::
    [(false, .saveLookup)] ++ (true, .addLookup py!"data/v" py!"b1") :: [])).call true .saveLookup).2.calls
    [(false, .saveMembers)]).disk Sample.info).lookupFile py!"data/z").1 = .ok (some py!"b3") := by
  refine (C122_add_lookup Sample.tree Sample.info Sample.metadata Sample.firstLooks [(false, .saveLookup)] [] [(false, .saveMembers)] true
    py!"data/x" py!"data/v" py!"b1" (by decide +kernel) ⟨none, by decide +kernel⟩ ?_ (fun c hc => by cases hc) ?_ (by decide) (by decide)
    (by decide +kernel) ?_ ⟨⟨clean_of_check (by decide), by decide⟩, clean_of_check (by decide)⟩ _).trans (by decide +kernel)
  · intro c hc
    rw [List.mem_singleton] at hc
    rw [hc]
    decide
  · intro c hc
    rw [List.mem_singleton] at hc
    rw [hc]
    simp
  · intro p b hpb
    rw [(lookupFile_spec _ _).1, Sample.firstLooks_view] at hpb
    have hm := mem_of_dget (Except.ok.inj hpb)
    simp only [List.mem_cons, Prod.mk.injEq, List.not_mem_nil, or_false] at hm
    rcases hm with ⟨rfl, rfl⟩ | ⟨rfl, rfl⟩ | ⟨rfl, rfl⟩ <;>
      exact ⟨⟨clean_of_check (by decide), by decide⟩, clean_of_check (by decide)⟩

/-- `C122_lookup`: the same, right after the first has saved. -/
example : ((HeadBag.open ((((OpenBags.start Sample.tree Sample.info).calls [(true, .lookupFile py!"data/x"), (false, .addLookup py!"data/z" py!"b3")]).call
    false .saveLookup).2.calls [(true, .removeLookup py!"data/z")]).disk Sample.info).lookupFile py!"data/z").1 = .ok (some py!"b3") := by
  refine ((C122_lookup Sample.tree Sample.info Sample.metadata [(true, .lookupFile py!"data/x"), (false, .addLookup py!"data/z" py!"b3")]
    [(true, .removeLookup py!"data/z")] false (by decide +kernel) ?_ ?_).1 _).trans (by decide +kernel)
  · intro c hc
    rw [List.mem_singleton] at hc
    rw [hc]
    simp
  · intro p b hpb
    have e : lookupView (((OpenBags.start Sample.tree Sample.info : OpenBags Bool).calls [(true, .lookupFile py!"data/x"),
      (false, .addLookup py!"data/z" py!"b3")]).here false) = .ok [(py!"data/x", py!"b2"), (py!"data/y", py!"b2"), (py!"data/z", py!"b3")] := by
      decide +kernel
    rw [(lookupFile_spec _ _).1, e] at hpb
    have hm := mem_of_dget (Except.ok.inj hpb)
    simp only [List.mem_cons, Prod.mk.injEq, List.not_mem_nil, or_false] at hm
    rcases hm with ⟨rfl, rfl⟩ | ⟨rfl, rfl⟩ | ⟨rfl, rfl⟩ <;>
      exact ⟨⟨clean_of_check (by decide), by decide⟩, clean_of_check (by decide)⟩

/-- `C122_deleted`: one marks a file as deleted and saves; the other marks another, and does not save. -/
example : ∃ ps', ((HeadBag.open ((((OpenBags.start Sample.tree Sample.info).calls [(false, .deletedPaths), (false, .setDeleted py!"data/x")]).call
    false (.saveDeleted id)).2.calls [(true, .setDeleted py!"data/y")]).disk Sample.info).deletedPaths).1 = .ok ps' ∧
    ps'.Perm [py!"data/old", py!"data/x"] := by
  refine C122_deleted Sample.tree Sample.info [(false, .deletedPaths), (false, .setDeleted py!"data/x")]
    [(true, .setDeleted py!"data/y")] false id (fun _ => .refl _) [py!"data/old", py!"data/x"] (by decide +kernel) (by decide +kernel) ?_ ?_
  · intro c hc
    rw [List.mem_singleton] at hc
    rw [hc]
    simp
  · intro p hp
    simp only [List.mem_cons, List.not_mem_nil, or_false] at hp
    rcases hp with rfl | rfl <;> exact ⟨clean_of_check (by decide), by decide⟩

end Verif
