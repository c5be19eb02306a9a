import Verif.Props.HeadBag
import Verif.Lemmas.Walk
import Verif.Model.UpdateMember
/-!
# Properties of `update_for_member`
-/

namespace Verif

open Spec

/-! ## Which files are registered -/

theorem isdir_good {t : Tree} (h : WfTree t) {d : Path} (hd : t.isdir d = true) (hne : d ≠ []) : GoodPath d := by
  rcases isdir_iff.1 hd with e | e
  · exact absurd e hne
  · exact h.good d (mem_dkeys_iff.2 ⟨_, e⟩)

theorem isfile_good {t : Tree} (h : WfTree t) {d : Path} (hd : t.isfile d = true) : GoodPath d := by
  obtain ⟨c, e⟩ := isfile_iff.1 hd
  exact h.good d (mem_dkeys_iff.2 ⟨_, e⟩)

theorem isfile_not_isdir {t : Tree} {p : Path} (h : t.isfile p = true) (hne : p ≠ []) : t.isdir p = false := by
  obtain ⟨c, e⟩ := isfile_iff.1 h
  simp [Tree.isdir, hne, e]

theorem prefix_ne_nil {i d : Path} (hi : i ≠ []) (h : i <+: d) : d ≠ [] := by
  rintro rfl
  exact hi (List.prefix_nil.1 h)

theorem mem_filesFor {t : Tree} (h : WfTree t) (ro : Bool) (incl : List Path) (hg : ∀ i ∈ incl, GoodPath i)
    (has : Str → Bool) (p : Str) :
    p ∈ filesFor ro t (incl.map joinPath) has ↔
      ∃ i ∈ incl, has (joinPath i) = false ∧ ∃ q, t.isfile q = true ∧ p = joinPath q ∧
        (q = i ∨ (i <+: q ∧ has (joinPath q) = false ∧ has (joinPath q.dropLast) = false ∧
          (ro = false → ∀ a, i <+: a → a <+: q → a ≠ q → has (joinPath a) = false))) := by
  unfold filesFor
  simp only [List.flatMap_map, List.mem_flatMap]
  constructor
  · rintro ⟨i, hi, hp⟩
    have hgi := hg i hi
    refine ⟨i, hi, ?_⟩
    rw [comps_joinPath hgi] at hp
    by_cases hhas : has (joinPath i) = true
    · simp [hhas] at hp
    · have hhf : has (joinPath i) = false := by simpa using hhas
      refine ⟨hhf, ?_⟩
      simp only [hhf, Bool.false_eq_true, if_false] at hp
      by_cases hf : t.isfile i = true
      · simp only [hf, if_true, List.mem_singleton] at hp
        exact ⟨i, hf, hp, .inl rfl⟩
      · simp only [hf, Bool.false_eq_true, if_false] at hp
        by_cases hd : t.isdir i = true
        · simp only [hd, if_true, List.mem_flatMap] at hp
          obtain ⟨d, hdw, hp⟩ := hp
          obtain ⟨hdd, hid, hpr⟩ := (mem_walkDirs h hd).1 hdw
          have hdne : d ≠ [] := prefix_ne_nil hgi.1 hid
          have hgd := isdir_good h hdd hdne
          rw [dirStr_norm ro hgi hgd hid] at hp
          by_cases hsk : has (joinPath d) = true
          · simp [hsk, joinPath_ne_nil hgd] at hp
          · have hskf : has (joinPath d) = false := by simpa using hsk
            simp only [hskf, Bool.and_false, Bool.false_eq_true, if_false, List.mem_filterMap] at hp
            obtain ⟨f, hff, hp⟩ := hp
            split at hp
            · cases hp
            · rename_i hnp
              injection hp with hp
              rw [← joinPath_snoc hdne] at hp hnp
              refine ⟨d ++ [f], (mem_filesOf h).1 hff, hp.symm, .inr ⟨?_, by simpa using hnp, ?_, ?_⟩⟩
              · exact hid.trans (List.prefix_append _ _)
              · simpa using hskf
              · intro hro a hia haq hane
                have had : a <+: d := by
                  obtain ⟨r, hr⟩ := haq
                  rcases List.eq_nil_or_concat r with rfl | ⟨r', x, rfl⟩
                  · simp at hr; exact absurd hr hane
                  · rw [List.concat_eq_append, ← List.append_assoc] at hr
                    have := List.append_inj' hr rfl
                    exact ⟨r', this.1⟩
                by_cases e : a = d
                · subst e; exact hskf
                · have := hpr a hia had e
                  have hga : GoodPath a := goodPath_prefix hgd had (prefix_ne_nil hgi.1 hia)
                  rw [dirStr_norm ro hgi hga hia] at this
                  simpa [hro, joinPath_ne_nil hga] using this
        · simp [hd] at hp
  · rintro ⟨i, hi, hhf, q, hq, rfl, hcase⟩
    have hgi := hg i hi
    have hgq := isfile_good h hq
    refine ⟨i, hi, ?_⟩
    rw [comps_joinPath hgi]
    simp only [hhf, Bool.false_eq_true, if_false]
    by_cases hqi : q = i
    · subst hqi
      simp [hq]
    · rcases hcase with e | ⟨hpre, hnq, hnd, hpr⟩
      · exact absurd e hqi
      · have hqk : q ∈ dkeys t := by
          obtain ⟨c, e⟩ := isfile_iff.1 hq
          exact mem_dkeys_iff.2 ⟨_, e⟩
        have hid := wf_prefix_dir h hqk hpre (fun e => hqi e.symm)
        have hif : t.isfile i = false := by
          cases hf : t.isfile i with
          | false => rfl
          | true => rw [isfile_not_isdir hf hgi.1] at hid; cases hid
        simp only [hif, Bool.false_eq_true, if_false, hid, if_true, List.mem_flatMap]
        obtain ⟨d, f, rfl⟩ := exists_concat hgq.1
        have hid' : i <+: d := by
          obtain ⟨r, hr⟩ := hpre
          rcases List.eq_nil_or_concat r with rfl | ⟨r', x, rfl⟩
          · simp at hr; exact absurd hr.symm hqi
          · rw [List.concat_eq_append, ← List.append_assoc] at hr
            exact ⟨r', (List.append_inj' hr rfl).1⟩
        have hdne : d ≠ [] := prefix_ne_nil hgi.1 hid'
        have hgd : GoodPath d := goodPath_prefix hgq (List.prefix_append _ _) hdne
        have hdd : t.isdir d = true := by
          have := h.parent _ hqk
          rwa [List.dropLast_concat] at this
        refine ⟨d, (mem_walkDirs h hid).2 ⟨hdd, hid', ?_⟩, ?_⟩
        · intro a hia had hne
          cases ro with
          | true => rfl
          | false =>
            have hga : GoodPath a := goodPath_prefix hgd had (prefix_ne_nil hgi.1 hia)
            rw [dirStr_norm false hgi hga hia]
            have hh := hpr rfl a hia (had.trans (List.prefix_append _ _)) (by
              rintro rfl
              have := had.length_le
              simp at this
              omega)
            simp [hh]
        · rw [dirStr_norm ro hgi hgd hid']
          rw [List.dropLast_concat] at hnd
          simp only [hnd, Bool.and_false, Bool.false_eq_true, if_false, List.mem_filterMap]
          refine ⟨f, (mem_filesOf h).2 hq, ?_⟩
          rw [← joinPath_snoc hdne, hnq]
          simp

/-! ## Registering -/

theorem registerAll_spec (fs : List Str) (s : HeadBag) (bag : Str) (hb : bag ≠ []) (hf : ∀ f ∈ fs, f ≠ [])
    (d : List (Str × Str)) (hv : lookupView s = .ok d) :
    (s.registerAll bag fs).1 = .ok () ∧
    (∃ d', lookupView (s.registerAll bag fs).2 = .ok d' ∧
      ∀ q, dget d' q = if q ∈ fs then some bag else dget d q) ∧
    (s.registerAll bag fs).2.tree = s.tree ∧ (s.registerAll bag fs).2.info = s.info ∧
    (s.registerAll bag fs).2.members = s.members ∧ (s.registerAll bag fs).2.deleted = s.deleted := by
  induction fs generalizing s d with
  | nil => exact ⟨rfl, ⟨d, hv, by simp⟩, rfl, rfl, rfl, rfl⟩
  | cons f fs ih =>
    obtain ⟨g1, g2, g3, g4, g5, g6, g7⟩ := addFileLookup_spec s f bag (hf f (by simp)) hb d hv
    simp only [HeadBag.registerAll]
    cases hr : s.addFileLookup f bag with
    | mk r s1 =>
      rw [hr] at g1 g2 g4 g5 g6 g7
      simp only at g1 g2 g4 g5 g6 g7
      subst g1
      simp only
      obtain ⟨k1, ⟨d', k2, k3⟩, k4, k5, k6, k7⟩ := ih s1 (fun f h => hf f (by simp [h])) _ g2
      refine ⟨k1, ⟨d', k2, fun q => ?_⟩, k4.trans g4, k5.trans g5, k6.trans g6, k7.trans g7⟩
      rw [k3, dget_dset]
      by_cases hq : q ∈ fs
      · simp [hq]
      · by_cases e : f = q
        · subst e; simp
        · have e' : q ≠ f := fun h => e h.symm
          simp [hq, e, e']

/-- The effect of `update_for_member` in terms of the files chosen. -/
theorem updateForMember_spec (s : HeadBag) (hi : Inv s) (ro : Bool) (member : Tree) (name : Str) (hn : name ≠ [])
    (incl excl : Arg) (mk : Bool)
    (hf : ∀ f ∈ filesFor ro member (includeList incl excl) excl.has, f ≠ []) :
    (s.updateForMember ro member name incl excl mk).1 = .ok () ∧
    (∀ p f, (s.lookupFile p).1 = .ok f →
      ((s.updateForMember ro member name incl excl mk).2.lookupFile p).1 = .ok (
        if p ∈ filesFor ro member (includeList incl excl) excl.has then some name
        else if mk ∧ f = some name then none else f)) ∧
    (∀ ms, (s.memberBags).1 = .ok ms →
      ((s.updateForMember ro member name incl excl mk).2.memberBags).1 =
        .ok (if mk then ms.filter (fun m => m.name ≠ name) ++ [⟨name, none, none, []⟩] else ms)) ∧
    (s.updateForMember ro member name incl excl mk).2.tree = s.tree := by
  obtain ⟨d, hd, ht⟩ := hi.lookup
  obtain ⟨ms, hms⟩ := hi.members
  have hload : ∃ s1 d1, (if mk then s.addMemberBag ⟨name, none, none, []⟩ else ((.ok (), s) : Res Unit)) = (.ok (), s1) ∧
      lookupView s1 = .ok d1 ∧ (∀ p, dget d1 p = if mk ∧ dget d p = some name then none else dget d p) ∧
      membersView s1 = .ok (if mk then ms.filter (fun m => m.name ≠ name) ++ [⟨name, none, none, []⟩] else ms) ∧
      s1.tree = s.tree := by
    cases mk with
    | false => exact ⟨s, d, rfl, hd, by simp, by simpa using hms, rfl⟩
    | true =>
      obtain ⟨g1, g2, g3, g4, g5, g6⟩ := addMemberBag_spec s ⟨name, none, none, []⟩ true ms d hms hd ht.nodup ht.nonempty
      cases hr : s.addMemberBag ⟨name, none, none, []⟩ with
      | mk r s1 =>
        rw [hr] at g1 g2 g3 g4 g5 g6
        simp only at g1 g2 g3 g4 g5 g6
        subst g1
        refine ⟨s1, _, by simp, g3, fun p => ?_, ?_, g4⟩
        · simp only [if_true, true_and]; exact dget_filter_snd ht.nodup _ _
        · simp [membersView, g2]
  obtain ⟨s1, d1, e1, h1, h2, h3, h4⟩ := hload
  obtain ⟨k1, ⟨d', k2, k3⟩, k4, k5, k6, k7⟩ :=
    registerAll_spec (filesFor ro member (includeList incl excl) excl.has) s1 name hn hf d1 h1
  unfold HeadBag.updateForMember
  simp only [e1]
  refine ⟨k1, fun p f hpf => ?_, fun ms' hms' => ?_, k4.trans h4⟩
  · rw [(lookupFile_spec _ _).1, hd] at hpf
    rw [(lookupFile_spec _ _).1, k2]
    simp only [Except.map, Except.ok.injEq] at hpf ⊢
    rw [k3, h2, hpf]
  · rw [memberBags_fst, hms] at hms'
    injection hms' with hms'
    subst hms'
    rw [memberBags_fst]
    rw [← h3]
    simp only [membersView, k4, k5, k6]

theorem good_data : GoodPath [py!"data"] :=
  ⟨by simp, fun c hc => by
    simp only [List.mem_singleton] at hc
    subst hc
    exact ⟨by simp, by decide, by decide, by decide⟩⟩

/-! ## C18 -/

/-- C18: `update_for_member(bag)` without filters maps exactly the files below
`data/` of the member bag to that bag, lists the bag last among the members (once),
drops the bag's other old entries and leaves all other lookups unchanged; this holds
for local and read-only member bags, after any history. -/
theorem C18_update_for_member (tree : Tree) (info : Info) (ops : List Op) (s : HeadBag) (o : Opened tree info)
    (h : runOk ops (HeadBag.open tree info) = some s) (readonly : Bool) (member : Tree) (hw : WfTree member)
    (name : Str) (hn : name ≠ []) :
    let s' := (s.updateForMember readonly member name).2
    (s.updateForMember readonly member name).1 = .ok () ∧
    (∀ q : Path, member.isfile (py!"data" :: q) = true →
      (s'.lookupFile (joinPath (py!"data" :: q))).1 = .ok (some name)) ∧
    (∀ p f, (∀ q : Path, member.isfile (py!"data" :: q) = true → p ≠ joinPath (py!"data" :: q)) →
      (s.lookupFile p).1 = .ok f → (s'.lookupFile p).1 = .ok (if f = some name then none else f)) ∧
    (∀ ms, (s.memberBags).1 = .ok ms →
      (s'.memberBags).1 = .ok (ms.filter (fun m => m.name ≠ name) ++ [⟨name, none, none, []⟩])) := by
  intro s'
  have hmem : ∀ p, p ∈ filesFor readonly member (includeList .none .none) Arg.none.has ↔
      ∃ q : Path, member.isfile (py!"data" :: q) = true ∧ p = joinPath (py!"data" :: q) := by
    intro p
    have := mem_filesFor hw readonly [[py!"data"]] (by simpa using good_data) Arg.none.has p
    rw [show includeList .none .none = [[py!"data"]].map joinPath from rfl, this]
    simp only [List.mem_singleton, exists_eq_left, Arg.has]
    constructor
    · rintro ⟨_, q, hq, rfl, hc⟩
      rcases hc with rfl | ⟨⟨r, rfl⟩, _⟩
      · exact ⟨[], hq, rfl⟩
      · exact ⟨r, hq, rfl⟩
    · rintro ⟨q, hq, rfl⟩
      exact ⟨trivial, _, hq, rfl, .inr ⟨⟨q, rfl⟩, trivial, trivial, fun _ _ _ _ _ => trivial⟩⟩
  have hf : ∀ f ∈ filesFor readonly member (includeList .none .none) Arg.none.has, f ≠ [] := by
    intro f hfm
    obtain ⟨q, hq, rfl⟩ := (hmem f).1 hfm
    exact joinPath_ne_nil (isfile_good hw hq)
  have hi := inv_reached o h
  obtain ⟨g1, g2, g3, _⟩ := updateForMember_spec s hi readonly member name hn .none .none true hf
  refine ⟨g1, fun q hq => ?_, fun p f hp hpf => ?_, fun ms hms => ?_⟩
  · obtain ⟨d, hd, _⟩ := hi.lookup
    have hex : ∃ f, (s.lookupFile (joinPath (py!"data" :: q))).1 = .ok f := by
      rw [(lookupFile_spec _ _).1, hd]; exact ⟨_, rfl⟩
    obtain ⟨f, hpf⟩ := hex
    rw [g2 _ f hpf, if_pos ((hmem _).2 ⟨q, hq, rfl⟩)]
  · rw [g2 p f hpf, if_neg (fun hm => by obtain ⟨q, hq, e⟩ := (hmem p).1 hm; exact hp q hq e)]
    simp
  · simpa using g3 ms hms

namespace Sample

/-- A member bag with a nested payload and a tag file outside `data/`. -/
def member : Tree :=
  [([py!"bagit.txt"], .file py!"v"), ([py!"data"], .dir), ([py!"data", py!"a"], .file py!"1"),
   ([py!"data", py!"s"], .dir), ([py!"data", py!"s", py!"b"], .file py!"2"),
   ([py!"data", py!"s", py!"t"], .dir), ([py!"data", py!"s", py!"t", py!"c"], .file py!"3")]

theorem goodName_of_check {c : Str} (h : (c ≠ [] && !('/' ∈ c) && c ≠ ['.'] && c ≠ ['.', '.']) = true) :
    GoodName c := by
  simp at h
  exact ⟨h.1.1.1, h.1.1.2, h.1.2, h.2⟩

/-- Decidable form of `WfTree`. -/
def wfCheck (t : Tree) : Bool :=
  decide (dkeys t).Nodup && (dkeys t).all (fun p => p ≠ [] &&
    p.all (fun c => c ≠ [] && !('/' ∈ c) && c ≠ ['.'] && c ≠ ['.', '.']) && t.isdir p.dropLast)

theorem wf_of_check {t : Tree} (h : wfCheck t = true) : WfTree t := by
  unfold wfCheck at h
  rw [Bool.and_eq_true, List.all_eq_true] at h
  refine ⟨by simpa using h.1, fun p hp => ?_, fun p hp => ?_⟩
  · have := h.2 p hp
    rw [Bool.and_eq_true, Bool.and_eq_true, List.all_eq_true] at this
    exact ⟨by simpa using this.1.1, fun c hc => goodName_of_check (this.1.2 c hc)⟩
  · have := h.2 p hp
    rw [Bool.and_eq_true] at this
    exact this.2

theorem wf_member : WfTree member := wf_of_check (by decide)

end Sample

example : (((HeadBag.open Sample.tree Sample.info).updateForMember false Sample.member py!"b2").2.lookupFile
    py!"data/s/t/c").1 = .ok (some py!"b2") ∧
  (((HeadBag.open Sample.tree Sample.info).updateForMember false Sample.member py!"b2").2.lookupFile
    py!"data/y").1 = .ok none := by decide

/-! ## C19 -/

/-- The files asked for: at or below an included path, and neither excluded nor
below an excluded directory. -/
def Spec.Selected (member : Tree) (incl excl : List Path) (p : Str) : Prop :=
  ∃ q : Path, member.isfile q = true ∧ p = joinPath q ∧ (∃ i ∈ incl, i <+: q) ∧ ∀ e ∈ excl, ¬ e <+: q

theorem list_has_iff {excl : List Path} (he : ∀ e ∈ excl, GoodPath e) {q : Path} (hq : GoodPath q) :
    (Arg.list (excl.map joinPath)).has (joinPath q) = true ↔ q ∈ excl := by
  simp only [Arg.has, decide_eq_true_eq, List.mem_map]
  constructor
  · rintro ⟨e, hee, hj⟩
    rw [← joinPath_inj (he e hee) hq hj]; exact hee
  · exact fun h => ⟨q, h, rfl⟩

/-- C19: for a local member bag, `update_for_member` with lists of included and excluded
paths registers exactly the selected files, provided no included path lies below an
excluded directory (there the documentation gives precedence to `include`). -/
theorem C19_local (tree : Tree) (info : Info) (ops : List Op) (s : HeadBag) (o : Opened tree info)
    (h : runOk ops (HeadBag.open tree info) = some s) (member : Tree) (hw : WfTree member)
    (name : Str) (hn : name ≠ []) (incl excl : List Path)
    (hgi : ∀ i ∈ incl, GoodPath i) (hge : ∀ e ∈ excl, GoodPath e)
    (hov : ∀ i ∈ incl, ∀ e ∈ excl, e <+: i → e = i) (makeMember : Bool) :
    let r := s.updateForMember false member name (.list (incl.map joinPath)) (.list (excl.map joinPath)) makeMember
    r.1 = .ok () ∧
    (∀ p, Selected member incl excl p → (r.2.lookupFile p).1 = .ok (some name)) ∧
    (∀ p f, ¬ Selected member incl excl p → (s.lookupFile p).1 = .ok f →
      (r.2.lookupFile p).1 = .ok (if makeMember ∧ f = some name then none else f)) := by
  intro r
  have hmem : ∀ p, p ∈ filesFor false member (includeList (.list (incl.map joinPath)) (.list (excl.map joinPath)))
      (Arg.list (excl.map joinPath)).has ↔ Selected member incl excl p := by
    intro p
    rw [show includeList (.list (incl.map joinPath)) (.list (excl.map joinPath)) = incl.map joinPath from rfl,
      mem_filesFor hw false incl hgi]
    have hasf : ∀ {q : Path}, GoodPath q → ((Arg.list (excl.map joinPath)).has (joinPath q) = false ↔ q ∉ excl) := by
      intro q hq
      rw [← list_has_iff hge hq]; simp
    constructor
    · rintro ⟨i, hi, hni, q, hq, rfl, hc⟩
      have hgq := isfile_good hw hq
      rw [hasf (hgi i hi)] at hni
      rcases hc with rfl | ⟨hpre, hnq, hnd, hpr⟩
      · exact ⟨q, hq, rfl, ⟨q, hi, List.prefix_refl _⟩, fun e he hp => hni (hov q hi e he hp ▸ he)⟩
      · refine ⟨q, hq, rfl, ⟨i, hi, hpre⟩, fun e he hp => ?_⟩
        rw [hasf hgq] at hnq
        -- compare e with i
        rcases List.prefix_or_prefix_of_prefix hp hpre with hei | hie
        · exact hni (hov i hi e he hei ▸ he)
        · by_cases e1 : e = q
          · exact hnq (e1 ▸ he)
          · have := hpr rfl e hie hp e1
            rw [hasf (hge e he)] at this
            exact this he
    · rintro ⟨q, hq, rfl, ⟨i, hi, hpre⟩, hex⟩
      have hgq := isfile_good hw hq
      refine ⟨i, hi, (hasf (hgi i hi)).2 (fun hin => hex i hin hpre), q, hq, rfl, ?_⟩
      by_cases e1 : q = i
      · exact .inl e1
      · right
        have hdl : i <+: q.dropLast := by
          obtain ⟨d, f, rfl⟩ := exists_concat hgq.1
          rw [List.dropLast_concat]
          obtain ⟨r, hr⟩ := hpre
          rcases List.eq_nil_or_concat r with rfl | ⟨r', x, rfl⟩
          · simp at hr; exact absurd hr.symm e1
          · rw [List.concat_eq_append, ← List.append_assoc] at hr
            exact ⟨r', (List.append_inj' hr rfl).1⟩
        have hgd : GoodPath q.dropLast :=
          goodPath_prefix hgq (List.dropLast_prefix _) (prefix_ne_nil (hgi i hi).1 hdl)
        refine ⟨hpre, (hasf hgq).2 (fun hin => hex q hin (List.prefix_refl _)),
          (hasf hgd).2 (fun hin => hex _ hin (List.dropLast_prefix _)), fun _ a hia haq _ => ?_⟩
        have hga : GoodPath a := goodPath_prefix hgq haq (prefix_ne_nil (hgi i hi).1 hia)
        exact (hasf hga).2 (fun hin => hex a hin haq)
  have hf : ∀ f ∈ filesFor false member (includeList (.list (incl.map joinPath)) (.list (excl.map joinPath)))
      (Arg.list (excl.map joinPath)).has, f ≠ [] := by
    intro f hfm
    obtain ⟨q, hq, rfl, _⟩ := (hmem f).1 hfm
    exact joinPath_ne_nil (isfile_good hw hq)
  have hi := inv_reached o h
  obtain ⟨g1, g2, g3, _⟩ := updateForMember_spec s hi false member name hn _ _ makeMember hf
  refine ⟨g1, fun p hp => ?_, fun p f hp hpf => ?_⟩
  · obtain ⟨d, hd, _⟩ := hi.lookup
    have hex : ∃ f, (s.lookupFile p).1 = .ok f := by
      rw [(lookupFile_spec _ _).1, hd]; exact ⟨_, rfl⟩
    obtain ⟨f, hpf⟩ := hex
    rw [g2 _ f hpf, if_pos ((hmem _).2 hp)]
  · rw [g2 p f hpf, if_neg (fun hm => hp ((hmem p).1 hm))]

example : Selected Sample.member [[py!"data"]] [[py!"data", py!"s"]] py!"data/a" :=
  ⟨[py!"data", py!"a"], by decide, by decide, ⟨[py!"data"], by simp, by decide⟩, by
    intro e he; simp at he; subst he; decide⟩

/-- C19 is false of the code for a single string: `exclude="data/s"` registers
nothing at all, instead of everything else below `data/`. -/
theorem C19_negation_string :
    ∃ s, (((HeadBag.open Sample.tree Sample.info).updateForMember false Sample.member py!"b9"
        .none (.str py!"data/s")) = (.ok (), s)) ∧
      (s.filesInMember py!"b9").1 = .ok [] ∧
      Selected Sample.member [[py!"data"]] [[py!"data", py!"s"]] py!"data/a" :=
  ⟨_, rfl, by decide, ⟨[py!"data", py!"a"], by decide, by decide, ⟨[py!"data"], by simp, by decide⟩, by
    intro e he; simp at he; subst he; decide⟩⟩

/-- C19 is false of the code for read-only member bags: excluding a directory does
not exclude the files in its subdirectories. -/
theorem C19_negation_readonly :
    ∃ s, (((HeadBag.open Sample.tree Sample.info).updateForMember true Sample.member py!"b9"
        .none (.list [py!"data/s"])) = (.ok (), s)) ∧
      (s.lookupFile py!"data/s/t/c").1 = .ok (some py!"b9") := ⟨_, rfl, by decide⟩

/-- C19 (partial) for read-only member bags: the selection is right if no excluded
path has directories below it, or none is excluded.  Missing: nested directories, where
the property fails (`C19_negation_readonly`). -/
theorem C19_readonly_partial (tree : Tree) (info : Info) (ops : List Op) (s : HeadBag) (o : Opened tree info)
    (h : runOk ops (HeadBag.open tree info) = some s) (member : Tree) (hw : WfTree member)
    (name : Str) (hn : name ≠ []) (incl excl : List Path)
    (hgi : ∀ i ∈ incl, GoodPath i) (hge : ∀ e ∈ excl, GoodPath e)
    (hov : ∀ i ∈ incl, ∀ e ∈ excl, e <+: i → e = i)
    (hleaf : ∀ e ∈ excl, ∀ d, member.isdir d = true → e <+: d → d = e) :
    let r := s.updateForMember true member name (.list (incl.map joinPath)) (.list (excl.map joinPath))
    r.1 = .ok () ∧
    ∀ p f, (s.lookupFile p).1 = .ok f →
      (Selected member incl excl p → (r.2.lookupFile p).1 = .ok (some name)) ∧
      (¬ Selected member incl excl p → (r.2.lookupFile p).1 = .ok (if f = some name then none else f)) := by
  intro r
  have hmem : ∀ p, p ∈ filesFor true member (includeList (.list (incl.map joinPath)) (.list (excl.map joinPath)))
      (Arg.list (excl.map joinPath)).has ↔ Selected member incl excl p := by
    intro p
    rw [show includeList (.list (incl.map joinPath)) (.list (excl.map joinPath)) = incl.map joinPath from rfl,
      mem_filesFor hw true incl hgi]
    have hasf : ∀ {q : Path}, GoodPath q → ((Arg.list (excl.map joinPath)).has (joinPath q) = false ↔ q ∉ excl) := by
      intro q hq
      rw [← list_has_iff hge hq]; simp
    constructor
    · rintro ⟨i, hi, hni, q, hq, rfl, hc⟩
      have hgq := isfile_good hw hq
      rw [hasf (hgi i hi)] at hni
      rcases hc with rfl | ⟨hpre, hnq, hnd, _⟩
      · exact ⟨q, hq, rfl, ⟨q, hi, List.prefix_refl _⟩, fun e he hp => hni (hov q hi e he hp ▸ he)⟩
      · refine ⟨q, hq, rfl, ⟨i, hi, hpre⟩, fun e he hp => ?_⟩
        rw [hasf hgq] at hnq
        by_cases e1 : e = q
        · exact hnq (e1 ▸ he)
        · have hqk : q ∈ dkeys member := by
            obtain ⟨c, e⟩ := isfile_iff.1 hq
            exact mem_dkeys_iff.2 ⟨_, e⟩
          obtain ⟨d, f, rfl⟩ := exists_concat hgq.1
          have hdd := hw.parent _ hqk
          rw [List.dropLast_concat] at hdd hnd
          have hed : e <+: d := by
            obtain ⟨r, hr⟩ := hp
            rcases List.eq_nil_or_concat r with rfl | ⟨r', x, rfl⟩
            · simp at hr; exact absurd hr e1
            · rw [List.concat_eq_append, ← List.append_assoc] at hr
              exact ⟨r', (List.append_inj' hr rfl).1⟩
          have := hleaf e he d hdd hed
          subst this
          rw [hasf (hge d he)] at hnd
          exact hnd he
    · rintro ⟨q, hq, rfl, ⟨i, hi, hpre⟩, hex⟩
      have hgq := isfile_good hw hq
      refine ⟨i, hi, (hasf (hgi i hi)).2 (fun hin => hex i hin hpre), q, hq, rfl, ?_⟩
      by_cases e1 : q = i
      · exact .inl e1
      · right
        have hdl : i <+: q.dropLast := by
          obtain ⟨d, f, rfl⟩ := exists_concat hgq.1
          rw [List.dropLast_concat]
          obtain ⟨r, hr⟩ := hpre
          rcases List.eq_nil_or_concat r with rfl | ⟨r', x, rfl⟩
          · simp at hr; exact absurd hr.symm e1
          · rw [List.concat_eq_append, ← List.append_assoc] at hr
            exact ⟨r', (List.append_inj' hr rfl).1⟩
        have hgd : GoodPath q.dropLast :=
          goodPath_prefix hgq (List.dropLast_prefix _) (prefix_ne_nil (hgi i hi).1 hdl)
        exact ⟨hpre, (hasf hgq).2 (fun hin => hex q hin (List.prefix_refl _)),
          (hasf hgd).2 (fun hin => hex _ hin (List.dropLast_prefix _)), fun h => by cases h⟩
  have hf : ∀ f ∈ filesFor true member (includeList (.list (incl.map joinPath)) (.list (excl.map joinPath)))
      (Arg.list (excl.map joinPath)).has, f ≠ [] := by
    intro f hfm
    obtain ⟨q, hq, rfl, _⟩ := (hmem f).1 hfm
    exact joinPath_ne_nil (isfile_good hw hq)
  have hi := inv_reached o h
  obtain ⟨g1, g2, g3, _⟩ := updateForMember_spec s hi true member name hn _ _ true hf
  refine ⟨g1, fun p f hpf => ⟨fun hp => ?_, fun hp => ?_⟩⟩
  · rw [g2 _ f hpf, if_pos ((hmem _).2 hp)]
  · rw [g2 p f hpf, if_neg (fun hm => hp ((hmem p).1 hm))]
    simp

end Verif
