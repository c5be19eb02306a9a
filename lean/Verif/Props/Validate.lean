import Verif.Lemmas.ValidateAll
/-!
# C60–C66: validation

The theorems speak of `validateHead hostOk b want`, the results of `HeadBagValidator(bag).validate(want)`,
and of `validateMember` likewise.  `hostOk` stands for what Python's URL parser says about the host part
of a URL; the theorems hold for any such function.
-/

namespace Verif
open Spec

/-! ## C60 -/

/-- C60: whatever checks are recorded, asking for some types of checks gives exactly the recorded ones of
these types. -/
theorem C60_applied (want mask : Nat) (checks : List Check) (r : Results)
    (h : recordAll { want := want } checks = .ok r) :
    (r.applied mask).Perm ((checks.map Check.recorded).filter (fun i => decide (Requested mask i.type))) := by
  by_cases hk : ∀ c ∈ checks, KnownType c.type
  · rw [recordAll_add _ _ hk] at h
    cases Except.ok.inj h
    exact applied_perm want _ mask
  · rw [recordAll_unknown _ _ (by simpa using hk)] at h; cases h

/-- C60: recording fails only for a type that is none. -/
theorem C60_records (want : Nat) (checks : List Check) :
    (∃ r, recordAll { want := want } checks = .ok r) ↔ ∀ c ∈ checks, KnownType c.type := by
  constructor
  · rintro ⟨r, h⟩
    by_cases hk : ∀ c ∈ checks, KnownType c.type
    · exact hk
    · rw [recordAll_unknown _ _ (by simpa using hk)] at h; cases h
  · intro hk; exact ⟨_, recordAll_add _ _ hk⟩

/-- C60: passed and failed checks are the applied ones, told apart by their outcome, and so are their
numbers. -/
theorem C60_partition (want mask : Nat) (checks : List Check) (r : Results)
    (h : recordAll { want := want } checks = .ok r) :
    (r.passed mask).Perm ((checks.map Check.recorded).filter
        (fun i => decide (Requested mask i.type) && i.passed)) ∧
    (r.failed mask).Perm ((checks.map Check.recorded).filter
        (fun i => decide (Requested mask i.type) && !i.passed)) ∧
    r.countPassed mask + r.countFailed mask = r.countApplied mask ∧
    r.countApplied mask = (checks.filter (fun c => decide (Requested mask c.type))).length := by
  have hp := C60_applied want mask checks r h
  refine ⟨?_, ?_, ?_, ?_⟩
  · have := hp.filter (fun i => i.passed)
    rw [List.filter_filter] at this
    refine this.trans (List.Perm.of_eq ?_)
    congr 1; funext i; exact Bool.and_comm ..
  · have := hp.filter (fun i => !i.passed)
    rw [List.filter_filter] at this
    refine this.trans (List.Perm.of_eq ?_)
    congr 1; funext i; exact Bool.and_comm ..
  · unfold Results.countPassed Results.countFailed Results.countApplied Results.passed Results.failed
    generalize r.applied mask = l
    induction l with
    | nil => rfl
    | cons i l ih =>
      cases hi : i.passed <;> simp [List.filter_cons, hi] <;> omega
  · unfold Results.countApplied
    rw [hp.length_eq, List.filter_map, List.length_map]
    rfl

/-- C60: the results are fine exactly if no check of a requested type failed. -/
theorem C60_ok (want : Nat) (checks : List Check) (r : Results) (h : recordAll { want := want } checks = .ok r) :
    r.ok = true ↔ ∀ c ∈ checks, Requested want c.type → c.passed = true := by
  have hk := (C60_records want checks).mp ⟨r, h⟩
  rw [recordAll_add _ _ hk] at h
  cases Except.ok.inj h
  rw [ok_iff (sorted_add (sorted_new want) _)]
  constructor
  · intro ho c hc hr
    exact ho c.recorded ((mem_applied_add _ _ _ _).mpr ⟨List.mem_map.mpr ⟨c, hc, rfl⟩,
      by show Requested ALL c.type; rcases hk c hc with e | e | e <;> rw [e] <;> decide⟩) hr
  · intro ho i hi hr
    obtain ⟨hm, _⟩ := (mem_applied_add _ _ _ _).mp hi
    obtain ⟨c, hc, rfl⟩ := List.mem_map.mp hm
    exact ho c hc hr

/-- A sequence of an error, a warning and a recommendation of which two failed meets the hypotheses. -/
example : recordAll { want := PROB } [⟨⟨py!"a", 1, true, []⟩, ERROR, true, []⟩,
      ⟨⟨py!"b", 1, true, [py!"x"]⟩, WARN, false, [py!"y"]⟩, ⟨⟨py!"c", 1, true, []⟩, REC, false, []⟩] =
    .ok { want := PROB, errors := [⟨py!"a", ERROR, true, []⟩], warnings := [⟨py!"b", WARN, false, [py!"x", py!"y"]⟩],
          recs := [⟨py!"c", REC, false, []⟩] } := rfl

/-! ## C61 -/

/-- Validators whose results are their own. -/
theorem ensure_iff (validate : Nat → Except PyErr Results) (want : Nat)
    (hv : ∀ r, validate want = .ok r → Sorted r ∧ r.want = want)
    (he : validate want ≠ .error .bagValidationError) :
    (ensureValid validate want = .error .bagValidationError ↔
      ∃ r, validate want = .ok r ∧ ∃ i ∈ r.applied ALL, Requested want i.type ∧ i.passed = false) ∧
    (ensureValid validate want = .ok () ↔
      ∃ r, validate want = .ok r ∧ ∀ i ∈ r.applied ALL, Requested want i.type → i.passed = true) ∧
    (isValid validate want = .ok true ↔ ensureValid validate want = .ok ()) := by
  unfold ensureValid isValid
  cases h : validate want with
  | error e =>
    rw [h] at he
    refine ⟨⟨fun hx => absurd (congrArg Except.error (Except.error.inj hx)) he, ?_⟩, ⟨nofun, ?_⟩, ⟨nofun, nofun⟩⟩
    · rintro ⟨r, hr, _⟩; cases hr
    · rintro ⟨r, hr, _⟩; cases hr
  | ok r =>
    obtain ⟨hs, hw⟩ := hv r h
    have hok := ok_iff hs
    rw [hw] at hok
    dsimp only
    cases hr : r.ok with
    | true =>
      rw [if_pos rfl]
      have hall := hok.mp hr
      refine ⟨⟨nofun, ?_⟩, ⟨fun _ => ⟨r, rfl, hall⟩, fun _ => rfl⟩, ⟨fun _ => rfl, fun _ => rfl⟩⟩
      rintro ⟨r', hr', i, hi, hreq, hp⟩
      cases Except.ok.inj hr'
      rw [hall i hi hreq] at hp; cases hp
    | false =>
      rw [if_neg (by decide)]
      have hnot : ¬ ∀ i ∈ r.applied ALL, Requested want i.type → i.passed = true := fun hc => by
        rw [hok.mpr hc] at hr; cases hr
      refine ⟨⟨fun _ => ⟨r, rfl, ?_⟩, fun _ => rfl⟩, ⟨nofun, ?_⟩,
        ⟨fun hx => (by cases Except.ok.inj hx), nofun⟩⟩
      · apply Classical.byContradiction
        intro hc
        apply hnot
        intro i hi hreq
        cases hp : i.passed with
        | true => rfl
        | false => exact absurd ⟨i, hi, hreq, hp⟩ hc
      · rintro ⟨r', hr', hall⟩
        cases Except.ok.inj hr'
        exact absurd hall hnot

/-- C61: `ensure_valid` of a head bag raises a validation error exactly if its validation reports a failed
check of a requested type, and returns exactly if it reports none; `is_valid` says the same. -/
theorem C61_head (hostOk : Str → Bool) (b : VBag) (want : Nat) :
    (ensureValid (fun w => validateHead hostOk b w none) want = .error .bagValidationError ↔
      ∃ r, validateHead hostOk b want none = .ok r ∧
        ∃ i ∈ r.applied ALL, Requested want i.type ∧ i.passed = false) ∧
    (ensureValid (fun w => validateHead hostOk b w none) want = .ok () ↔
      ∃ r, validateHead hostOk b want none = .ok r ∧
        ∀ i ∈ r.applied ALL, Requested want i.type → i.passed = true) ∧
    (isValid (fun w => validateHead hostOk b w none) want = .ok true ↔
      ensureValid (fun w => validateHead hostOk b w none) want = .ok ()) := by
  apply ensure_iff
  · intro r hr
    rcases validateHead_cases hostOk b want none with ⟨_, e, _, h⟩ | ⟨_, l, _, _, _, _, h⟩
    · rw [h] at hr; cases hr
    · rw [h] at hr
      cases Except.ok.inj hr
      exact ⟨sorted_add (sorted_new want) l, rfl⟩
  · intro hr
    rcases validateHead_cases hostOk b want none with ⟨_, e, hne, h⟩ | ⟨_, l, _, _, _, _, h⟩
    · rw [h] at hr; exact hne (Except.error.inj hr)
    · rw [h] at hr; cases hr

/-- What standalone member validation records. -/
theorem member_alone (b : VBag) (want : Nat) :
    (∃ e, e ≠ PyErr.bagValidationError ∧ validateMember b want none = .error e ∧ Requested want ERROR ∧
      ∃ e, b.verdict = .raises e ∧ e ≠ .bagValidationError) ∨
    validateMember b want none = .ok (({ want := want } : Results).add
      (bagIssues b want ++ [⟨py!"3-Version-for-member", REC, decide ((infoVersion b.info).getD [] ≠ []), []⟩])) := by
  rcases step_bag b want with ⟨hw, hx, e, hne, hc⟩ | ⟨_, ha⟩
  · left
    refine ⟨e, hne, ?_, hw, hx⟩
    unfold validateMember
    dsimp only
    rw [hc]
  · right
    unfold validateMember
    dsimp only [Option.getD_none]
    rw [ha]
    dsimp only
    rw [add_recommend]
    split <;> rfl

/-- C61: the same of a member bag. -/
theorem C61_member (b : VBag) (want : Nat) :
    (ensureValid (fun w => validateMember b w none) want = .error .bagValidationError ↔
      ∃ r, validateMember b want none = .ok r ∧
        ∃ i ∈ r.applied ALL, Requested want i.type ∧ i.passed = false) ∧
    (ensureValid (fun w => validateMember b w none) want = .ok () ↔
      ∃ r, validateMember b want none = .ok r ∧
        ∀ i ∈ r.applied ALL, Requested want i.type → i.passed = true) ∧
    (isValid (fun w => validateMember b w none) want = .ok true ↔
      ensureValid (fun w => validateMember b w none) want = .ok ()) := by
  apply ensure_iff
  · intro r hr
    rcases member_alone b want with ⟨e, _, h, _⟩ | h
    · rw [h] at hr; cases hr
    · rw [h] at hr
      cases Except.ok.inj hr
      exact ⟨sorted_add (sorted_new want) _, rfl⟩
  · intro hr
    rcases member_alone b want with ⟨e, hne, h, _⟩ | h
    · rw [h] at hr; exact hne (Except.error.inj hr)
    · rw [h] at hr; cases hr

/-! ## C62 -/

/-- C62 is false: used on its own, the validator of member bags finds nothing wrong with any bag that is
valid as a bag, whatever its name and metadata: the checks of these are made and dropped. -/
theorem C62_negation_dropped (b : VBag) (hv : b.verdict = .valid) :
    ∃ r, validateMember b PROB none = .ok r ∧ r.ok = true ∧
      ∀ i ∈ r.applied ALL, i.label = py!"2-Bag" ∨ i.label = py!"3-Version-for-member" := by
  rcases member_alone b PROB with ⟨_, _, _, _, e, he, _⟩ | h
  · rw [hv] at he; cases he
  · refine ⟨_, h, ?_, ?_⟩
    · rw [ok_iff (sorted_add (sorted_new PROB) _)]
      intro i hi hr
      obtain ⟨hm, _⟩ := (mem_applied_add _ _ _ _).mp hi
      rcases List.mem_append.mp hm with hm | hm
      · unfold bagIssues at hm
        rw [hv] at hm
        split at hm
        · rw [List.mem_singleton.mp hm]
        · cases hm
      · rw [List.mem_singleton.mp hm] at hr
        exact absurd hr (by show ¬ Requested PROB REC; decide)
    · intro i hi
      obtain ⟨hm, _⟩ := (mem_applied_add _ _ _ _).mp hi
      rcases List.mem_append.mp hm with hm | hm
      · exact Or.inl (List.mem_singleton.mp (labels_bag b PROB i hm).1)
      · rw [List.mem_singleton.mp hm]; exact Or.inr rfl

/-- Such a bag, with a tab in its name, marked as deprecating a head bag. -/
example : ∃ b : VBag, b.verdict = .valid ∧ '\t' ∈ b.name ∧ dmem b.info py!"Multibag-Head-Deprecates" = true ∧
    dmem b.info py!"Multibag-Head-Version" = false ∧
    isValid (fun w => validateMember b w none) PROB = .ok true :=
  ⟨⟨py!"a\tb", [], [(py!"Multibag-Version", .one py!"0.4"), (py!"Multibag-Head-Deprecates", .one py!"1")], .valid⟩,
    rfl, by decide, rfl, rfl, rfl⟩

/-- The warnings about the tag directories of a member bag. -/
theorem warnDirs_add (b : VBag) (ds : List Str) (out : Results) :
    warnDirs b ds out =
      out.add (ds.map (fun d => ⟨py!"2-Tag-Directory", WARN, !b.tree.exists (comps d), []⟩)) := by
  induction ds generalizing out with
  | nil => exact (add_nil out).symm
  | cons d ds ih => unfold warnDirs; rw [ih, warn_add, add_add]; rfl

/-- C62, for validation into results that the caller gives: a tab in the name, white space at its ends, and
in a bag that is no head bag a deprecation, a tag directory field or a tag directory, are reported, exactly if
they are there.  Missing is the standalone use, for which see `C62_negation_dropped`. -/
theorem C62_into_results_partial (b : VBag) (want w : Nat) (r : Results) (v : Str)
    (hver : infoVersion b.info = some v) (hv : v ≠ []) (hv2 : v ≠ py!"0.2")
    (h : validateMember b want (some { want := w }) = .ok r) :
    (Reports r ERROR py!"2.1a-name-TAB" false ↔ '\t' ∈ b.name) ∧
    (Reports r ERROR py!"2.1b-name-wsp" false ↔
      (∃ c s, b.name = c :: s ∧ isSpace c = true) ∨ (∃ c s, b.name = s ++ [c] ∧ isSpace c = true)) ∧
    (Reports r WARN py!"2-Head-Deprecates" false ↔ dmem b.info py!"Multibag-Head-Version" = false ∧
      dmem b.info py!"Multibag-Head-Deprecates" = true) ∧
    (Reports r WARN py!"2-Tag-Directory" false ↔ dmem b.info py!"Multibag-Head-Version" = false ∧
      (dmem b.info py!"Multibag-Tag-Directory" = true ∨ ∃ d ∈ tagDirs b.info, b.tree.exists (comps d) = true)) := by
  have hg : (infoVersion b.info).getD [] = v := by rw [hver]; rfl
  have heq : ∃ l, LabelsIn l [py!"2-Bag", py!"3-Version-for-member"] ∧ r = ({ want := w } : Results).add (l ++
      [⟨py!"2.1a-name-TAB", ERROR, !b.name.contains '\t', []⟩,
       ⟨py!"2.1b-name-wsp", ERROR, !(b.name.head?.any isSpace) && !(b.name.getLast?.any isSpace), []⟩] ++
      (if dmem b.info py!"Multibag-Head-Version" = true then [] else
        [⟨py!"2-Head-Deprecates", WARN, !dmem b.info py!"Multibag-Head-Deprecates", []⟩,
         ⟨py!"2-Tag-Directory", WARN, !dmem b.info py!"Multibag-Tag-Directory", []⟩] ++
        (tagDirs b.info).map (fun d => ⟨py!"2-Tag-Directory", WARN, !b.tree.exists (comps d), []⟩))) := by
    unfold validateMember at h
    dsimp only [Option.getD_some] at h
    rcases step_bag b want with ⟨_, _, e, _, hc⟩ | ⟨_, ha⟩
    · rw [hc] at h; cases h
    · rw [ha] at h
      dsimp only at h
      rw [hg, if_neg hv] at h
      refine ⟨bagIssues b want ++ [⟨py!"3-Version-for-member", REC, decide (v ≠ []), []⟩], ?_,
        (Except.ok.inj h).symm.trans ?_⟩
      · refine labels_append (fun i hi => ⟨?_, (labels_bag b want i hi).2⟩)
          (labels_cons (List.mem_cons_of_mem _ (List.mem_cons_self ..)) known_rec (labels_nil _))
        rw [List.mem_singleton.mp (labels_bag b want i hi).1]; exact List.mem_cons_self ..
      · unfold validateAsNonhead validateBagname isHeadInfo
        rw [if_neg hv2]
        cases dmem b.info py!"Multibag-Head-Version" with
        | true =>
          simp only [if_true, recommend_add, err_add, add_add]
          simp only [List.append_assoc, List.append_nil]; rfl
        | false =>
          simp only [Bool.false_eq_true, if_false, recommend_add, err_add, warn_add, warnDirs_add, add_add]
          simp only [List.append_assoc]; rfl
  obtain ⟨l, hl, rfl⟩ := heq
  have hrep : ∀ (t : Nat) (lab : Str) (m : List Issue), LabelsIn m [py!"2.1a-name-TAB", py!"2.1b-name-wsp",
        py!"2-Head-Deprecates", py!"2-Tag-Directory"] → KnownType t →
      lab ∉ [py!"2-Bag", py!"3-Version-for-member"] →
      (Reports (({ want := w } : Results).add (l ++ m)) t lab false ↔
        ∃ i ∈ m, i.type = t ∧ i.label = lab ∧ i.passed = false) := by
    intro t lab m hm hk hlab
    have hkn : ∀ i ∈ l ++ m, KnownType i.type := fun i hi => (List.mem_append.mp hi).elim
      (fun h => (hl i h).2) (fun h => (hm i h).2)
    constructor
    · rintro ⟨i, hi, h1, h2, h3⟩
      rcases List.mem_append.mp ((mem_applied_add _ _ _ _).mp hi).1 with hi | hi
      · exact absurd (h2 ▸ (hl i hi).1) hlab
      · exact ⟨i, hi, h1, h2, h3⟩
    · rintro ⟨i, hi, h⟩
      have hi' := List.mem_append_right l hi
      refine ⟨i, (mem_applied_add _ _ _ _).mpr ⟨hi', ?_⟩, h⟩
      rcases hkn i hi' with e | e | e <;> rw [e] <;> decide
  rw [List.append_assoc]
  have hlabs : LabelsIn ([⟨py!"2.1a-name-TAB", ERROR, !b.name.contains '\t', []⟩,
       ⟨py!"2.1b-name-wsp", ERROR, !(b.name.head?.any isSpace) && !(b.name.getLast?.any isSpace), []⟩] ++
      (if dmem b.info py!"Multibag-Head-Version" = true then [] else
        [⟨py!"2-Head-Deprecates", WARN, !dmem b.info py!"Multibag-Head-Deprecates", []⟩,
         ⟨py!"2-Tag-Directory", WARN, !dmem b.info py!"Multibag-Tag-Directory", []⟩] ++
        (tagDirs b.info).map (fun d => ⟨py!"2-Tag-Directory", WARN, !b.tree.exists (comps d), []⟩)))
      [py!"2.1a-name-TAB", py!"2.1b-name-wsp", py!"2-Head-Deprecates", py!"2-Tag-Directory"] := by
    refine labels_append (labels_cons (by simp) known_error (labels_cons (by simp) known_error (labels_nil _))) ?_
    split
    · exact labels_nil _
    · refine labels_append (labels_cons (by simp) known_warn (labels_cons (by simp) known_warn (labels_nil _))) ?_
      intro i hi
      obtain ⟨d, _, rfl⟩ := List.mem_map.mp hi
      exact ⟨by simp, known_warn⟩
  refine ⟨?_, ?_, ?_, ?_⟩
  · rw [hrep ERROR py!"2.1a-name-TAB" _ hlabs known_error (by decide)]
    constructor
    · rintro ⟨i, hi, h1, h2, h3⟩
      rcases List.mem_append.mp hi with hi | hi
      · rcases List.mem_cons.mp hi with rfl | hi
        · simpa using h3
        · rw [List.mem_singleton.mp hi] at h2; exact absurd h2 (by show py!"2.1b-name-wsp" ≠ _; decide)
      · split at hi
        · cases hi
        · simp only [List.cons_append, List.nil_append, List.mem_cons, List.mem_map] at hi
          rcases hi with rfl | rfl | ⟨d, _, rfl⟩ <;> cases h1
    · intro ht
      exact ⟨_, List.mem_append_left _ (List.mem_cons_self ..), rfl, rfl, by simpa using ht⟩
  · rw [hrep ERROR py!"2.1b-name-wsp" _ hlabs known_error (by decide)]
    have hsp : (!(b.name.head?.any isSpace) && !(b.name.getLast?.any isSpace)) = false ↔
        (∃ c s, b.name = c :: s ∧ isSpace c = true) ∨ (∃ c s, b.name = s ++ [c] ∧ isSpace c = true) := by
      rw [Bool.and_eq_false_iff, Bool.not_eq_false', Bool.not_eq_false', Option.any_eq_true, Option.any_eq_true]
      refine or_congr ⟨?_, ?_⟩ ⟨?_, ?_⟩
      · rintro ⟨c, hc, hs⟩
        obtain ⟨s, hs'⟩ := List.head?_eq_some_iff.mp hc
        exact ⟨c, s, hs', hs⟩
      · rintro ⟨c, s, hc, hs⟩; exact ⟨c, by rw [hc]; rfl, hs⟩
      · rintro ⟨c, hc, hs⟩
        obtain ⟨s, hs'⟩ := List.getLast?_eq_some_iff.mp hc
        exact ⟨c, s, hs', hs⟩
      · rintro ⟨c, s, hc, hs⟩; exact ⟨c, by rw [hc]; simp, hs⟩
    rw [← hsp]
    constructor
    · rintro ⟨i, hi, h1, h2, h3⟩
      rcases List.mem_append.mp hi with hi | hi
      · rcases List.mem_cons.mp hi with rfl | hi
        · exact absurd h2 (by show py!"2.1a-name-TAB" ≠ _; decide)
        · rw [List.mem_singleton.mp hi] at h3; exact h3
      · split at hi
        · cases hi
        · simp only [List.cons_append, List.nil_append, List.mem_cons, List.mem_map] at hi
          rcases hi with rfl | rfl | ⟨d, _, rfl⟩ <;> cases h1
    · intro ht
      exact ⟨_, List.mem_append_left _ (List.mem_cons_of_mem _ (List.mem_cons_self ..)), rfl, rfl, ht⟩
  · rw [hrep WARN py!"2-Head-Deprecates" _ hlabs known_warn (by decide)]
    constructor
    · rintro ⟨i, hi, h1, h2, h3⟩
      rcases List.mem_append.mp hi with hi | hi
      · rcases List.mem_cons.mp hi with rfl | hi
        · cases h1
        · rw [List.mem_singleton.mp hi] at h1; cases h1
      · cases hh : dmem b.info py!"Multibag-Head-Version" with
        | true => rw [hh] at hi; cases hi
        | false =>
          rw [hh] at hi
          simp only [Bool.false_eq_true, if_false, List.cons_append, List.nil_append, List.mem_cons, List.mem_map] at hi
          rcases hi with rfl | rfl | ⟨d, _, rfl⟩
          · exact ⟨rfl, by simpa using h3⟩
          · exact absurd h2 (by show py!"2-Tag-Directory" ≠ _; decide)
          · exact absurd h2 (by show py!"2-Tag-Directory" ≠ _; decide)
    · rintro ⟨hh, hd⟩
      refine ⟨⟨py!"2-Head-Deprecates", WARN, !dmem b.info py!"Multibag-Head-Deprecates", []⟩,
        List.mem_append_right _ ?_, rfl, rfl, ?_⟩
      · rw [hh]; exact List.mem_cons_self ..
      · rw [hd]; rfl
  · rw [hrep WARN py!"2-Tag-Directory" _ hlabs known_warn (by decide)]
    constructor
    · rintro ⟨i, hi, h1, h2, h3⟩
      rcases List.mem_append.mp hi with hi | hi
      · rcases List.mem_cons.mp hi with rfl | hi
        · cases h1
        · rw [List.mem_singleton.mp hi] at h1; cases h1
      · cases hh : dmem b.info py!"Multibag-Head-Version" with
        | true => rw [hh] at hi; cases hi
        | false =>
          rw [hh] at hi
          simp only [Bool.false_eq_true, if_false, List.cons_append, List.nil_append, List.mem_cons, List.mem_map] at hi
          rcases hi with rfl | rfl | ⟨d, hd, rfl⟩
          · exact absurd h2 (by show py!"2-Head-Deprecates" ≠ _; decide)
          · exact ⟨rfl, Or.inl (by simpa using h3)⟩
          · exact ⟨rfl, Or.inr ⟨d, hd, by simpa using h3⟩⟩
    · rintro ⟨hh, hd | ⟨d, hd, he⟩⟩
      · refine ⟨⟨py!"2-Tag-Directory", WARN, !dmem b.info py!"Multibag-Tag-Directory", []⟩,
          List.mem_append_right _ ?_, rfl, rfl, ?_⟩
        · rw [hh]; exact List.mem_cons_of_mem _ (List.mem_cons_self ..)
        · rw [hd]; rfl
      · refine ⟨⟨py!"2-Tag-Directory", WARN, !b.tree.exists (comps d), []⟩,
          List.mem_append_right _ ?_, rfl, rfl, ?_⟩
        · rw [hh]
          exact List.mem_append_right _ (List.mem_map.mpr ⟨d, hd, rfl⟩)
        · rw [he]; rfl

/-- A member bag with a tab in its name and a tag directory, validated into given results. -/
example : ∃ r, validateMember ⟨py!"a\tb", [([py!"multibag"], .dir)], [(py!"Multibag-Version", .one py!"0.4")], .valid⟩
    PROB (some { want := ALL }) = .ok r ∧ r.countFailed = 2 := ⟨_, rfl, by decide⟩

end Verif
