import Verif.Spec.Validate
/-! # Lemmas about validation results -/

namespace Verif
open Spec

/-! ## Masks -/

theorem and_pow_ne (m k : Nat) : decide (m &&& 2 ^ k ≠ 0) = m.testBit k := by
  have hk : (m &&& 2 ^ k).testBit k = m.testBit k := by simp [Nat.testBit_and, Nat.testBit_two_pow]
  cases h : m.testBit k with
  | true =>
    rw [h] at hk
    refine decide_eq_true (fun h0 => ?_)
    rw [h0, Nat.zero_testBit] at hk
    cases hk
  | false =>
    refine decide_eq_false (fun hn => hn ?_)
    apply Nat.eq_of_testBit_eq
    intro j
    rw [Nat.testBit_and, Nat.testBit_two_pow, Nat.zero_testBit]
    by_cases hj : k = j
    · subst hj; rw [h]; rfl
    · simp [hj]

theorem wants_error (m : Nat) : wants m ERROR = m.testBit 0 := and_pow_ne m 0

theorem wants_warn (m : Nat) : wants m WARN = m.testBit 1 := and_pow_ne m 1

theorem wants_rec (m : Nat) : wants m REC = m.testBit 2 := and_pow_ne m 2

/-! ## Adding issues -/

/-- Results with further issues. -/
def Results.add (r : Results) (l : List Issue) : Results :=
  { r with
    errors := r.errors ++ l.filter (fun i => i.type == ERROR)
    warnings := r.warnings ++ l.filter (fun i => i.type == WARN)
    recs := r.recs ++ l.filter (fun i => i.type == REC) }

theorem add_nil (r : Results) : r.add [] = r := by simp [Results.add]

theorem add_add (r : Results) (l m : List Issue) : (r.add l).add m = r.add (l ++ m) := by
  simp [Results.add, List.append_assoc]

theorem add_want (r : Results) (l : List Issue) : (r.add l).want = r.want := rfl

theorem err_add (r : Results) (label : Str) (p : Bool) (c : List Str) :
    r.err label p c = r.add [⟨label, ERROR, p, c⟩] := by
  simp [Results.err, Results.add, ERROR, WARN, REC]

theorem warn_add (r : Results) (label : Str) (p : Bool) (c : List Str) :
    r.warn label p c = r.add [⟨label, WARN, p, c⟩] := by
  simp [Results.warn, Results.add, ERROR, WARN, REC]

theorem recommend_add (r : Results) (label : Str) (p : Bool) (c : List Str) :
    r.recommend label p c = r.add [⟨label, REC, p, c⟩] := by
  simp [Results.recommend, Results.add, ERROR, WARN, REC]

/-- Filtering three disjoint ways loses and doubles nothing. -/
theorem perm_three (l : List Issue) (a b c : Bool) :
    ((if a then l.filter (fun i => i.type == ERROR) else []) ++
      (if b then l.filter (fun i => i.type == WARN) else []) ++
      (if c then l.filter (fun i => i.type == REC) else [])).Perm
    (l.filter (fun i => (i.type == ERROR && a) || (i.type == WARN && b) || (i.type == REC && c))) := by
  induction l with
  | nil => cases a <;> cases b <;> cases c <;> exact List.Perm.refl _
  | cons i l ih =>
    by_cases h1 : i.type = ERROR
    · have h2 : (i.type == WARN) = false := by rw [h1]; rfl
      have h3 : (i.type == REC) = false := by rw [h1]; rfl
      have h1' : (i.type == ERROR) = true := by rw [h1]; rfl
      cases a with
      | false => simpa [List.filter_cons, h1', h2, h3] using ih
      | true =>
        simp only [List.filter_cons, h1', h2, h3]
        simpa using ih
    · have h1' : (i.type == ERROR) = false := beq_eq_false_iff_ne.mpr h1
      by_cases h2 : i.type = WARN
      · have h2' : (i.type == WARN) = true := by rw [h2]; rfl
        have h3 : (i.type == REC) = false := by rw [h2]; rfl
        cases b with
        | false => simpa [List.filter_cons, h1', h2', h3] using ih
        | true =>
          simp only [List.filter_cons, h1', h2', h3]
          simp only [Bool.false_eq_true, if_false, if_true, Bool.false_and, Bool.true_and, Bool.false_or,
            Bool.or_false, List.append_assoc, List.cons_append]
          refine List.perm_middle.trans (List.Perm.cons i ?_)
          simpa [List.append_assoc] using ih
      · have h2' : (i.type == WARN) = false := beq_eq_false_iff_ne.mpr h2
        by_cases h3 : i.type = REC
        · have h3' : (i.type == REC) = true := by rw [h3]; rfl
          cases c with
          | false => simpa [List.filter_cons, h1', h2', h3'] using ih
          | true =>
            simp only [List.filter_cons, h1', h2', h3']
            simp only [Bool.false_eq_true, if_false, if_true, Bool.false_and, Bool.true_and, Bool.false_or]
            refine List.perm_middle.trans (List.Perm.cons i ?_)
            simpa using ih
        · have h3' : (i.type == REC) = false := beq_eq_false_iff_ne.mpr h3
          simpa [List.filter_cons, h1', h2', h3'] using ih

theorem requested_iff (m t : Nat) : Requested m t ↔
    ((t == ERROR && m.testBit 0) || (t == WARN && m.testBit 1) || (t == REC && m.testBit 2)) = true := by
  simp [Requested, or_assoc]

theorem applied_perm (w : Nat) (l : List Issue) (m : Nat) :
    ((({ want := w } : Results).add l).applied m).Perm (l.filter (fun i => decide (Requested m i.type))) := by
  have h := perm_three l (m.testBit 0) (m.testBit 1) (m.testBit 2)
  have hf : (fun i : Issue => decide (Requested m i.type)) = (fun i =>
      (i.type == ERROR && m.testBit 0) || (i.type == WARN && m.testBit 1) || (i.type == REC && m.testBit 2)) := by
    funext i
    rw [Bool.eq_iff_iff, decide_eq_true_iff, requested_iff]
  rw [hf]
  unfold Results.applied
  rw [wants_error, wants_warn, wants_rec]
  exact h

/-- What results hold after issues are added. -/
theorem mem_applied_add (w : Nat) (l : List Issue) (m : Nat) (i : Issue) :
    i ∈ (({ want := w } : Results).add l).applied m ↔ i ∈ l ∧ Requested m i.type := by
  rw [(applied_perm w l m).mem_iff, List.mem_filter, decide_eq_true_iff]

/-- The issues held by results. -/
def Results.issues (r : Results) : List Issue := r.errors ++ r.warnings ++ r.recs

theorem applied_all (r : Results) : r.applied ALL = r.issues := by
  unfold Results.applied Results.issues
  rw [wants_error, wants_warn, wants_rec]; rfl

/-- The three lists hold what their names say. -/
structure Sorted (r : Results) : Prop where
  errors : ∀ i ∈ r.errors, i.type = ERROR
  warnings : ∀ i ∈ r.warnings, i.type = WARN
  recs : ∀ i ∈ r.recs, i.type = REC

theorem mem_applied {r : Results} (hs : Sorted r) (m : Nat) (i : Issue) :
    i ∈ r.applied m ↔ i ∈ r.applied ALL ∧ Requested m i.type := by
  rw [applied_all]
  unfold Results.applied Results.issues
  rw [wants_error, wants_warn, wants_rec]
  simp only [List.mem_append, requested_iff, Bool.or_eq_true, Bool.and_eq_true, beq_iff_eq]
  constructor
  · rintro ((h | h) | h)
    · cases hb : m.testBit 0 with
      | false => rw [hb] at h; cases h
      | true => rw [hb] at h; exact ⟨Or.inl (Or.inl h), Or.inl (Or.inl ⟨hs.errors i h, rfl⟩)⟩
    · cases hb : m.testBit 1 with
      | false => rw [hb] at h; cases h
      | true => rw [hb] at h; exact ⟨Or.inl (Or.inr h), Or.inl (Or.inr ⟨hs.warnings i h, rfl⟩)⟩
    · cases hb : m.testBit 2 with
      | false => rw [hb] at h; cases h
      | true => rw [hb] at h; exact ⟨Or.inr h, Or.inr ⟨hs.recs i h, rfl⟩⟩
  · rintro ⟨(h | h) | h, hr⟩
    · have ht := hs.errors i h
      rw [ht] at hr
      rcases hr with (⟨_, hb⟩ | ⟨he, _⟩) | ⟨he, _⟩
      · rw [hb]; exact Or.inl (Or.inl h)
      · cases he
      · cases he
    · have ht := hs.warnings i h
      rw [ht] at hr
      rcases hr with (⟨he, _⟩ | ⟨_, hb⟩) | ⟨he, _⟩
      · cases he
      · rw [hb]; exact Or.inl (Or.inr h)
      · cases he
    · have ht := hs.recs i h
      rw [ht] at hr
      rcases hr with (⟨he, _⟩ | ⟨he, _⟩) | ⟨_, hb⟩
      · cases he
      · cases he
      · rw [hb]; exact Or.inr h

theorem sorted_new (w : Nat) : Sorted { want := w } :=
  ⟨fun _ h => absurd h List.not_mem_nil, fun _ h => absurd h List.not_mem_nil, fun _ h => absurd h List.not_mem_nil⟩

theorem sorted_add {r : Results} (hs : Sorted r) (l : List Issue) : Sorted (r.add l) := by
  refine ⟨fun i h => ?_, fun i h => ?_, fun i h => ?_⟩ <;>
  · simp only [Results.add, List.mem_append, List.mem_filter, beq_iff_eq] at h
    rcases h with h | h
    · first | exact hs.errors i h | exact hs.warnings i h | exact hs.recs i h
    · exact h.2

theorem issues_add {r : Results} (l : List Issue) (hk : ∀ i ∈ l, KnownType i.type) (i : Issue) :
    i ∈ (r.add l).applied ALL ↔ i ∈ r.applied ALL ∨ i ∈ l := by
  rw [applied_all, applied_all]
  unfold Results.issues Results.add
  simp only [List.mem_append, List.mem_filter, beq_iff_eq]
  constructor
  · rintro ((h | h) | h)
    · rcases h with h | h
      · exact Or.inl (Or.inl (Or.inl h))
      · exact Or.inr h.1
    · rcases h with h | h
      · exact Or.inl (Or.inl (Or.inr h))
      · exact Or.inr h.1
    · rcases h with h | h
      · exact Or.inl (Or.inr h)
      · exact Or.inr h.1
  · rintro (((h | h) | h) | h)
    · exact Or.inl (Or.inl (Or.inl h))
    · exact Or.inl (Or.inr (Or.inl h))
    · exact Or.inr (Or.inl h)
    · rcases hk i h with ht | ht | ht
      · exact Or.inl (Or.inl (Or.inr ⟨h, ht⟩))
      · exact Or.inl (Or.inr (Or.inr ⟨h, ht⟩))
      · exact Or.inr (Or.inr ⟨h, ht⟩)

/-- `ok()` looks at the requested checks only. -/
theorem ok_iff {r : Results} (hs : Sorted r) :
    r.ok = true ↔ ∀ i ∈ r.applied ALL, Requested r.want i.type → i.passed = true := by
  unfold Results.ok Results.countFailed Results.failed
  rw [beq_iff_eq, List.length_eq_zero_iff, List.filter_eq_nil_iff]
  constructor
  · intro h i hi hr
    have := h i ((mem_applied hs _ i).mpr ⟨hi, hr⟩)
    cases hp : i.passed with
    | true => rfl
    | false => rw [hp] at this; exact absurd rfl this
  · intro h i hi
    obtain ⟨h1, h2⟩ := (mem_applied hs _ i).mp hi
    rw [h i h1 h2]; decide

theorem addIssue_add (r : Results) (i : Issue) (t : Nat) (p : Bool) (c : List Str) (hk : KnownType t) :
    ∃ j, r.addIssue i t p c = .ok (j, r.add [(Check.recorded ⟨i, t, p, c⟩)]) := by
  refine ⟨Check.recorded ⟨i, t, p, c⟩, ?_⟩
  rcases hk with rfl | rfl | rfl <;>
    simp [Results.addIssue, Results.add, Check.recorded, ERROR, WARN, REC]

theorem addIssue_unknown (r : Results) (i : Issue) (t : Nat) (p : Bool) (c : List Str) (hk : ¬ KnownType t) :
    r.addIssue i t p c = .error .typeError := by
  unfold Results.addIssue
  simp only [KnownType, not_or] at hk
  rw [if_neg hk.1, if_neg hk.2.1, if_neg hk.2.2]

theorem recordAll_add (r : Results) (cs : List Check) (hk : ∀ c ∈ cs, KnownType c.type) :
    recordAll r cs = .ok (r.add (cs.map Check.recorded)) := by
  induction cs generalizing r with
  | nil => rw [List.map_nil, add_nil]; rfl
  | cons c cs ih =>
    obtain ⟨j, hj⟩ := addIssue_add r c.issue c.type c.passed c.comments (hk c (List.mem_cons_self ..))
    unfold recordAll
    rw [hj]
    show recordAll _ cs = _
    rw [ih _ (fun d hd => hk d (List.mem_cons_of_mem _ hd)), add_add]
    rfl

theorem recordAll_unknown (r : Results) (cs : List Check) (h : ∃ c ∈ cs, ¬ KnownType c.type) :
    recordAll r cs = .error .typeError := by
  induction cs generalizing r with
  | nil => obtain ⟨c, hc, _⟩ := h; cases hc
  | cons c cs ih =>
    unfold recordAll
    by_cases hk : KnownType c.type
    · obtain ⟨j, hj⟩ := addIssue_add r c.issue c.type c.passed c.comments hk
      rw [hj]
      apply ih
      obtain ⟨d, hd, hu⟩ := h
      rcases List.mem_cons.mp hd with rfl | hd
      · exact absurd hk hu
      · exact ⟨d, hd, hu⟩
    · rw [addIssue_unknown _ _ _ _ _ hk]

end Verif
