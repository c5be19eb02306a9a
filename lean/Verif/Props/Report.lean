import Verif.Model.Report
import Verif.Props.FormatBytes
/-!
# What a validation error says (C102)
-/

namespace Verif

theorem infix_left {α : Type} {a b : List α} (c : List α) (h : a <:+: b) : a <:+: c ++ b :=
  h.trans (List.infix_append' c b [] |>.trans (by simp))

theorem infix_right {α : Type} {a b : List α} (c : List α) (h : a <:+: b) : a <:+: b ++ c :=
  h.trans (List.prefix_append b c).isInfix

theorem infix_intercalate {α : Type} {sep a : List α} {l : List (List α)} (h : a ∈ l) : a <:+: sep.intercalate l := by
  induction l with
  | nil => cases h
  | cons x xs ih =>
    cases xs with
    | nil =>
      rw [List.mem_singleton.1 h]
      simp [List.intercalate, List.intersperse]
    | cons y ys =>
      have e : sep.intercalate (x :: y :: ys) = x ++ (sep ++ sep.intercalate (y :: ys)) := by
        simp [List.intercalate, List.intersperse]
      rw [e]
      rcases List.mem_cons.1 h with rfl | h
      · exact infix_right _ (List.infix_refl _)
      · exact infix_left _ (infix_left _ (ih h))

theorem infix_flatten {α : Type} {a : List α} {l : List (List α)} (h : a ∈ l) : a <:+: l.flatten := by
  induction l with
  | nil => cases h
  | cons x xs ih =>
    rw [List.flatten_cons]
    rcases List.mem_cons.1 h with rfl | h
    · exact infix_right _ (List.infix_refl _)
    · exact infix_left _ (ih h)

/-- What is told about a failed test: its summary and all its comments. -/
def Spec.Told (w : Wording) (i : Issue) (text : Str) : Prop :=
  i.summary w <:+: text ∧ ∀ c ∈ i.comments, c <:+: text

open Spec

theorem summary_description (w : Wording) (i : Issue) : Told w i (i.description w) := by
  unfold Issue.description
  split
  · rename_i h
    exact ⟨List.infix_refl _, by rw [h]; intro c hc; cases hc⟩
  · refine ⟨infix_right _ (infix_right _ (List.infix_refl _)), fun c hc => infix_left _ (infix_intercalate hc)⟩

theorem Spec.Told.mono {w : Wording} {i : Issue} {a b : Str} (h : Told w i a) (hab : a <:+: b) : Told w i b :=
  ⟨h.1.trans hab, fun c hc => (h.2 c hc).trans hab⟩

/-- The first three failed tests are told. -/
theorem told_of_take {w : Wording} {r : Results} {i : Issue} (h : i ∈ r.failed.take 3) : Told w i (r.errorStr w) := by
  unfold Results.errorStr Results.countFailed
  split
  · rename_i hlt
    unfold Results.message bagErrorStr
    revert h hlt
    cases r.failed with
    | nil => intro h; cases h
    | cons a l =>
      cases l with
      | cons b l => intro _ hlt; simp only [List.length_cons] at hlt; omega
      | nil =>
        intro h _
        rw [List.take_of_length_le (by simp), List.mem_singleton] at h
        subst h
        simp only
        split
        · rename_i hc
          exact ⟨List.infix_refl _, by rw [hc]; intro c hc; cases hc⟩
        · exact ⟨infix_right _ (infix_right _ (List.infix_refl _)), fun c hc => infix_left _ (infix_intercalate hc)⟩
  · refine (summary_description w i).mono (infix_left _ ?_)
    refine List.IsInfix.trans (infix_left (py!"\n\n * ") (List.infix_refl _)) (infix_flatten ?_)
    exact List.mem_map.2 ⟨i, h, rfl⟩

/-- C102: if not more than three tests failed, the text of the error tells all of them. -/
theorem C102_all_told (w : Wording) (r : Results) (h : r.countFailed ≤ 3) : ∀ i ∈ r.failed, Told w i (r.errorStr w) := by
  intro i hi
  refine told_of_take ?_
  rwa [List.take_of_length_le h]

/-- The lists of results: errors, warnings, recommendations, in this order. -/
theorem failed_lists (r : Results) (m : Nat) : r.failed m =
    (if wants m ERROR then r.errors.filter (fun i => !i.passed) else []) ++
    (if wants m WARN then r.warnings.filter (fun i => !i.passed) else []) ++
    (if wants m REC then r.recs.filter (fun i => !i.passed) else []) := by
  unfold Results.failed Results.applied
  rw [List.filter_append, List.filter_append]
  congr 1
  · congr 1
    · split <;> rfl
    · split <;> rfl
  · split <;> rfl

/-- C102: if what was asked for are errors, problems or everything, and the bag is not valid in this sense, the text of the
error tells a failed test of a kind that was asked for.  Missing: other kinds and combinations (see
`C102_negation_unwanted`). -/
theorem C102_wanted_told_partial (w : Wording) (r : Results) (hw : r.want = ERROR ∨ r.want = PROB ∨ r.want = ALL) (h : r.ok = false) :
    ∃ i ∈ r.failed r.want, Told w i (r.errorStr w) := by
  have hne : r.failed r.want ≠ [] := by
    intro e
    unfold Results.ok Results.countFailed at h
    rw [e] at h
    cases h
  have hpre : r.failed r.want <+: r.failed := by
    show _ <+: r.failed ALL
    rw [failed_lists, failed_lists r ALL]
    rcases hw with e | e | e <;> rw [e]
    · have a : wants ERROR ERROR = true := by decide
      have b : wants ERROR WARN = false := by decide
      have c : wants ERROR REC = false := by decide
      have a' : wants ALL ERROR = true := by decide
      rw [a, b, c, a', List.append_assoc]
      simp
    · have a : wants PROB ERROR = true := by decide
      have b : wants PROB WARN = true := by decide
      have c : wants PROB REC = false := by decide
      have a' : wants ALL ERROR = true := by decide
      have b' : wants ALL WARN = true := by decide
      rw [a, b, c, a', b']
      simp
    · exact List.prefix_refl _
  cases hf : r.failed r.want with
  | nil => exact absurd hf hne
  | cons i l =>
    refine ⟨i, List.mem_cons_self .., told_of_take ?_⟩
    rw [hf] at hpre
    obtain ⟨t, ht⟩ := hpre
    rw [← ht]
    exact List.mem_cons_self ..

/-- C102: with several failed tests the text begins with their number. -/
theorem C102_number (w : Wording) (r : Results) (h : 2 ≤ r.countFailed) :
    (decimal (r.failed ALL).length ++ py!" validation errors detected") <+: r.errorStr w := by
  unfold Results.errorStr
  rw [if_neg (by omega)]
  have : (r.message w).1 = decimal (r.failed ALL).length ++ py!" validation errors detected" := by
    unfold Results.message
    unfold Results.countFailed at h ⊢
    split
    · rename_i e; rw [e] at h; simp at h
    · rename_i e; rw [e] at h; simp at h
    · rfl
  rw [this, List.append_assoc, List.append_assoc]
  exact List.prefix_append _ _

theorem number_message (w : Wording) (r : Results) (h : 2 ≤ r.countFailed) :
    (r.message w).1 = decimal (r.failed ALL).length ++ py!" validation errors detected" := by
  unfold Results.message
  unfold Results.countFailed at h ⊢
  split
  · rename_i e; rw [e] at h; simp at h
  · rename_i e; rw [e] at h; simp at h
  · rfl

/-- C102: with several failed tests the text begins with digits, which read as a decimal number are the number of failed
tests. -/
theorem C102_number_read (w : Wording) (r : Results) (h : 2 ≤ r.countFailed) :
    ∃ digits, (∀ c ∈ digits, c.isDigit = true) ∧ digitsVal digits = (r.failed ALL).length ∧
      (digits ++ py!" validation errors detected") <+: r.errorStr w :=
  ⟨decimal (r.failed ALL).length, fun _ hc => isDigit_natStr (n := (r.failed ALL).length) hc,
    digitsVal_natStr (r.failed ALL).length, C102_number w r h⟩

/-- C102: the text says that it tells only some of the failed tests exactly if there are more than three. -/
theorem C102_including (w : Wording) (r : Results) (h : 2 ≤ r.countFailed) :
    (decimal (r.failed ALL).length ++ py!" validation errors detected, including:") <+: r.errorStr w ↔ 3 < (r.failed ALL).length := by
  have hm := number_message w r h
  have hs : py!" validation errors detected, including:" = py!" validation errors detected" ++ py!", including:" := by decide
  unfold Results.errorStr
  rw [if_neg (by omega), hm, hs, ← List.append_assoc, List.append_assoc (decimal _ ++ _), List.append_assoc (decimal _ ++ _),
    List.prefix_append_right_inj]
  have hc : r.countFailed = (r.failed ALL).length := rfl
  rw [hc]
  split
  · rename_i h3
    exact ⟨fun _ => h3, fun _ => by simp⟩
  · rename_i h3
    refine ⟨fun hp => absurd hp ?_, fun x => absurd x h3⟩
    rintro ⟨t, ht⟩
    simp at ht

/-- C102: the text about a test begins with `PASSED` exactly if the test was passed, and else with its kind. -/
theorem C102_passed (w : Wording) (i : Issue) :
    (py!"PASSED: " <+: i.description w ↔ i.passed = true) ∧ (py!"PASSED: " <+: i.str w ↔ i.passed = true) ∧
    (i.passed = false → (i.type = ERROR → py!"ERROR: " <+: i.description w ∧ py!"ERROR: " <+: i.str w) ∧
      (i.type = WARN → py!"WARNING: " <+: i.description w ∧ py!"WARNING: " <+: i.str w) ∧
      (i.type = REC → py!"RECOMMENDATION: " <+: i.description w ∧ py!"RECOMMENDATION: " <+: i.str w)) := by
  have hd : i.summary w <+: i.description w := by
    unfold Issue.description
    split
    · exact List.prefix_refl _
    · rw [List.append_assoc]; exact List.prefix_append _ _
  have hs : i.summary w <+: i.str w := by
    unfold Issue.str
    split
    · exact List.prefix_refl _
    · split
      · exact List.prefix_refl _
      · rw [List.append_assoc, List.append_assoc]; exact List.prefix_append _ _
  have hl : ((if i.passed then py!"PASSED" else typeLabel i.type) ++ py!": ") <+: i.summary w := by
    unfold Issue.summary
    generalize (if i.passed then py!"PASSED" else typeLabel i.type) = k
    rw [show py!": multibag " = py!": " ++ py!"multibag " by decide]
    by_cases h : w.spec i = []
    · simp only [h, if_true]
      exact ⟨py!"multibag " ++ w.version ++ py!" " ++ i.label, by simp only [List.append_assoc]⟩
    · simp only [h, if_false]
      exact ⟨py!"multibag " ++ w.version ++ py!" " ++ i.label ++ (py!": " ++ w.spec i), by simp only [List.append_assoc]⟩
  cases hp : i.passed with
  | true =>
    rw [hp] at hl
    exact ⟨⟨fun _ => rfl, fun _ => hl.trans hd⟩, ⟨fun _ => rfl, fun _ => hl.trans hs⟩, fun h => by cases h⟩
  | false =>
    rw [hp] at hl
    have hno : ∀ s, i.summary w <+: s → ¬ py!"PASSED: " <+: s := by
      rintro s ⟨t, rfl⟩ ⟨u, hu⟩
      obtain ⟨v, hv⟩ := hl
      rw [← hv] at hu
      unfold typeLabel at hu
      simp only [Bool.false_eq_true, if_false] at hu
      split at hu
      · simp at hu
      · split at hu <;> simp at hu
    refine ⟨⟨fun h => absurd h (hno _ hd), fun h => by cases h⟩, ⟨fun h => absurd h (hno _ hs), fun h => by cases h⟩, fun _ => ⟨?_, ?_, ?_⟩⟩ <;>
      (intro ht; rw [ht] at hl; exact ⟨hl.trans hd, hl.trans hs⟩)

namespace Sample

/-- A wording. -/
def wording : Wording := ⟨py!"0.4", fun i => if i.label = py!"2-Tag" then py!"tag is set" else []⟩

/-- Results of a validation that asked for errors: one, and a recommendation not followed. -/
def oneError : Results :=
  (({ want := ERROR } : Results).err py!"2-Tag" false [py!"no tag"]).recommend py!"3-Size" false

/-- Results of a validation that asked for recommendations: one not followed, and three errors. -/
def oneRec : Results :=
  (((({ want := REC } : Results).err py!"a" false).err py!"b" false).err py!"c" false).recommend py!"d" false

end Sample

/-- A passed and a failed test. -/
example : py!"PASSED: " <+: (⟨py!"2-Tag", WARN, true, []⟩ : Issue).str Sample.wording ∧
    py!"WARNING: " <+: (⟨py!"2-Tag", WARN, false, [py!"c"]⟩ : Issue).str Sample.wording :=
  ⟨(C102_passed _ _).2.1.2 rfl, ((C102_passed _ ⟨py!"2-Tag", WARN, false, [py!"c"]⟩).2.2 rfl).2.1 rfl |>.2⟩

/-- Four failed tests are counted, and two. -/
example : py!"4 validation errors detected, including:" <+: Sample.oneRec.errorStr Sample.wording ∧
    ¬ py!"2 validation errors detected, including:" <+: Sample.oneError.errorStr Sample.wording :=
  ⟨(C102_including Sample.wording Sample.oneRec (by decide)).2 (by decide), fun h => absurd ((C102_including Sample.wording Sample.oneError (by decide)).1 h) (by decide)⟩

/-- What the sample error says. -/
example : Sample.oneError.ok = false ∧ Sample.oneError.errorStr Sample.wording = py!"2 validation errors detected:\n\n * " ++
    py!"ERROR: multibag 0.4 2-Tag: tag is set\n   no tag\n\n * RECOMMENDATION: multibag 0.4 3-Size" := by decide

example : ∃ i ∈ Sample.oneError.failed ERROR, Told Sample.wording i (Sample.oneError.errorStr Sample.wording) :=
  C102_wanted_told_partial _ _ (.inl rfl) (by decide)

/-- `C102_number_read`. -/
example (w : Wording) : ∃ digits, (∀ c ∈ digits, c.isDigit = true) ∧ digitsVal digits = (Sample.oneError.failed ALL).length ∧
    (digits ++ py!" validation errors detected") <+: Sample.oneError.errorStr w :=
  C102_number_read w Sample.oneError (by decide)

/-- C102 is false of the number: it counts tests that were not asked for, and calls them errors. -/
theorem C102_negation_number : ∃ r : Results, r.ok = false ∧ r.countFailed r.want = 1 ∧ r.countFailed ERROR = 1 ∧
    ∀ w, py!"2 validation errors detected" <+: r.errorStr w :=
  ⟨Sample.oneError, by decide, by decide, by decide, fun w => C102_number w Sample.oneError (by decide)⟩

/-- C102 fails if recommendations are asked for: the text need not tell a failed test of this kind. -/
theorem C102_negation_unwanted : ∃ r : Results, r.want = REC ∧ r.ok = false ∧
    ∀ i ∈ r.failed r.want, ¬ Told ⟨py!"0.4", fun _ => []⟩ i (r.errorStr ⟨py!"0.4", fun _ => []⟩) := by
  refine ⟨Sample.oneRec, rfl, by decide, ?_⟩
  intro i hi ht
  have e : i = ⟨py!"d", REC, false, []⟩ := by
    have : Sample.oneRec.failed Sample.oneRec.want = [⟨py!"d", REC, false, []⟩] := by decide
    rw [this] at hi
    exact List.mem_singleton.1 hi
  subst e
  have hd : 'C' ∈ Sample.oneRec.errorStr ⟨py!"0.4", fun _ => []⟩ := ht.1.subset (by decide)
  exact absurd hd (by decide)

end Verif
