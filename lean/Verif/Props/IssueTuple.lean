import Verif.Model.IssueTuple
/-!
# C135: issues as tuples
-/

namespace Verif.Spec

/-- The types that an issue may have; `True` equals 1. -/
def IssueType (v : PyVal) : Prop := v = .num 1 ∨ v = .num 2 ∨ v = .num 4 ∨ v = .bool true

/-- What the constructor takes, in its order, from the items of a tuple. -/
def inOrder (data : List PyVal) : List PyVal := [3, 0, 4, 5, 6, 2].filterMap fun k : Nat => data[k]?

end Verif.Spec

namespace Verif
open Spec

theorem setType_ok {v t : PyVal} : setType v = .ok t ↔ IssueType v ∧ t = v := by
  unfold setType IssueType
  cases v with
  | num n =>
    by_cases h1 : n = 1
    · subst h1; simp [ERROR, eq_comm]
    · by_cases h2 : n = 2
      · subst h2; simp [ERROR, WARN, eq_comm]
      · by_cases h4 : n = 4
        · subst h4; simp [ERROR, WARN, REC, eq_comm]
        · simp [ERROR, WARN, REC, h1, h2, h4]
  | bool b =>
    cases b with
    | true => simp [eq_comm]
    | false => simp
  | str s => simp
  | strs l => simp

/-- **C135**, part: an issue made with six arguments has them in its tuple, each in its place; other types than the three
are refused.
Missing: `from_tuple`, which never succeeds, see `C135_negation_from_tuple`. -/
theorem C135_constructed_partial (label type spec passed version : PyVal) (comments : List Str) :
    (IssueType type → ∃ i, newIssue [label, type, spec, passed, .strs comments, version] = .ok i ∧
      i.toTuple = [type, .str py!"multibag", version, label, spec, passed, .strs comments]) ∧
    (¬ IssueType type → ∃ e, newIssue [label, type, spec, passed, .strs comments, version] = .error e) := by
  constructor
  · intro h
    have := setType_ok.2 ⟨h, rfl⟩
    refine ⟨⟨label, type, spec, passed, comments, version⟩, ?_, rfl⟩
    simp [newIssue, this, givenComments]
  · intro h
    cases hs : setType type with
    | ok t => exact absurd (setType_ok.1 hs).1 h
    | error e => exact ⟨e, by simp [newIssue, hs]⟩

/-- **C135**, part: an issue that was made with any arguments can be made again from its tuple, by calling the constructor
with the items in its order.
Missing: as in `C135_constructed_partial`. -/
theorem C135_again_partial {args : List PyVal} {i : FullIssue} (h : newIssue args = .ok i) :
    newIssue (inOrder i.toTuple) = .ok i := by
  have ht : IssueType i.type := by
    unfold newIssue at h
    split at h
    · cases h
    · split at h
      · cases h
      · next t hs =>
        split at h
        · cases h
        · cases h
          obtain ⟨h1, h2⟩ := setType_ok.1 hs
          exact h2 ▸ h1
  have := setType_ok.2 ⟨ht, rfl⟩
  simp [inOrder, FullIssue.toTuple, newIssue, this, givenComments]

/-- **C135**: different issues have different tuples. -/
theorem C135_tells {i j : FullIssue} (h : i.toTuple = j.toTuple) : i = j := by
  cases i
  cases j
  simp only [FullIssue.toTuple, List.cons.injEq, PyVal.strs.injEq, and_true, true_and] at h
  obtain ⟨rfl, rfl, rfl, rfl, rfl, rfl⟩ := h
  rfl

/-- **C135**, negation: no issue can be made again from its tuple with `from_tuple`, nor can one be made so from anything else. -/
theorem C135_negation_from_tuple :
    (∀ i : FullIssue, issueFromTuple i.toTuple = .error .typeError) ∧ ∀ data i, issueFromTuple data ≠ .ok i := by
  constructor
  · intro i; rfl
  · intro data i h
    unfold issueFromTuple at h
    split at h
    · simp [newIssue] at h
    · cases h

/-- A failed recommendation with two comments. -/
example : ∃ i, newIssue [.str py!"4.1-5", .num REC, .str py!"no bag twice", .bool false, .strs [py!"line 2", py!"line 3"],
      .str py!"0.3"] = .ok i ∧ i.toTuple = [.num 4, .str py!"multibag", .str py!"0.3", .str py!"4.1-5", .str py!"no bag twice",
      .bool false, .strs [py!"line 2", py!"line 3"]] :=
  (C135_constructed_partial _ _ _ _ _ _).1 (by unfold IssueType; decide)

example : ∃ e, newIssue [.str [], .num 3, .str [], .bool false, .strs [], .str []] = .error e :=
  (C135_constructed_partial _ _ _ _ _ _).2 (by unfold IssueType; decide)

/-- Defaults are filled in before the tuple is made; one comment may be given as a string. -/
example : newIssue (inOrder [.bool true, .str py!"multibag", .str py!"0.4", .str py!"x", .str [], .num 0, .strs [py!"c"]]) =
    .ok ⟨.str py!"x", .bool true, .str [], .num 0, [py!"c"], .str py!"0.4"⟩ :=
  C135_again_partial (i := ⟨.str py!"x", .bool true, .str [], .num 0, [py!"c"], .str py!"0.4"⟩)
    (args := [.str py!"x", .bool true, .str [], .num 0, .str py!"c"]) rfl

example : (⟨.str py!"x", .num 1, .str [], .bool true, [], .str []⟩ : FullIssue).toTuple ≠
    (⟨.str py!"x", .num 1, .str [], .bool false, [], .str []⟩ : FullIssue).toTuple :=
  fun h => absurd (C135_tells h) (by decide)

end Verif
