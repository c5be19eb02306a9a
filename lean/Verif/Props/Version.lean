import Verif.Lemmas.Version
/-!
# C01, C02: version comparison
-/

namespace Verif

open Spec

/-- C01: each of the six comparison operators between a version string and
another agrees with dictionary order of their numbers (and none of them
raises). -/
theorem C01_operators (a b : Str) :
    (Version.eq (.ofStr a) (.str b) = true ↔ versionNumbers a = versionNumbers b)
    ∧ (Version.ne (.ofStr a) (.str b) = true ↔ versionNumbers a ≠ versionNumbers b)
    ∧ (∃ r, Version.lt (.ofStr a) (.str b) = .ok r ∧
        (r = true ↔ LexLt (versionNumbers a) (versionNumbers b)))
    ∧ (∃ r, Version.le (.ofStr a) (.str b) = .ok r ∧
        (r = true ↔ LexLt (versionNumbers a) (versionNumbers b) ∨
          versionNumbers a = versionNumbers b))
    ∧ (∃ r, Version.gt (.ofStr a) (.str b) = .ok r ∧
        (r = true ↔ LexLt (versionNumbers b) (versionNumbers a)))
    ∧ (∃ r, Version.ge (.ofStr a) (.str b) = .ok r ∧
        (r = true ↔ LexLt (versionNumbers b) (versionNumbers a) ∨
          versionNumbers a = versionNumbers b)) := by
  have hir := LexLt.irrefl
  have htr := @LexLt.trans (versionNumbers a) (versionNumbers b) (versionNumbers a)
  have htot := LexLt.total (versionNumbers a) (versionNumbers b)
  simp only [Version.eq, Version.ne, Version.lt, Version.le, Version.gt, Version.ge,
    fields_toVersion_str, fields_ofStr, VFields.eq, VFields.lt]
  have hlt := pySeqLt_iff (versionNumbers a) (versionNumbers b)
  generalize pySeqLt (versionNumbers a) (versionNumbers b) = r at *
  by_cases heq : versionNumbers a = versionNumbers b
  · rw [heq] at hlt htot htr ⊢
    have hr : r = false := by
      cases r
      · rfl
      · exact absurd (hlt.1 rfl) (hir _)
    subst hr
    refine ⟨by simp, by simp, ⟨_, rfl, hlt⟩, ⟨true, by simp [bind, Except.bind, pure, Except.pure], by simp⟩,
      ⟨false, by simp [bind, Except.bind, pure, Except.pure], by simp [hir]⟩,
      ⟨true, by simp [bind, Except.bind, pure, Except.pure], by simp⟩⟩
  · have hgt : LexLt (versionNumbers b) (versionNumbers a) ↔ r = false := by
      constructor
      · intro h
        cases r
        · rfl
        · exact absurd (htr (hlt.1 rfl) h) (hir _)
      · rintro rfl
        rcases htot with h | h | h
        · exact absurd (hlt.2 h) (by simp)
        · exact absurd h heq
        · exact h
    refine ⟨by simp, by simp, ⟨_, rfl, hlt⟩,
      ⟨r, by cases r <;> simp [heq, bind, Except.bind, pure, Except.pure], by simp [hlt, heq]⟩,
      ⟨!r, by cases r <;> simp [heq, bind, Except.bind, pure, Except.pure], by rw [hgt]; simp⟩,
      ⟨!r, by simp [bind, Except.bind, pure, Except.pure], by rw [hgt]; simp [heq]⟩⟩

example : LexLt (versionNumbers py!"0.9") (versionNumbers py!"0.10.1") :=
  .tail _ (.head _ _ (by decide))
example : versionNumbers py!"0.04" = versionNumbers py!"0.4" := by decide
example : versionNumbers py!"1.b" = [1, -1] := by decide

/-- C01: the same order decides which of the older list files a reader looks for (see C11). -/
theorem C01_older (a b : Str) : verLt a b = true ↔ LexLt (versionNumbers a) (versionNumbers b) := by
  have := pySeqLt_iff (versionNumbers a) (versionNumbers b)
  have e : ∀ s, (splitOn '.' s).map to2int = versionNumbers s := fun s => VFields.list.inj (fields_ofStr s)
  unfold verLt
  rw [e, e]
  exact this

example : verLt py!"0.10" py!"0.3" = false ∧ verLt py!"0.2.9" py!"0.3" = true ∧ verLt py!"0.x" py!"0.3" = true := by decide

/-- C01: exactly one of `<`, `==`, `>` holds. -/
theorem C01_trichotomy (a b : Str) :
    (Version.lt (.ofStr a) (.str b) = .ok true ∧ Version.eq (.ofStr a) (.str b) = false ∧
      Version.gt (.ofStr a) (.str b) = .ok false)
    ∨ (Version.lt (.ofStr a) (.str b) = .ok false ∧ Version.eq (.ofStr a) (.str b) = true ∧
      Version.gt (.ofStr a) (.str b) = .ok false)
    ∨ (Version.lt (.ofStr a) (.str b) = .ok false ∧ Version.eq (.ofStr a) (.str b) = false ∧
      Version.gt (.ofStr a) (.str b) = .ok true) := by
  obtain ⟨h1, _, ⟨r, h3, h3'⟩, _, ⟨r', h5, h5'⟩, _⟩ := C01_operators a b
  rw [h3, h5]
  generalize Version.eq (.ofStr a) (.str b) = e at *
  rcases LexLt.total (versionNumbers a) (versionNumbers b) with h | h | h
  · left
    refine ⟨by rw [h3'.2 h], ?_, ?_⟩
    · cases e
      · rfl
      · rw [h1.1 rfl] at h; exact absurd h (LexLt.irrefl _)
    · cases r'
      · rfl
      · exact absurd (h.trans (h5'.1 rfl)) (LexLt.irrefl _)
  · right; left
    rw [h] at h3' h5'
    refine ⟨?_, h1.2 h, ?_⟩
    · cases r
      · rfl
      · exact absurd (h3'.1 rfl) (LexLt.irrefl _)
    · cases r'
      · rfl
      · exact absurd (h5'.1 rfl) (LexLt.irrefl _)
  · right; right
    refine ⟨?_, ?_, by rw [h5'.2 h]⟩
    · cases r
      · rfl
      · exact absurd (h.trans (h3'.1 rfl)) (LexLt.irrefl _)
    · cases e
      · rfl
      · rw [h1.1 rfl] at h; exact absurd h (LexLt.irrefl _)

/-- C01: `<` is transitive. -/
theorem C01_trans (a b c : Str) (h1 : Version.lt (.ofStr a) (.str b) = .ok true)
    (h2 : Version.lt (.ofStr b) (.str c) = .ok true) :
    Version.lt (.ofStr a) (.str c) = .ok true := by
  obtain ⟨_, _, ⟨r, e1, e1'⟩, _⟩ := C01_operators a b
  obtain ⟨_, _, ⟨r', e2, e2'⟩, _⟩ := C01_operators b c
  obtain ⟨_, _, ⟨r'', e3, e3'⟩, _⟩ := C01_operators a c
  rw [e1] at h1; rw [e2] at h2; rw [e3]
  injection h1 with h1; injection h2 with h2
  rw [e3'.2 ((e1'.1 h1).trans (e2'.1 h2))]

example : Version.lt (.ofStr py!"0.9") (.str py!"0.10") = .ok true ∧
    Version.lt (.ofStr py!"0.10") (.str py!"1") = .ok true := by decide

/-- C02 is false of the code: a string version never equals a tuple, whatever
their numbers. -/
theorem C02_tuple_never_equal (s : Str) (t : List Int) :
    Version.eq (.ofStr s) (.tuple t) = false ∧ Version.eq (.ofTuple t) (.str s) = false := by
  exact ⟨rfl, rfl⟩

/-- C02 is false of the code: ordering a string version and a tuple always
raises `TypeError`. -/
theorem C02_tuple_order_raises (s : Str) (t : List Int) :
    Version.lt (.ofStr s) (.tuple t) = .error .typeError ∧
    Version.le (.ofStr s) (.tuple t) = .error .typeError ∧
    Version.gt (.ofStr s) (.tuple t) = .error .typeError ∧
    Version.ge (.ofStr s) (.tuple t) = .error .typeError := by
  exact ⟨rfl, rfl, rfl, rfl⟩

/-- C02 refuted at a concrete case: `Version("0.4")` against `(0, 4)`. -/
theorem C02_negation :
    ¬ (∀ (s : Str) (t : List Int), t ≠ [] →
        Version.eq (.ofStr s) (.tuple t) = Version.eq (.ofStr s) (.str (joinWith ['.'] (t.map intStr)))) := by
  intro h
  have := h py!"0.4" [0, 4] (by simp)
  revert this
  decide

/-- C02, the part that holds: between two tuples the operators give the same
answers as between the two dotted strings.  Missing: a string against a tuple,
which fails (`C02_tuple_never_equal`, `C02_tuple_order_raises`). -/
theorem C02_same_kind_partial (t u : List Int) (ht : t ≠ []) (hu : u ≠ []) :
    let s := joinWith ['.'] (t.map intStr)
    let r := joinWith ['.'] (u.map intStr)
    Version.eq (.ofTuple t) (.tuple u) = Version.eq (.ofStr s) (.str r)
    ∧ Version.lt (.ofTuple t) (.tuple u) = Version.lt (.ofStr s) (.str r)
    ∧ Version.le (.ofTuple t) (.tuple u) = Version.le (.ofStr s) (.str r)
    ∧ Version.gt (.ofTuple t) (.tuple u) = Version.gt (.ofStr s) (.str r)
    ∧ Version.ge (.ofTuple t) (.tuple u) = Version.ge (.ofStr s) (.str r)
    ∧ Version.ne (.ofTuple t) (.tuple u) = Version.ne (.ofStr s) (.str r) := by
  intro s r
  have hs : versionNumbers s = t := versionNumbers_dotted ht
  have hr : versionNumbers r = u := versionNumbers_dotted hu
  have ht' : (VArg.tuple u).toVersion.fields = .tuple u := rfl
  have ht'' : (Version.ofTuple t).fields = .tuple t := rfl
  simp only [Version.eq, Version.ne, Version.lt, Version.le, Version.gt, Version.ge,
    fields_toVersion_str, fields_ofStr, hs, hr, ht', ht'', VFields.eq, VFields.lt]
  simp

example : joinWith ['.'] ([0, -3, 12].map intStr) = py!"0.-3.12" := by decide

end Verif
