import Verif.Py.StrLemmas
/-!
# Lemmas about `re.split(r' +', s)`
-/

namespace Verif

theorem splitRunsAux_ne_nil (c : Char) (b : Bool) (s : Str) : splitRunsAux c b s ≠ [] := by
  induction s generalizing b with
  | nil => simp [splitRunsAux]
  | cons x xs ih =>
    simp only [splitRunsAux]
    split
    · split
      · exact ih _
      · simp
    · split <;> simp

theorem splitRunsAux_noSep {c : Char} {a : Str} (b : Bool) (h : c ∉ a) :
    splitRunsAux c b a = [a] := by
  induction a generalizing b with
  | nil => rfl
  | cons x xs ih =>
    simp only [List.mem_cons, not_or] at h
    simp only [splitRunsAux, if_neg (fun e => h.1 e.symm : ¬ x = c)]
    rw [ih false h.2]

theorem splitRunsAux_true_run {c : Char} (n : Nat) {s : Str} :
    splitRunsAux c true (List.replicate n c ++ s) = splitRunsAux c true s := by
  induction n with
  | zero => rfl
  | succ n ih => simp [List.replicate_succ, splitRunsAux, ih]

theorem splitRunsAux_sep {c : Char} {a : Str} (b : Bool) (n : Nat) (s : Str) (ha : a ≠ [] ∨ b = false)
    (h : c ∉ a) :
    splitRunsAux c b (a ++ List.replicate (n + 1) c ++ s) = a :: splitRunsAux c true s := by
  induction a generalizing b with
  | nil =>
    have hb : b = false := by rcases ha with h | h <;> simp_all
    subst hb
    simp only [List.nil_append, List.replicate_succ, List.cons_append, splitRunsAux, if_true]
    simp [splitRunsAux_true_run]
  | cons x xs ih =>
    simp only [List.mem_cons, not_or] at h
    simp only [List.cons_append, splitRunsAux, if_neg (fun e => h.1 e.symm : ¬ x = c)]
    rw [ih false (.inr rfl) h.2]

/-- A field, a run of separators, and the rest. -/
theorem splitRuns_sep {c : Char} {a s : Str} (n : Nat) (h : c ∉ a) :
    splitRuns c (a ++ List.replicate (n + 1) c ++ s) = a :: splitRunsAux c true s :=
  splitRunsAux_sep false n s (.inr rfl) h

end Verif
