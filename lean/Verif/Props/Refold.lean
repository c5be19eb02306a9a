import Verif.Lemmas.Refold
import Verif.Py.ListX
/-!
# C82: metadata that is read and written again
-/

namespace Verif

open Spec

/-- C82: labels and values read from a metadata file and written to another are read from there in the same order and
under the same labels.  A value of one line is unchanged; one of several lines has lost its first line break, with
the whitespace before it. -/
theorem C82_rewrite {text : Str} {fs : List (Str × Str)} (h : parseTags .universal text = .ok fs) :
    ∃ gs, parseTags .universal (fieldsText fs) = .ok gs ∧
      Forall₂ (fun f g => g.1 = f.1 ∧ ('\n' ∉ f.2 → g.2 = f.2) ∧
        ∀ first rest, f.2 = first ++ '\n' :: rest → '\n' ∉ first → g.2 = strip first ++ rest) fs gs := by
  have hl := parseTags_loaded h
  refine ⟨_, parseTags_refold fs hl, ?_⟩
  clear h
  induction fs with
  | nil => exact .nil
  | cons f fs ih =>
    refine .cons ⟨rfl, ?_, ?_⟩ (ih (fun g hg => hl g (List.mem_cons_of_mem _ hg)))
    · intro hn
      simp only [reread, splitOn_noSep hn]
      rw [strip_of_trimmed (hl f List.mem_cons_self).2.trimmed]
      simp [joinWith]
    · intro a b e hn
      simp only [reread, e, splitOn_append_sep _ hn, joinWith_splitOn]

/-- C82: metadata without values of several lines is read back as it was. -/
theorem C82_unchanged {text : Str} {fs : List (Str × Str)} (h : parseTags .universal text = .ok fs)
    (h1 : ∀ f ∈ fs, '\n' ∉ f.2) : parseTags .universal (fieldsText fs) = .ok fs := by
  obtain ⟨gs, hg, hf⟩ := C82_rewrite h
  rw [hg]
  clear hg h
  congr 1
  induction hf with
  | nil => rfl
  | cons hab _ ih =>
    rw [ih (fun f hf => h1 f (List.mem_cons_of_mem _ hf))]
    congr 1
    exact Prod.ext hab.1 (hab.2.1 (h1 _ List.mem_cons_self))

/-- C82: metadata is not always unchanged: a value of three lines is read with one line break, and read again with none. -/
theorem C82_lossy : ∃ text fs, parseTags .universal text = .ok fs ∧ parseTags .universal (fieldsText fs) ≠ .ok fs :=
  ⟨py!"Description: one\n two\n three\n", [(py!"Description", py!"one two\n three")], by decide +kernel, by decide +kernel⟩

/-- The hypotheses are met by metadata with values of one and several lines. -/
example : parseTags .universal py!"A: one \n  two\n three \n four\nB: x\n" =
      .ok [(py!"A", py!"one  two\n three \n four"), (py!"B", py!"x")] ∧
    parseTags .universal (fieldsText [(py!"A", py!"one  two\n three \n four"), (py!"B", py!"x")]) =
      .ok [(py!"A", py!"one  two three \n four"), (py!"B", py!"x")] := by
  decide +kernel

end Verif
