import Verif.Model.Constants
import Verif.Spec.Version
/-!
# Lemmas about version order
-/

namespace Verif

open Spec

theorem pySeqLt_iff (a b : List Int) : pySeqLt a b = true ↔ LexLt a b := by
  constructor
  · intro h
    fun_induction pySeqLt a b with
    | case1 => simp at h
    | case2 => exact .nil _ _
    | case3 a as bs ih => exact .tail _ (ih h)
    | case4 a as b bs hne => exact .head _ _ (by simpa using h)
  · intro h
    induction h with
    | nil => rfl
    | head as bs hlt => rename_i a b; simp only [pySeqLt]; rw [if_neg (by omega)]; simpa using hlt
    | tail a _ ih => simpa [pySeqLt] using ih

theorem Spec.LexLt.irrefl (a : List Int) : ¬ LexLt a a := by
  induction a with
  | nil => intro h; cases h
  | cons x xs ih =>
    intro h
    cases h with
    | head _ _ h => omega
    | tail _ h => exact ih h

theorem Spec.LexLt.trans {a b c : List Int} (h1 : LexLt a b) (h2 : LexLt b c) : LexLt a c := by
  induction h1 generalizing c with
  | nil => cases h2 <;> exact .nil _ _
  | head as bs h =>
    cases h2 with
    | head _ _ h' => exact .head _ _ (by omega)
    | tail _ h' => exact .head _ _ h
  | tail a h ih =>
    cases h2 with
    | head _ _ h' => exact .head _ _ h'
    | tail _ h' => exact .tail _ (ih h')

theorem Spec.LexLt.total (a b : List Int) : LexLt a b ∨ a = b ∨ LexLt b a := by
  induction a generalizing b with
  | nil => cases b with
    | nil => simp
    | cons => exact .inl (.nil _ _)
  | cons x xs ih =>
    cases b with
    | nil => exact .inr (.inr (.nil _ _))
    | cons y ys =>
      rcases Int.lt_trichotomy x y with h | h | h
      · exact .inl (.head _ _ h)
      · subst h
        rcases ih ys with h | h | h
        · exact .inl (.tail _ h)
        · exact .inr (.inl (by rw [h]))
        · exact .inr (.inr (.tail _ h))
      · exact .inr (.inr (.head _ _ h))

theorem fields_ofStr (s : Str) : (Version.ofStr s).fields = .list (versionNumbers s) := by
  simp only [Version.ofStr, versionNumbers, VFields.list.injEq, List.map_inj_left]
  intro f _
  unfold to2int
  cases pyInt f <;> rfl

theorem fields_toVersion_str (s : Str) :
    (VArg.str s).toVersion.fields = .list (versionNumbers s) := fields_ofStr s

theorem versionNumbers_dotted {t : List Int} (h : t ≠ []) :
    versionNumbers (joinWith ['.'] (t.map intStr)) = t := by
  unfold versionNumbers
  rw [splitOn_joinWith (by simpa using h)]
  · simp [List.map_map, Function.comp_def, pyInt_intStr]
  · intro f hf
    obtain ⟨i, _, rfl⟩ := List.mem_map.1 hf
    exact dot_not_mem_intStr i

end Verif
