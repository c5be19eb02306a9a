import Verif.Props.SplitValid
import Verif.Spec.Validate
/-! # How the tag files of a split look to the head bag validator -/

namespace Verif
open Spec

theorem isNl_of_isBreak {c : Char} (h : isBreak c = false) : isNl c = false := by
  cases e : isNl c with
  | false => rfl
  | true => rw [isNl_isBreak e] at h; cases h

theorem strip_newline {s : Str} (h : Trimmed s) : strip (s ++ ['\n']) = s := by
  by_cases hs : s = []
  · subst hs; decide
  · unfold strip
    have h1 : rstripBy isSpace (s ++ ['\n']) = s := by
      unfold rstripBy
      rw [List.reverse_append, List.reverse_singleton, List.singleton_append,
        List.dropWhile_cons_of_pos (by decide)]
      have := rstripBy_eq_self h.2
      unfold rstripBy at this
      exact this
    have h2 : lstripBy isSpace (s ++ ['\n']) = s ++ ['\n'] := by
      unfold lstripBy
      apply dropWhile_eq_self_of_head
      intro c hc
      cases s with
      | nil => exact absurd rfl hs
      | cons x xs => exact h.1 c hc
    rw [h2, h1]

/-- The rows of a member list as it is written by a split. -/
theorem rows_members {members : List Str} (h : ∀ m ∈ members, Clean m) :
    memberRows (members.map (· ++ ['\n'])).flatten = members.map (fun m => [m]) := by
  unfold memberRows rows
  rw [textLines_universal _ (fun l hl c hc => isNl_of_isBreak ((h l hl).nobreak c hc))]
  have hf : (members.map (· ++ ['\n'])).filter (fun l => strip l ≠ []) = members.map (· ++ ['\n']) := by
    rw [List.filter_eq_self]
    intro l hl
    obtain ⟨m, hm, rfl⟩ := List.mem_map.1 hl
    rw [strip_newline (h m hm).noouter]
    simpa using (h m hm).nonempty
  rw [hf, List.map_map]
  apply List.map_congr_left
  intro m hm
  simp only [Function.comp]
  rw [strip_newline (h m hm).noouter, splitOn_noSep (h m hm).notab, List.map_singleton, strip_of_trimmed (h m hm).noouter]

/-- The rows of a lookup list as it is written by a split. -/
theorem rows_lookup {dest : List (Str × Str)} (h : ∀ e ∈ dest, Clean e.1 ∧ Clean e.2) :
    lookupRows (lookupText dest) = dest.map (fun e => [e.1, e.2]) := by
  have e1 : lookupText dest = ((dest.map (fun e => e.1 ++ '\t' :: e.2)).map (· ++ ['\n'])).flatten := by
    unfold lookupText
    rw [List.map_map]
    congr 1
  unfold lookupRows rows
  rw [e1, textLines_universal]
  · have hf : ((dest.map (fun e => e.1 ++ '\t' :: e.2)).map (· ++ ['\n'])).filter (fun l => strip l ≠ []) =
        (dest.map (fun e => e.1 ++ '\t' :: e.2)).map (· ++ ['\n']) := by
      rw [List.filter_eq_self]
      intro l hl
      obtain ⟨m, hm, rfl⟩ := List.mem_map.1 hl
      obtain ⟨e, he, rfl⟩ := List.mem_map.1 hm
      obtain ⟨h1, h2⟩ := h e he
      rw [decide_eq_true_eq]
      intro hs
      have := strip_eq_nil_iff.1 hs
      obtain ⟨x, xs, hx⟩ := List.exists_cons_of_ne_nil h1.nonempty
      have hsp := this x (by rw [hx]; simp)
      rw [h1.noouter.1 x (by rw [hx]; rfl)] at hsp
      cases hsp
    rw [hf, List.map_map, List.map_map]
    apply List.map_congr_left
    intro e he
    obtain ⟨h1, h2⟩ := h e he
    simp only [Function.comp]
    rw [List.append_assoc, List.cons_append, splitOn_append, splitOn_noSep h1.notab, splitOn_noSep (by
      intro hm
      rcases List.mem_append.1 hm with hm | hm
      · exact h2.notab hm
      · simp at hm)]
    simp only [List.singleton_append, List.map_cons, List.map_nil]
    rw [strip_newline h2.noouter, strip_of_trimmed h1.noouter]
  · intro l hl c hc
    obtain ⟨e, he, rfl⟩ := List.mem_map.1 hl
    obtain ⟨h1, h2⟩ := h e he
    rcases List.mem_append.1 hc with hc | hc
    · exact isNl_of_isBreak (h1.nobreak c hc)
    · rcases List.mem_cons.1 hc with rfl | hc
      · decide
      · exact isNl_of_isBreak (h2.nobreak c hc)

/-- Nothing but whitespace is read as nothing. -/
theorem reread_ne_nil {v : Str} (ht : Trimmed v) (hne : v ≠ []) : reread v ≠ [] := by
  obtain ⟨x, xs, rfl⟩ := List.exists_cons_of_ne_nil hne
  have hx : isSpace x = false := ht.1 x rfl
  have hnl : x ≠ '\n' := by rintro rfl; exact absurd hx (by decide)
  unfold reread
  cases hsp : splitOn '\n' (x :: xs) with
  | nil => exact absurd hsp (splitOn_ne_nil _ _)
  | cons l0 ls =>
    simp only
    intro e
    have hs := (List.append_eq_nil_iff.1 e).1
    have hl0 : l0.head? = some x := by
      unfold splitOn at hsp
      simp only [hnl, if_false] at hsp
      split at hsp
      · next hnil => exact absurd hnil (splitOn_ne_nil _ _)
      · cases hsp; rfl
    have := strip_eq_nil_iff.1 hs x (List.mem_of_mem_head? hl0)
    rw [hx] at this; cases this

theorem nodup_dupdate {old l : List (Str × Str)} (h : (dkeys old).Nodup) : (dkeys (dupdate old l)).Nodup := by
  unfold dupdate
  induction l generalizing old with
  | nil => exact h
  | cons x l ih => exact ih (nodup_dset h _ _)

end Verif
