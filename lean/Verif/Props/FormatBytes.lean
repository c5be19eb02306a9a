import Verif.Model.FormatBytes
import Verif.Spec.FormatBytes
import Verif.Py.IntLemmas
import Verif.Lemmas.Restore
/-!
# Sizes as text (C92)
-/

namespace Verif

open Spec

theorem digitsVal_natStr (n : Nat) : digitsVal (natStr n) = n := by
  have h : ∀ (s : Str) (v : Nat), s.foldl (fun v c => v * 10 + (c.toNat - '0'.toNat)) v = Nat.ofDigitChars 10 s v := by
    intro s
    induction s with
    | nil => intro v; rfl
    | cons c s ih => intro v; rw [List.foldl_cons, ih, Nat.ofDigitChars_cons, Nat.mul_comm]
  unfold digitsVal
  rw [h]
  simp [natStr, Nat.ofDigitChars_ten_toDigits]

/-- The three digits after the point. -/
theorem frac_digits : ∀ r < 1000,
    let frac := rstripBy (· = '0') [Nat.digitChar (r / 100), Nat.digitChar (r % 100 / 10), Nat.digitChar (r % 10)]
    (if frac = [] then r = 0 else 1 ≤ frac.length ∧ frac.length ≤ 3 ∧ digitsVal frac * 10 ^ (3 - frac.length) = r) ∧
      '.' ∉ frac ∧ ' ' ∉ frac := by
  decide +kernel

theorem noSpace_natStr (n : Nat) : ' ' ∉ natStr n ∧ '.' ∉ natStr n := by
  constructor <;> intro h <;> have := isDigit_natStr h <;> simp at this

theorem thousandthsText_space (v : Nat) : ' ' ∉ thousandthsText v := by
  have := (frac_digits (v % 1000) (Nat.mod_lt _ (by decide))).2.2
  unfold thousandthsText
  simp only at this ⊢
  intro h
  rcases List.mem_append.1 h with h | h
  · exact (noSpace_natStr _).1 h
  · split at h
    · cases h
    · rcases List.mem_cons.1 h with h | h
      · cases h
      · exact this h

theorem decimal_text (v : Nat) : decimalThousandths (thousandthsText v) = some v := by
  obtain ⟨h1, h2, _⟩ := frac_digits (v % 1000) (Nat.mod_lt _ (by decide))
  have hv := Nat.div_add_mod v 1000
  unfold decimalThousandths thousandthsText
  simp only at h1 h2 ⊢
  split at h1
  · next hf =>
    rw [if_pos hf, List.append_nil, splitOn_noSep (noSpace_natStr _).2]
    simp only [digitsVal_natStr]
    congr 1
    omega
  · next hf =>
    rw [if_neg hf, splitOn_append, splitOn_noSep (noSpace_natStr _).2, splitOn_noSep h2]
    simp only [List.cons_append, List.nil_append]
    rw [if_pos ⟨h1.1, h1.2.1⟩, digitsVal_natStr, h1.2.2]
    congr 1
    omega

theorem thousands_spec (n : Nat) : ∀ left ordr, (ordr = 0 ∨ 1000 ^ ordr ≤ n) →
    let k := thousands n left ordr
    ordr ≤ k ∧ k ≤ ordr + left ∧ (k = 0 ∨ 1000 ^ k ≤ n) ∧ (k = ordr + left ∨ n < 1000 ^ (k + 1)) := by
  intro left
  induction left with
  | zero => intro ordr h; simp only [thousands]; exact ⟨Nat.le_refl _, by omega, h, .inl rfl⟩
  | succ left ih =>
    intro ordr h
    simp only [thousands]
    split
    · next hc =>
      obtain ⟨h1, h2, h3, h4⟩ := ih (ordr + 1) (.inr hc)
      exact ⟨by omega, by omega, h3, by omega⟩
    · next hc => exact ⟨Nat.le_refl _, by omega, h, .inr (by omega)⟩

theorem tens_spec (n d : Nat) : ∀ fuel ordr, (ordr = 0 ∨ d * 10 ^ ordr ≤ n) → n < d * 10 ^ (ordr + fuel + 1) →
    let o := tens n d fuel ordr
    (o = 0 ∨ d * 10 ^ o ≤ n) ∧ n < d * 10 ^ (o + 1) := by
  intro fuel
  induction fuel with
  | zero => intro ordr h hn; simp only [tens]; exact ⟨h, hn⟩
  | succ fuel ih =>
    intro ordr h hn
    simp only [tens]
    split
    · next hc =>
      exact ih (ordr + 1) (.inr hc) (by rw [show ordr + 1 + fuel + 1 = ordr + (fuel + 1) + 1 by omega]; exact hn)
    · next hc => exact ⟨h, by omega⟩

theorem lt_ten_pow (n : Nat) : n < 10 ^ (n + 1) := by
  induction n with
  | zero => decide
  | succ n ih => rw [Nat.pow_succ]; omega

theorem sizeThousandths_text {v k : Nat} (hk : k ≤ 4) :
    sizeThousandths (thousandthsText v ++ ' ' :: (sizePrefix k ++ ['B'])) = some (v * 1000 ^ k) := by
  have hu : ' ' ∉ sizePrefix k ++ ['B'] := by
    match k, hk with
    | 0, _ | 1, _ | 2, _ | 3, _ | 4, _ => decide
  unfold sizeThousandths
  rw [splitOn_append, splitOn_noSep (thousandthsText_space v), splitOn_noSep hu]
  simp only [List.cons_append, List.nil_append, decimal_text, Option.bind_some]
  match k, hk with
  | 0, _ => simp [sizePrefix]
  | 1, _ => simp [sizePrefix]
  | 2, _ => simp [sizePrefix]
  | 3, _ => simp [sizePrefix]
  | 4, _ => simp [sizePrefix]

/-- What the parts of the text are. -/
theorem formatBytes_parts {rnd : Nat → Nat → Nat} (hr : Nearest rnd) (n : Nat) :
    ∃ k o q, formatBytes rnd n = thousandthsText (q * 10 ^ o) ++ ' ' :: (sizePrefix k ++ ['B']) ∧ k ≤ 4 ∧
      (k = 0 ∨ 1000 ^ k ≤ n) ∧ (k = 4 ∨ n < 1000 ^ (k + 1)) ∧ (o = 0 ∨ 1000 ^ k * 10 ^ o ≤ n) ∧ n < 1000 ^ k * 10 ^ (o + 1) ∧
      2 * (q * (1000 ^ k * 10 ^ o)) ≤ 2 * (n * 1000) + 1000 ^ k * 10 ^ o ∧
      2 * (n * 1000) ≤ 2 * (q * (1000 ^ k * 10 ^ o)) + 1000 ^ k * 10 ^ o := by
  obtain ⟨h1, h2, h3, h4⟩ := thousands_spec n 4 0 (.inl rfl)
  have hp : 1000 ^ thousands n 4 0 > 0 := Nat.pow_pos (by decide)
  obtain ⟨h5, h6⟩ := tens_spec n (1000 ^ thousands n 4 0) n 0 (.inl rfl) (by
    have := lt_ten_pow n
    rw [Nat.zero_add]
    exact Nat.lt_of_lt_of_le this (Nat.le_mul_of_pos_left _ hp))
  have hb : 1000 ^ thousands n 4 0 * 10 ^ tens n (1000 ^ thousands n 4 0) n 0 > 0 := Nat.mul_pos hp (Nat.pow_pos (by decide))
  obtain ⟨h7, h8⟩ := hr (n * 1000) _ hb
  exact ⟨_, _, _, rfl, by omega, h3, by omega, h5, h6, h7, h8⟩

/-- C92: the size that is read in the text differs from the size in bytes by at most one part in 2000. -/
theorem C92_close {rnd : Nat → Nat → Nat} (hr : Nearest rnd) (n : Nat) :
    ∃ w, sizeThousandths (formatBytes rnd n) = some w ∧ 2000 * w ≤ 2000 * (1000 * n) + 1000 * n ∧
      2000 * (1000 * n) ≤ 2000 * w + 1000 * n := by
  obtain ⟨k, o, q, he, hk, h3, h4, h5, h6, h7, h8⟩ := formatBytes_parts hr n
  refine ⟨_, by rw [he]; exact sizeThousandths_text hk, ?_⟩
  have hw : q * 10 ^ o * 1000 ^ k = q * (1000 ^ k * 10 ^ o) := by
    rw [Nat.mul_assoc, Nat.mul_comm (10 ^ o)]
  rw [hw]
  by_cases hn : 1000 ^ k * 10 ^ o ≤ n
  · omega
  · have ho : o = 0 := by omega
    subst ho
    have hk0 : k = 0 := by
      rcases h3 with h | h
      · exact h
      · simp at hn; omega
    subst hk0
    simp at hn h7 h8
    subst hn
    simp at h7 h8 ⊢
    try omega

/-- C92: a size below 10000 bytes can be read exactly. -/
theorem C92_exact {rnd : Nat → Nat → Nat} (hr : Nearest rnd) {n : Nat} (hn : n < 10000) :
    sizeThousandths (formatBytes rnd n) = some (1000 * n) := by
  obtain ⟨k, o, q, he, hk, h3, h4, h5, h6, h7, h8⟩ := formatBytes_parts hr n
  rw [he, sizeThousandths_text hk]
  congr 1
  have hw : q * 10 ^ o * 1000 ^ k = q * (1000 ^ k * 10 ^ o) := by
    rw [Nat.mul_assoc, Nat.mul_comm (10 ^ o)]
  rw [hw]
  generalize hb : 1000 ^ k * 10 ^ o = b at *
  have hdvd : b ∣ 1000 := by
    have hle : b ≤ n ∨ b = 1 := by
      rcases h5 with rfl | h
      · rcases h3 with rfl | h
        · right; rw [← hb]
        · left; rw [← hb]; simpa using h
      · exact .inl h
    have hbt : b = 10 ^ (3 * k + o) := by
      rw [← hb, Nat.pow_add, Nat.pow_mul]
    have : 3 * k + o ≤ 3 := by
      apply Classical.byContradiction
      intro hc
      have h1 : 10 ^ 4 ≤ 10 ^ (3 * k + o) := Nat.pow_le_pow_right (by decide) (by omega)
      rw [← hbt] at h1
      omega
    rw [hbt]
    exact Nat.pow_dvd_pow 10 this
  obtain ⟨c, hc⟩ := hdvd
  have hbpos : b > 0 := by
    cases b with
    | zero => omega
    | succ b => omega
  -- `q * b` and `n * c * b` differ by at most half of `b`
  have e : n * 1000 = n * c * b := by rw [hc, Nat.mul_comm b c, Nat.mul_assoc]
  rw [e] at h7 h8
  have h9 : q = n * c := by
    rcases Nat.lt_trichotomy q (n * c) with h | h | h
    · exfalso
      have : (q + 1) * b ≤ n * c * b := Nat.mul_le_mul_right b h
      rw [Nat.add_mul] at this
      omega
    · exact h
    · exfalso
      have : (n * c + 1) * b ≤ q * b := Nat.mul_le_mul_right b h
      rw [Nat.add_mul] at this
      omega
  rw [h9, ← e, Nat.mul_comm]

/-- C92: a size is written as a number of at most 1000, and of at least 1 for anything but a size in bytes, a space and a unit.
Missing: that the number is less than 1000 (`C92_negation_unit`). -/
theorem C92_number_partial {rnd : Nat → Nat → Nat} (hr : Nearest rnd) {n : Nat} (hn : n < 1000 ^ 5) :
    ∃ num unit v, formatBytes rnd n = num ++ ' ' :: unit ∧ unit ∈ [py!"B", py!"kB", py!"MB", py!"GB", py!"TB"] ∧
      decimalThousandths num = some v ∧ v ≤ 1000 * 1000 ∧ (unit = py!"B" ∨ 1000 * 1 ≤ v) := by
  obtain ⟨k, o, q, he, hk, h3, h4, h5, h6, h7, h8⟩ := formatBytes_parts hr n
  refine ⟨_, _, q * 10 ^ o, he, ?_, decimal_text _, ?_, ?_⟩
  · match k, hk with
    | 0, _ | 1, _ | 2, _ | 3, _ | 4, _ => decide
  · have hlt : n < 1000 ^ (k + 1) := by
      rcases h4 with rfl | h
      · exact hn
      · exact h
    have hd : 1000 ^ k > 0 := Nat.pow_pos (by decide)
    have ho : o ≤ 2 := by
      rcases h5 with h | h
      · omega
      · apply Classical.byContradiction
        intro hc
        have h1 : 10 ^ 3 ≤ 10 ^ o := Nat.pow_le_pow_right (by decide) (by omega)
        have h2 : 1000 ^ k * 10 ^ 3 ≤ 1000 ^ k * 10 ^ o := Nat.mul_le_mul_left _ h1
        rw [Nat.pow_succ] at hlt
        omega
    have hb : 1000 ^ k * 10 ^ o > 0 := Nat.mul_pos hd (Nat.pow_pos (by decide))
    have hq : q ≤ 10000 := by
      rw [Nat.pow_succ, ← Nat.mul_assoc] at h6
      apply Classical.byContradiction
      intro hc
      have : 10001 * (1000 ^ k * 10 ^ o) ≤ q * (1000 ^ k * 10 ^ o) := Nat.mul_le_mul_right _ (by omega)
      omega
    have h10 : 10 ^ o ≤ 10 ^ 2 := Nat.pow_le_pow_right (by decide) ho
    have := Nat.mul_le_mul hq h10
    omega
  · rcases h3 with rfl | h
    · exact .inl rfl
    · right
      have hb : 1000 ^ k * 10 ^ o ≤ n := by
        rcases h5 with rfl | h5
        · simpa using h
        · exact h5
      have hbp : 1000 ^ k * 10 ^ o > 0 := Nat.mul_pos (Nat.pow_pos (by decide)) (Nat.pow_pos (by decide))
      have hq : 1000 ≤ q := by
        apply Classical.byContradiction
        intro hc
        have : q * (1000 ^ k * 10 ^ o) ≤ 999 * (1000 ^ k * 10 ^ o) := Nat.mul_le_mul_right _ (by omega)
        omega
      have := Nat.mul_le_mul hq (show 1 ≤ 10 ^ o from Nat.pow_pos (by decide))
      omega

/-- C92 is false: the number can be 1000, where the next unit should be used. -/
theorem C92_negation_unit {rnd : Nat → Nat → Nat} (hr : Nearest rnd) : formatBytes rnd 999999 = py!"1000 kB" := by
  have hk : thousands 999999 4 0 = 1 := by decide +kernel
  have ho : tens 999999 (1000 ^ 1) 999999 0 = 2 := by
    decide +kernel
  have hq : rnd (999999 * 1000) (1000 ^ 1 * 10 ^ 2) = 10000 := by
    have := hr (999999 * 1000) (1000 ^ 1 * 10 ^ 2) (by decide)
    omega
  unfold formatBytes
  simp only [hk, ho, hq]
  decide +kernel

/-- Rounding half down is a way of rounding to the nearest number. -/
def Sample.rnd (a b : Nat) : Nat := (2 * a + b - 1) / (2 * b)

theorem Sample.rnd_nearest : Nearest Sample.rnd := by
  intro a b hb
  unfold Sample.rnd
  have h1 := Nat.div_add_mod (2 * a + b - 1) (2 * b)
  have h2 := Nat.mod_lt (2 * a + b - 1) (show 2 * b > 0 by omega)
  have e : 2 * b * ((2 * a + b - 1) / (2 * b)) = 2 * ((2 * a + b - 1) / (2 * b) * b) := by
    rw [Nat.mul_assoc, Nat.mul_comm b]
  rw [e] at h1
  omega

example : formatBytes Sample.rnd 0 = py!"0 B" ∧ formatBytes Sample.rnd 123 = py!"123 B" ∧
    formatBytes Sample.rnd 1234 = py!"1.234 kB" ∧ formatBytes Sample.rnd 12346 = py!"12.35 kB" := by decide +kernel

example : sizeThousandths py!"12.35 kB" = some 12350000 := by decide +kernel

end Verif
