import Verif.Py.StrLemmas
/-!
# `int()` reads back what `str()` writes
-/

namespace Verif

/-- `str(i)` for an integer. -/
def intStr (i : Int) : Str :=
  match i with
  | .ofNat n => natStr n
  | .negSucc n => '-' :: natStr (n + 1)

theorem digitVal_ascii {c : Char} (h : c.isDigit) : digitVal c = some (c.toNat - 48) := by
  simp only [Char.isDigit, Bool.and_eq_true, decide_eq_true_eq, ge_iff_le] at h
  have h1 : 48 ≤ c.toNat := h.1
  have h2 : c.toNat ≤ 57 := h.2
  unfold digitVal digitZeros
  rw [List.find?_cons_of_pos]
  · rfl
  · simp; omega

theorem parseDigits_ascii {l : Str} (h : ∀ c ∈ l, c.isDigit) (acc : Nat) (b : Bool)
    (hb : b = true → l ≠ []) : parseDigits acc b l = some (Nat.ofDigitChars 10 l acc) := by
  induction l generalizing acc b with
  | nil =>
    cases b with
    | true => simp at hb
    | false => simp [parseDigits]
  | cons c cs ih =>
    have hc := h c (by simp)
    have hu : c ≠ '_' := by rintro rfl; simp at hc
    simp only [parseDigits, if_neg hu, digitVal_ascii hc]
    rw [ih (fun c hc => h c (by simp [hc])) _ _ (by simp), Nat.ofDigitChars_cons]
    congr 2
    simp [Nat.mul_comm]

theorem isDigit_natStr {n : Nat} {c : Char} (h : c ∈ natStr n) : c.isDigit :=
  Nat.isDigit_of_mem_toDigits (by omega) (by omega) h

theorem isSpace_digit {c : Char} (h : c.isDigit) : isSpace c = false := by
  simp only [Char.isDigit, Bool.and_eq_true, decide_eq_true_eq, ge_iff_le] at h
  have h1 : 48 ≤ c.toNat := h.1
  have h2 : c.toNat ≤ 57 := h.2
  simp [isSpace]; omega

theorem natStr_ne_nil (n : Nat) : natStr n ≠ [] := Nat.toDigits_ne_nil

theorem trimmed_of_no_space {s : Str} (h : ∀ c ∈ s, isSpace c = false) : Trimmed s :=
  ⟨fun c hc => h c (List.mem_of_mem_head? hc), fun c hc => h c (List.mem_of_getLast? hc)⟩

theorem strip_natStr (n : Nat) : strip (natStr n) = natStr n :=
  strip_of_trimmed (trimmed_of_no_space (fun _ hc => isSpace_digit (isDigit_natStr hc)))

theorem parseDigits_natStr (n : Nat) : parseDigits 0 true (natStr n) = some n := by
  rw [parseDigits_ascii (fun c hc => isDigit_natStr hc) 0 true (fun _ => natStr_ne_nil n)]
  simp [natStr, Nat.ofDigitChars_ten_toDigits]

/-- `int(str(n)) == n`. -/
theorem pyInt_natStr (n : Nat) : pyInt (natStr n) = some (n : Int) := by
  unfold pyInt
  rw [strip_natStr]
  split
  · rename_i r h
    have := isDigit_natStr (n := n) (c := '-') (by rw [h]; simp)
    simp at this
  · rename_i r h
    have := isDigit_natStr (n := n) (c := '+') (by rw [h]; simp)
    simp at this
  · rw [parseDigits_natStr]; rfl

/-- `int(str(i)) == i`. -/
theorem pyInt_intStr (i : Int) : pyInt (intStr i) = some i := by
  cases i with
  | ofNat n => exact pyInt_natStr n
  | negSucc n =>
    have ht : strip ('-' :: natStr (n+1)) = '-' :: natStr (n+1) := by
      apply strip_of_trimmed
      apply trimmed_of_no_space
      intro c hc
      rcases List.mem_cons.1 hc with h | h
      · subst h; decide
      · exact isSpace_digit (isDigit_natStr h)
    simp only [intStr, pyInt, ht, parseDigits_natStr]
    rfl

theorem natStr_injective {m n : Nat} (h : natStr m = natStr n) : m = n := by
  have := pyInt_natStr m
  rw [h, pyInt_natStr] at this
  injection this with this
  omega

theorem dot_not_mem_intStr (i : Int) : '.' ∉ intStr i := by
  cases i with
  | ofNat n => intro h; have := isDigit_natStr h; simp at this
  | negSucc n =>
    intro h
    rcases List.mem_cons.1 h with h | h
    · simp at h
    · have := isDigit_natStr h; simp at this

/-! ### What `int` accepts

The documentation of Python: digits, with single underscores allowed between digits, an optional sign before them and
white space around. -/

/-- Digits with single underscores between them, and the number they write. -/
inductive DigitString : Str → Nat → Prop
  | one (c d) : digitVal c = some d → DigitString [c] d
  | more (s n c d) : DigitString s n → digitVal c = some d → DigitString (s ++ [c]) (n * 10 + d)
  | under (s n c d) : DigitString s n → digitVal c = some d → DigitString (s ++ ['_', c]) (n * 10 + d)

theorem digitVal_underscore : digitVal '_' = none := by decide

theorem parseDigits_snoc {c : Char} {d : Nat} (hc : digitVal c = some d) : ∀ (s : Str) (acc : Nat) (b : Bool) (n : Nat),
    parseDigits acc b s = some n → parseDigits acc b (s ++ [c]) = some (n * 10 + d) := by
  have hu : c ≠ '_' := fun e => by rw [e, digitVal_underscore] at hc; cases hc
  intro s
  induction s with
  | nil =>
    intro acc b n h
    cases b with
    | true => simp [parseDigits] at h
    | false =>
      simp only [parseDigits, Bool.false_eq_true, if_false, Option.some.injEq] at h
      simp [parseDigits, if_neg hu, hc, h]
  | cons a s ih =>
    intro acc b n h
    simp only [parseDigits, List.cons_append] at h ⊢
    by_cases ha : a = '_'
    · rw [if_pos ha] at h ⊢
      cases b with
      | true => simp at h
      | false => simp only [Bool.false_eq_true, if_false] at h ⊢; exact ih _ _ _ h
    · rw [if_neg ha] at h ⊢
      cases hd : digitVal a with
      | none => rw [hd] at h; cases h
      | some x => rw [hd] at h; exact ih _ _ _ h

theorem parseDigits_under {c : Char} {d : Nat} (hc : digitVal c = some d) : ∀ (s : Str) (acc : Nat) (b : Bool) (n : Nat),
    parseDigits acc b s = some n → parseDigits acc b (s ++ ['_', c]) = some (n * 10 + d) := by
  have hu : c ≠ '_' := fun e => by rw [e, digitVal_underscore] at hc; cases hc
  intro s
  induction s with
  | nil =>
    intro acc b n h
    cases b with
    | true => simp [parseDigits] at h
    | false =>
      simp only [parseDigits, Bool.false_eq_true, if_false, Option.some.injEq] at h
      simp [parseDigits, if_neg hu, hc, h]
  | cons a s ih =>
    intro acc b n h
    simp only [parseDigits, List.cons_append] at h ⊢
    by_cases ha : a = '_'
    · rw [if_pos ha] at h ⊢
      cases b with
      | true => simp at h
      | false => simp only [Bool.false_eq_true, if_false] at h ⊢; exact ih _ _ _ h
    · rw [if_neg ha] at h ⊢
      cases hd : digitVal a with
      | none => rw [hd] at h; cases h
      | some x => rw [hd] at h; exact ih _ _ _ h

theorem digitString_of_parse : ∀ (s pre : Str) (acc n : Nat),
    (DigitString pre acc → parseDigits acc false s = some n → DigitString (pre ++ s) n) ∧
    (DigitString pre acc → parseDigits acc true s = some n → DigitString (pre ++ '_' :: s) n) := by
  intro s
  induction s with
  | nil =>
    intro pre acc n
    refine ⟨fun hp h => ?_, fun _ h => by simp [parseDigits] at h⟩
    simp only [parseDigits, Bool.false_eq_true, if_false, Option.some.injEq] at h
    subst h; simpa using hp
  | cons a s ih =>
    intro pre acc n
    refine ⟨fun hp h => ?_, fun hp h => ?_⟩
    · simp only [parseDigits] at h
      by_cases ha : a = '_'
      · rw [if_pos ha] at h
        simp only [Bool.false_eq_true, if_false] at h
        rw [ha]
        exact (ih pre acc n).2 hp h
      · rw [if_neg ha] at h
        cases hd : digitVal a with
        | none => rw [hd] at h; cases h
        | some x =>
          rw [hd] at h
          have := (ih (pre ++ [a]) (acc * 10 + x) n).1 (.more _ _ _ _ hp hd) h
          simpa using this
    · simp only [parseDigits] at h
      by_cases ha : a = '_'
      · rw [if_pos ha] at h; simp at h
      · rw [if_neg ha] at h
        cases hd : digitVal a with
        | none => rw [hd] at h; cases h
        | some x =>
          rw [hd] at h
          have := (ih (pre ++ ['_', a]) (acc * 10 + x) n).1 (.under _ _ _ _ hp hd) h
          simpa using this

/-- `parseDigits` reads exactly the digit strings. -/
theorem parseDigits_iff (s : Str) (n : Nat) : parseDigits 0 true s = some n ↔ DigitString s n := by
  refine ⟨fun h => ?_, fun h => ?_⟩
  · cases s with
    | nil => simp [parseDigits] at h
    | cons a s =>
      simp only [parseDigits] at h
      by_cases ha : a = '_'
      · rw [if_pos ha] at h; simp at h
      · rw [if_neg ha] at h
        cases hd : digitVal a with
        | none => rw [hd] at h; cases h
        | some x =>
          rw [hd] at h
          replace h : parseDigits (0 * 10 + x) false s = some n := h
          rw [Nat.zero_mul, Nat.zero_add] at h
          exact (digitString_of_parse s [a] x n).1 (.one _ _ hd) h
  · induction h with
    | one c d hc =>
      have hu : c ≠ '_' := fun e => by rw [e, digitVal_underscore] at hc; cases hc
      simp [parseDigits, if_neg hu, hc]
    | more s n c d _ hc ih => exact parseDigits_snoc hc s 0 true n ih
    | under s n c d _ hc ih => exact parseDigits_under hc s 0 true n ih

/-- What `int` accepts, and the number: white space around an optional sign and a digit string. -/
theorem pyInt_iff (s : Str) (i : Int) : pyInt s = some i ↔
    ∃ n, (DigitString (strip s) n ∧ i = n) ∨
      ∃ r, DigitString r n ∧ ((strip s = '+' :: r ∧ i = n) ∨ (strip s = '-' :: r ∧ i = -(n : Int))) := by
  have notsign : ∀ r n, ¬ DigitString ('-' :: r) n ∧ ¬ DigitString ('+' :: r) n := by
    intro r n
    have m : digitVal '-' = none := by decide
    have p : digitVal '+' = none := by decide
    refine ⟨fun h => ?_, fun h => ?_⟩ <;>
      · have := (parseDigits_iff _ _).2 h
        simp [parseDigits, m, p] at this
  have mapped : ∀ (r : Str) (f : Int → Int), (Option.map f (do let a ← parseDigits 0 true r; pure (a : Int)) = some i) ↔
      ∃ n : Nat, DigitString r n ∧ f n = i := by
    intro r f
    simp only [← parseDigits_iff]
    cases parseDigits 0 true r with
    | none => exact ⟨fun h => (Option.some_ne_none _ h.symm).elim, fun ⟨_, h, _⟩ => (Option.some_ne_none _ h.symm).elim⟩
    | some m => exact ⟨fun h => ⟨m, rfl, Option.some.inj h⟩, fun ⟨n, h, e⟩ => by rw [Option.some.inj h]; exact congrArg some e⟩
  unfold pyInt
  split
  · rename_i r hr
    refine (mapped r _).trans ⟨fun ⟨n, h, e⟩ => ⟨n, .inr ⟨r, h, .inr ⟨hr, e.symm⟩⟩⟩, ?_⟩
    rintro ⟨n, ⟨h, _⟩ | ⟨r', h, ⟨e, _⟩ | ⟨e, e2⟩⟩⟩
    · rw [hr] at h; exact absurd h (notsign _ _).1
    · rw [hr] at e; simp at e
    · rw [hr] at e; simp at e; exact ⟨n, e ▸ h, e2.symm⟩
  · rename_i r hr
    refine (mapped r _).trans ⟨fun ⟨n, h, e⟩ => ⟨n, .inr ⟨r, h, .inl ⟨hr, e.symm⟩⟩⟩, ?_⟩
    rintro ⟨n, ⟨h, _⟩ | ⟨r', h, ⟨e, e2⟩ | ⟨e, e2⟩⟩⟩
    · rw [hr] at h; exact absurd h (notsign _ _).2
    · rw [hr] at e; simp at e; exact ⟨n, e ▸ h, e2.symm⟩
    · rw [hr] at e; simp at e
  · rename_i h1 h2
    refine (mapped _ _).trans ⟨fun ⟨n, h, e⟩ => ⟨n, .inl ⟨h, e.symm⟩⟩, ?_⟩
    rintro ⟨n, ⟨h, e⟩ | ⟨r', h, ⟨e, e2⟩ | ⟨e, e2⟩⟩⟩
    · exact ⟨n, h, e.symm⟩
    · exact absurd e (h2 r')
    · exact absurd e (h1 r')

end Verif
