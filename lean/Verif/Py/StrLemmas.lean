import Verif.Py.Str
/-!
# Lemmas about Python strings
-/

namespace Verif

/-! ## split and join -/

theorem splitOn_ne_nil (c : Char) (s : Str) : splitOn c s ≠ [] := by
  cases s with
  | nil => simp [splitOn]
  | cons x xs =>
    unfold splitOn
    split <;> simp
    split <;> simp

theorem splitOn_cons_sep (c : Char) (s : Str) : splitOn c (c :: s) = [] :: splitOn c s := by
  rw [splitOn]
  have h := splitOn_ne_nil c s
  split
  · contradiction
  · rename_i h' t e; simp [e]

theorem splitOn_cons_ne {c x : Char} (s : Str) (hx : x ≠ c) :
    splitOn c (x :: s) = (x :: (splitOn c s).head (splitOn_ne_nil c s)) :: (splitOn c s).tail := by
  have h := splitOn_ne_nil c s
  rw [splitOn]
  split
  · contradiction
  · rename_i h' t e; simp [hx, e]

theorem splitOn_cons_ne' {c x : Char} (s : Str) (hx : x ≠ c) :
    ∃ h t, splitOn c s = h :: t ∧ splitOn c (x :: s) = (x :: h) :: t :=
  ⟨_, _, (List.cons_head_tail (splitOn_ne_nil c s)).symm, splitOn_cons_ne s hx⟩

theorem splitOn_noSep {c : Char} {a : Str} (h : c ∉ a) : splitOn c a = [a] := by
  induction a with
  | nil => rfl
  | cons x xs ih =>
    simp only [List.mem_cons, not_or] at h
    rw [splitOn_cons_ne _ (fun e => h.1 e.symm)]
    simp [ih h.2]

theorem splitOn_append_sep {c : Char} {a : Str} (b : Str) (h : c ∉ a) :
    splitOn c (a ++ c :: b) = a :: splitOn c b := by
  induction a with
  | nil => simp [splitOn_cons_sep]
  | cons x xs ih =>
    simp only [List.mem_cons, not_or] at h
    rw [List.cons_append, splitOn_cons_ne _ (fun e => h.1 e.symm)]
    simp [ih h.2]

theorem joinWith_cons {sep : Str} {x : Str} {l : List Str} (h : l ≠ []) :
    joinWith sep (x :: l) = x ++ sep ++ joinWith sep l := by
  cases l with
  | nil => contradiction
  | cons y ys => rfl

theorem splitOn_joinWith {c : Char} {fs : List Str} (hne : fs ≠ []) (h : ∀ f ∈ fs, c ∉ f) :
    splitOn c (joinWith [c] fs) = fs := by
  induction fs with
  | nil => contradiction
  | cons x xs ih =>
    cases xs with
    | nil => simpa [joinWith] using splitOn_noSep (h x (by simp))
    | cons y ys =>
      rw [joinWith_cons (by simp), List.append_assoc]
      simp only [List.singleton_append]
      rw [splitOn_append_sep _ (h x (by simp)), ih (by simp) (fun f hf => h f (by simp [hf]))]

theorem joinWith_splitOn (c : Char) (s : Str) : joinWith [c] (splitOn c s) = s := by
  induction s with
  | nil => rfl
  | cons x xs ih =>
    by_cases hx : x = c
    · subst hx
      rw [splitOn_cons_sep, joinWith_cons (splitOn_ne_nil _ _), ih]; rfl
    · obtain ⟨h, t, e, e'⟩ := splitOn_cons_ne' xs hx
      rw [e'] ; rw [e] at ih
      cases t with
      | nil => simp [joinWith] at ih ⊢; exact ih
      | cons z zs =>
        rw [joinWith_cons (by simp)] at ih ⊢
        simp at ih ⊢; exact ih

theorem sep_not_mem_splitOn {c : Char} {s f : Str} (hf : f ∈ splitOn c s) : c ∉ f := by
  induction s generalizing f with
  | nil => simp [splitOn] at hf; simp [hf]
  | cons x xs ih =>
    by_cases hx : x = c
    · subst hx
      rw [splitOn_cons_sep] at hf
      rcases List.mem_cons.1 hf with h | h
      · simp [h]
      · exact ih h
    · rw [splitOn_cons_ne _ hx] at hf
      rcases List.mem_cons.1 hf with h | h
      · subst h
        simp only [List.mem_cons, not_or]
        exact ⟨fun e => hx e.symm, ih (List.head_mem _)⟩
      · exact ih (List.mem_of_mem_tail h)

theorem mem_of_mem_splitOn {c x : Char} {s f : Str} (hf : f ∈ splitOn c s) (hx : x ∈ f) :
    x ∈ s := by
  induction s generalizing f with
  | nil => simp [splitOn] at hf; simp [hf] at hx
  | cons y ys ih =>
    by_cases hy : y = c
    · subst hy
      rw [splitOn_cons_sep] at hf
      rcases List.mem_cons.1 hf with h | h
      · simp [h] at hx
      · exact List.mem_cons_of_mem _ (ih h hx)
    · rw [splitOn_cons_ne _ hy] at hf
      rcases List.mem_cons.1 hf with h | h
      · subst h
        rcases List.mem_cons.1 hx with h | h
        · simp [h]
        · exact List.mem_cons_of_mem _ (ih (List.head_mem _) h)
      · exact List.mem_cons_of_mem _ (ih (List.mem_of_mem_tail h) hx)

theorem splitOn_eq_singleton {c : Char} {s f : Str} (h : splitOn c s = [f]) : c ∉ s ∧ f = s := by
  have h1 := joinWith_splitOn c s
  rw [h] at h1
  simp [joinWith] at h1
  subst h1
  exact ⟨sep_not_mem_splitOn (by rw [h]; simp), rfl⟩

/-! ## strip -/

/-- No whitespace at either end (spelled out without `strip`). -/
def Trimmed (s : Str) : Prop :=
  (∀ c, s.head? = some c → isSpace c = false) ∧ (∀ c, s.getLast? = some c → isSpace c = false)

theorem dropWhile_eq_self_of_head {p : Char → Bool} {s : Str}
    (h : ∀ c, s.head? = some c → p c = false) : s.dropWhile p = s := by
  cases s with
  | nil => rfl
  | cons x xs => simp [h x rfl]

theorem dropWhile_head_not {p : Char → Bool} {s : Str} (c : Char)
    (h : (s.dropWhile p).head? = some c) : p c = false := by
  induction s with
  | nil => simp at h
  | cons x xs ih =>
    rw [List.dropWhile_cons] at h
    split at h
    · exact ih h
    · rename_i hx; simp at h; subst h; simpa using hx

theorem rstripBy_eq_self {p : Char → Bool} {s : Str}
    (h : ∀ c, s.getLast? = some c → p c = false) : rstripBy p s = s := by
  unfold rstripBy
  rw [dropWhile_eq_self_of_head]
  · simp
  · intro c hc; rw [List.head?_reverse] at hc; exact h c hc

theorem rstripBy_last {p : Char → Bool} {s : Str} (c : Char)
    (h : (rstripBy p s).getLast? = some c) : p c = false := by
  unfold rstripBy at h
  rw [List.getLast?_reverse] at h
  exact dropWhile_head_not c h

theorem strip_of_trimmed {s : Str} (h : Trimmed s) : strip s = s := by
  unfold strip lstripBy
  rw [dropWhile_eq_self_of_head h.1, rstripBy_eq_self h.2]

theorem rstripBy_prefix (p : Char → Bool) (s : Str) : ∃ t, s = rstripBy p s ++ t ∧ ∀ c ∈ t, p c := by
  refine ⟨(s.reverse.takeWhile p).reverse, ?_, ?_⟩
  · unfold rstripBy
    rw [← List.reverse_append, List.takeWhile_append_dropWhile, List.reverse_reverse]
  · intro c hc
    exact (List.all_eq_true.1 (List.all_takeWhile (p := p) (l := s.reverse))) c (by simpa using hc)

theorem lstripBy_suffix (p : Char → Bool) (s : Str) : ∃ t, s = t ++ lstripBy p s ∧ ∀ c ∈ t, p c :=
  ⟨s.takeWhile p, by simp [lstripBy], fun c hc =>
    (List.all_eq_true.1 (List.all_takeWhile (p := p) (l := s))) c hc⟩

theorem trimmed_strip (s : Str) : Trimmed (strip s) := by
  refine ⟨?_, fun c hc => rstripBy_last c hc⟩
  intro c hc
  unfold strip at hc
  obtain ⟨t, ht, _⟩ := rstripBy_prefix isSpace (lstripBy isSpace s)
  apply dropWhile_head_not (s := s) c
  change (lstripBy isSpace s).head? = some c
  rw [ht, List.head?_append, hc]; rfl

theorem strip_strip (s : Str) : strip (strip s) = strip s := strip_of_trimmed (trimmed_strip s)

theorem strip_eq_self_iff {s : Str} : strip s = s ↔ Trimmed s :=
  ⟨fun h => h ▸ trimmed_strip s, strip_of_trimmed⟩

theorem dropWhile_append_all {p : Char → Bool} {a b : Str} (h : ∀ c ∈ a, p c) :
    (a ++ b).dropWhile p = b.dropWhile p := by
  induction a with
  | nil => rfl
  | cons x xs ih =>
    simp only [List.cons_append, List.dropWhile_cons, h x (by simp), if_true]
    exact ih (fun c hc => h c (by simp [hc]))

theorem rstripBy_append_all {p : Char → Bool} {a b : Str} (h : ∀ c ∈ b, p c) :
    rstripBy p (a ++ b) = rstripBy p a := by
  unfold rstripBy
  rw [List.reverse_append, dropWhile_append_all (by simpa using h)]

/-- Surrounding whitespace does not matter to `strip`. -/
theorem strip_surround {a s b : Str} (ha : ∀ c ∈ a, isSpace c) (hb : ∀ c ∈ b, isSpace c) :
    strip (a ++ s ++ b) = strip s := by
  unfold strip lstripBy
  rw [List.append_assoc, dropWhile_append_all ha]
  by_cases hs : s.dropWhile isSpace = []
  · have hall : ∀ c ∈ s, isSpace c := by
      intro c hc
      have := List.takeWhile_append_dropWhile (p := isSpace) (l := s)
      rw [hs, List.append_nil] at this
      rw [← this] at hc
      exact (List.all_eq_true.1 (List.all_takeWhile (p := isSpace) (l := s))) c hc
    rw [dropWhile_append_all hall, hs]
    have hb' : b.dropWhile isSpace = [] := by
      have := dropWhile_append_all (b := []) hb
      simpa using this
    rw [hb']
  · have : (s ++ b).dropWhile isSpace = s.dropWhile isSpace ++ b := by
      rw [List.dropWhile_append]
      have : (s.dropWhile isSpace).isEmpty = false := by
        cases h : s.dropWhile isSpace <;> simp_all
      rw [this]; simp
    rw [this, rstripBy_append_all hb]

theorem strip_append_space {s b : Str} (hb : ∀ c ∈ b, isSpace c) : strip (s ++ b) = strip s := by
  simpa using strip_surround (a := []) (s := s) (by simp) hb

theorem strip_nil : strip [] = [] := rfl

/-- `strip s` is what is left when surrounding whitespace is removed. -/
theorem strip_decomp (s : Str) :
    ∃ a b, s = a ++ strip s ++ b ∧ (∀ c ∈ a, isSpace c) ∧ (∀ c ∈ b, isSpace c) := by
  obtain ⟨a, ha, ha'⟩ := lstripBy_suffix isSpace s
  obtain ⟨b, hb, hb'⟩ := rstripBy_prefix isSpace (lstripBy isSpace s)
  refine ⟨a, b, ?_, ha', hb'⟩
  rw [List.append_assoc]
  change s = a ++ (rstripBy isSpace (lstripBy isSpace s) ++ b)
  rw [← hb, ← ha]

theorem mem_of_mem_strip {s : Str} {c : Char} (h : c ∈ strip s) : c ∈ s := by
  obtain ⟨a, b, hab, _⟩ := strip_decomp s
  rw [hab]; simp [h]

theorem strip_eq_nil_iff {s : Str} : strip s = [] ↔ ∀ c ∈ s, isSpace c := by
  constructor
  · intro h
    obtain ⟨a, b, hab, ha, hb⟩ := strip_decomp s
    rw [h] at hab; rw [hab]
    intro c hc
    simp at hc
    rcases hc with hc | hc
    · exact ha c hc
    · exact hb c hc
  · intro h
    have := strip_append_space (s := []) h
    simpa [strip_nil] using this

/-! ## Lines -/

theorem linesOf_cons_brk {brk : Char → Bool} {x : Char} {xs : Str} (h : brk x)
    (hx : ¬ (x = '\r' ∧ xs.head? = some '\n')) :
    linesOf brk (x :: xs) = [x] :: linesOf brk xs := by
  rw [linesOf.eq_def]
  split
  · simp_all
  · rename_i rest heq
    injection heq with h1 h2
    subst h1; subst h2
    simp at hx
  · rename_i heq
    injection heq with h1 h2
    subst h1; subst h2
    simp [h]

theorem linesOf_cons_not {brk : Char → Bool} {x : Char} {xs : Str} (h : brk x = false) :
    linesOf brk (x :: xs) = match linesOf brk xs with
      | [] => [[x]]
      | h :: t => (x :: h) :: t := by
  rw [linesOf.eq_def]
  split
  · simp_all
  · rename_i rest heq
    injection heq with h1 h2
    subst h1; subst h2
    simp only [h]; rfl
  · rename_i heq
    injection heq with h1 h2
    subst h1; subst h2
    simp only [h]; rfl

/-- A line without break characters, ended by a newline, is read as one line. -/
theorem linesOf_line {brk : Char → Bool} (hn : brk '\n') {a : Str} (rest : Str)
    (h : ∀ c ∈ a, brk c = false) :
    linesOf brk (a ++ '\n' :: rest) = (a ++ ['\n']) :: linesOf brk rest := by
  induction a with
  | nil =>
    simp only [List.nil_append]
    rw [linesOf_cons_brk hn (fun e => absurd e.1 (by decide))]
  | cons x xs ih =>
    rw [List.cons_append, linesOf_cons_not (h x (by simp)), ih (fun c hc => h c (by simp [hc]))]
    rfl

/-- A last line without newline. -/
theorem linesOf_last {brk : Char → Bool} {a : Str} (hne : a ≠ [])
    (h : ∀ c ∈ a, brk c = false) : linesOf brk a = [a] := by
  induction a with
  | nil => contradiction
  | cons x xs ih =>
    rw [linesOf_cons_not (h x (by simp))]
    by_cases hx : xs = []
    · subst hx; rfl
    · rw [ih hx (fun c hc => h c (by simp [hc]))]

/-- Newline-terminated lines are read back one by one. -/
theorem linesOf_flatten {brk : Char → Bool} (hn : brk '\n') (ls : List Str)
    (h : ∀ l ∈ ls, ∀ c ∈ l, brk c = false) :
    linesOf brk (ls.map (· ++ ['\n'])).flatten = ls.map (· ++ ['\n']) := by
  induction ls with
  | nil => rfl
  | cons l ls ih =>
    simp only [List.map_cons, List.flatten_cons]
    rw [List.append_assoc, List.singleton_append, linesOf_line hn _ (h l (by simp)),
      ih (fun l' hl => h l' (by simp [hl]))]

/-- No character is lost or added by reading lines. -/
theorem flatten_linesOf (brk : Char → Bool) (s : Str) : (linesOf brk s).flatten = s := by
  fun_induction linesOf brk s with
  | case1 => rfl
  | case2 rest h ih => simp [ih]
  | case3 rest h e ih => rw [e] at ih; simp at ih
  | case4 rest h hd t e ih => rw [e] at ih; simpa using ih
  | case5 x xs _ h ih => simp [ih]
  | case6 x xs _ h e ih => rw [e] at ih; simp at ih; simp [← ih]
  | case7 x xs _ h hd t e ih => rw [e] at ih; simp at ih ⊢; exact ih

theorem linesOf_ne_nil {brk : Char → Bool} {s l : Str} (h : l ∈ linesOf brk s) : l ≠ [] := by
  fun_induction linesOf brk s generalizing l with
  | case1 => simp at h
  | case2 rest _ ih => rcases List.mem_cons.1 h with e | e; · simp [e]
                       · exact ih e
  | case3 rest _ e ih => simp at h; simp [h]
  | case4 rest _ hd t e ih =>
    rcases List.mem_cons.1 h with e' | e'
    · simp [e']
    · exact ih (by rw [e]; simp [e'])
  | case5 x xs _ _ ih => rcases List.mem_cons.1 h with e | e; · simp [e]
                         · exact ih e
  | case6 x xs _ _ e ih => simp at h; simp [h]
  | case7 x xs _ _ hd t e ih =>
    rcases List.mem_cons.1 h with e' | e'
    · simp [e']
    · exact ih (by rw [e]; simp [e'])

theorem isBreak_isSpace {c : Char} (h : isBreak c) : isSpace c := by
  simp [isBreak, isSpace] at *; omega

theorem isNl_isBreak {c : Char} (h : isNl c) : isBreak c := by
  simp [isNl] at h
  rcases h with h | h <;> subst h <;> decide

theorem translateNl_clean {s : Str} (h : '\r' ∉ s) : translateNl s = s := by
  induction s with
  | nil => rfl
  | cons x c ih =>
    simp only [List.mem_cons, not_or] at h
    have hx : x ≠ '\r' := fun e => h.1 e.symm
    rw [translateNl]
    · rw [ih h.2]
    · intro rest e; cases e; exact absurd rfl hx
    · intro e; exact absurd e hx

end Verif
