import Verif.Lemmas.BagInfo
import Verif.Spec.Refold
/-!
# Reading and writing metadata values of several lines
-/

namespace Verif

open Spec

theorem rstrip_keep {a : Str} {x : Char} {b : Str} (hx : isSpace x = false) :
    rstripBy isSpace (a ++ x :: b) = a ++ x :: rstripBy isSpace b := by
  unfold rstripBy
  have e : (a ++ x :: b).reverse = b.reverse ++ x :: a.reverse := by simp
  rw [e]
  generalize b.reverse = r
  have : (r ++ x :: a.reverse).dropWhile isSpace = r.dropWhile isSpace ++ x :: a.reverse := by
    induction r with
    | nil => simp [List.dropWhile, hx]
    | cons y r ih =>
      simp only [List.cons_append, List.dropWhile]
      cases isSpace y with
      | true => exact ih
      | false => rfl
  rw [this]
  simp

/-- Reading a line with a label. -/
theorem parseTagsFrom_label {cur : Option (Str × Str)} {n w : Str} {rest : List Str} (h1 : n ≠ []) (h2 : ':' ∉ n)
    (h3 : Trimmed n) :
    parseTagsFrom cur ((n ++ ':' :: w) :: rest) =
      match parseTagsFrom (some (n, rstripBy isSpace w)) rest with
      | .error e => .error e
      | .ok l => .ok (yieldTag cur ++ l) := by
  have hcol : isSpace ':' = false := by decide
  obtain ⟨x, xs, rfl⟩ : ∃ x xs, n = x :: xs := by
    cases n with
    | nil => exact absurd rfl h1
    | cons x xs => exact ⟨x, xs, rfl⟩
  have hx : isSpace x = false := h3.1 x rfl
  have hstrip : strip ((x :: xs) ++ ':' :: w) = (x :: xs) ++ ':' :: rstripBy isSpace w := by
    unfold strip
    rw [show lstripBy isSpace ((x :: xs) ++ ':' :: w) = (x :: xs) ++ ':' :: w by
      unfold lstripBy; simp [List.dropWhile, hx], rstrip_keep hcol]
  conv => lhs; unfold parseTagsFrom
  rw [if_neg (by rw [hstrip]; simp)]
  have hhead : (((x :: xs) ++ ':' :: w).head?.map isSpace).getD false = false := by simp [hx]
  rw [hhead]
  simp only [Bool.false_eq_true, if_false]
  rw [if_pos (by simp)]
  simp only [hstrip]
  have e1 : ((x :: xs) ++ ':' :: rstripBy isSpace w).takeWhile (· ≠ ':') = x :: xs := by
    rw [List.takeWhile_append_of_pos]
    · simp
    · intro c hc
      simp only [ne_eq, decide_not, Bool.not_eq_eq_eq_not, Bool.not_true, decide_eq_false_iff_not]
      rintro rfl; exact h2 hc
  have e2 : ((x :: xs) ++ ':' :: rstripBy isSpace w).dropWhile (· ≠ ':') = ':' :: rstripBy isSpace w := by
    rw [List.dropWhile_append_of_pos]
    · simp
    · intro c hc
      simp only [ne_eq, decide_not, Bool.not_eq_eq_eq_not, Bool.not_true, decide_eq_false_iff_not]
      rintro rfl; exact h2 hc
  rw [e1, e2, strip_of_trimmed h3]
  rfl

theorem blank_iff_strip {l : Str} : Blank l ↔ strip l = [] := strip_eq_nil_iff.symm

/-- Reading continuation lines. -/
theorem parseTagsFrom_more {n v : Str} {ls rest : List Str} (h : ∀ l ∈ ls, Continuation l) :
    parseTagsFrom (some (n, v)) (ls.map (· ++ ['\n']) ++ rest) =
      parseTagsFrom (some (n, v ++ (ls.map (· ++ ['\n'])).flatten)) rest := by
  induction ls generalizing v with
  | nil => simp
  | cons l ls ih =>
    have hl := h l List.mem_cons_self
    rw [List.map_cons, List.cons_append]
    conv => lhs; unfold parseTagsFrom
    rw [if_neg (by
      rw [strip_append_space (by decide)]
      exact fun e => hl.nonblank (blank_iff_strip.2 e))]
    have hh : ((l ++ ['\n']).head?.map isSpace).getD false = true := by
      have := hl.indent
      cases l with
      | nil => simp at this
      | cons x xs => simpa using this
    rw [hh]
    simp only [if_true]
    rw [ih (fun l hl => h l (List.mem_cons_of_mem _ hl))]
    simp [List.append_assoc]

theorem flatten_nl {ls : List Str} (hne : ls ≠ []) :
    (ls.map (· ++ ['\n'])).flatten = joinWith ['\n'] ls ++ ['\n'] := by
  induction ls with
  | nil => exact absurd rfl hne
  | cons l ls ih =>
    by_cases h : ls = []
    · subst h; simp [joinWith]
    · rw [joinWith_cons h, List.map_cons, List.flatten_cons, ih h]; simp [List.append_assoc]

theorem flatten_nl' {ls : List Str} (hne : ls ≠ []) :
    (ls.map ('\n' :: ·)).flatten = '\n' :: joinWith ['\n'] ls := by
  induction ls with
  | nil => exact absurd rfl hne
  | cons l ls ih =>
    by_cases h : ls = []
    · subst h; simp [joinWith]
    · rw [joinWith_cons h, List.map_cons, List.flatten_cons, ih h]; simp [List.append_assoc]

theorem no_nl {l : Str} (h : ∀ c ∈ l, isNl c = false) : '\n' ∉ l := fun hm => absurd (h _ hm) (by decide)

theorem splitOn_lines {l0 : Str} {ls : List Str} (h0 : '\n' ∉ l0) (h : ∀ l ∈ ls, '\n' ∉ l) :
    splitOn '\n' (l0 ++ (ls.map ('\n' :: ·)).flatten) = l0 :: ls := by
  by_cases hne : ls = []
  · subst hne; simp [splitOn_noSep h0]
  · rw [flatten_nl' hne, splitOn_append_sep _ h0, splitOn_joinWith hne h]

theorem reread_lines {l0 : Str} {ls : List Str} (h0 : '\n' ∉ l0) (h : ∀ l ∈ ls, '\n' ∉ l) :
    reread (l0 ++ (ls.map ('\n' :: ·)).flatten) = strip l0 ++ joinWith ['\n'] ls := by
  unfold reread
  rw [splitOn_lines h0 h]

theorem joinWith_getLast {ls : List Str} {c : Char} (hne : ls ≠ []) (h : ∀ l ∈ ls, l ≠ []) (a : Str) :
    (a ++ joinWith ['\n'] ls).getLast? = some c ↔ (joinWith ['\n'] ls).getLast? = some c := by
  have : joinWith ['\n'] ls ≠ [] := by
    cases ls with
    | nil => exact absurd rfl hne
    | cons l ls =>
      by_cases h' : ls = []
      · subst h'; simpa [joinWith] using h l List.mem_cons_self
      · rw [joinWith_cons h']; simp
  rw [List.getLast?_append]
  cases hg : (joinWith ['\n'] ls).getLast? with
  | none => exact absurd (List.getLast?_eq_none_iff.1 hg) this
  | some x => simp

/-- Ending the value. -/
theorem yieldTag_lines {n l0 : Str} {ls : List Str} (hn : n ≠ []) (h0 : ∀ c ∈ l0, isNl c = false)
    (h : ∀ l ∈ ls, Continuation l) (ht : Trimmed (l0 ++ (ls.map ('\n' :: ·)).flatten)) :
    yieldTag (some (n, rstripBy isSpace (' ' :: l0 ++ ['\n']) ++ (ls.map (· ++ ['\n'])).flatten)) =
      [(n, reread (l0 ++ (ls.map ('\n' :: ·)).flatten))] := by
  simp only [yieldTag, if_neg hn]
  congr 1
  rw [reread_lines (no_nl h0) (fun l hl => no_nl (h l hl).nobreak)]
  have hnl : rstripBy isSpace (' ' :: l0 ++ ['\n']) = rstripBy isSpace (' ' :: l0) :=
    rstripBy_append_all (by decide)
  rw [hnl]
  congr 1
  by_cases hne : ls = []
  · subst hne
    simp only [List.map_nil, List.flatten_nil, List.append_nil, joinWith]
    obtain ⟨t, h1, h2⟩ := rstripBy_prefix isSpace (' ' :: l0)
    have : strip (rstripBy isSpace (' ' :: l0)) = strip (' ' :: l0) := by
      conv => rhs; rw [h1]
      rw [strip_append_space h2]
    rw [this, show ' ' :: l0 = [' '] ++ l0 ++ [] by simp, strip_surround (by decide) (by simp)]
  · -- the first line is not blank
    rw [flatten_nl' hne] at ht
    obtain ⟨x, xs, rfl⟩ : ∃ x xs, l0 = x :: xs := by
      cases l0 with
      | nil => exact absurd (ht.1 '\n' rfl) (by decide)
      | cons x xs => exact ⟨x, xs, rfl⟩
    have hx : isSpace x = false := ht.1 x rfl
    have e1 : rstripBy isSpace (' ' :: x :: xs) = ' ' :: x :: rstripBy isSpace xs := rstrip_keep (a := [' ']) hx
    have e2 : strip (x :: xs) = x :: rstripBy isSpace xs := by
      unfold strip lstripBy
      simp only [List.dropWhile, hx]
      exact rstrip_keep (a := []) hx
    rw [e1, e2, flatten_nl hne]
    have e3 : ' ' :: x :: rstripBy isSpace xs ++ (joinWith ['\n'] ls ++ ['\n']) =
        [' '] ++ (x :: rstripBy isSpace xs ++ joinWith ['\n'] ls) ++ ['\n'] := by simp
    rw [e3, strip_surround (by decide) (by decide), strip_of_trimmed]
    refine ⟨fun c hc => ?_, fun c hc => ?_⟩
    · simp only [List.cons_append, List.head?_cons, Option.some.injEq] at hc
      rw [← hc]; exact hx
    · have hnn : ∀ l ∈ ls, l ≠ [] := by
        rintro l hl rfl
        exact (h [] hl).nonblank (by simp [Blank])
      rw [joinWith_getLast hne hnn] at hc
      refine ht.2 c ?_
      rw [show x :: xs ++ '\n' :: joinWith ['\n'] ls = (x :: xs ++ ['\n']) ++ joinWith ['\n'] ls by simp,
        joinWith_getLast hne hnn]
      exact hc

/-- The lines of a label with its value. -/
theorem fieldsText_lines (fs : List (Str × Str)) (h : ∀ f ∈ fs, LoadedLabel f.1 ∧ Foldable f.2) :
    ∃ ls : List (Str × Str × List Str), fs = ls.map (fun l => (l.1, l.2.1 ++ (l.2.2.map ('\n' :: ·)).flatten)) ∧
      (∀ l ∈ ls, (∀ c ∈ l.2.1, isNl c = false) ∧ (∀ x ∈ l.2.2, Continuation x) ∧
        Trimmed (l.2.1 ++ (l.2.2.map ('\n' :: ·)).flatten) ∧ LoadedLabel l.1) := by
  induction fs with
  | nil => exact ⟨[], rfl, by simp⟩
  | cons f fs ih =>
    obtain ⟨ls, e, hl⟩ := ih (fun g hg => h g (List.mem_cons_of_mem _ hg))
    obtain ⟨hn, ⟨l0, l', e', h0, h1⟩, ht⟩ := h f List.mem_cons_self
    refine ⟨(f.1, l0, l') :: ls, ?_, ?_⟩
    · rw [List.map_cons, ← e, ← e']
    · intro l hm
      rcases List.mem_cons.1 hm with rfl | hm
      · exact ⟨h0, h1, e' ▸ ht, hn⟩
      · exact hl l hm

theorem parse_lines {ls : List (Str × Str × List Str)} (cur : Option (Str × Str))
    (hl : ∀ l ∈ ls, (∀ c ∈ l.2.1, isNl c = false) ∧ (∀ x ∈ l.2.2, Continuation x) ∧
        Trimmed (l.2.1 ++ (l.2.2.map ('\n' :: ·)).flatten) ∧ LoadedLabel l.1) :
    parseTagsFrom cur ((ls.flatMap (fun l => (l.1 ++ (':' :: ' ' :: l.2.1)) :: l.2.2)).map (· ++ ['\n'])) =
      .ok (yieldTag cur ++ ls.map (fun l => (l.1, reread (l.2.1 ++ (l.2.2.map ('\n' :: ·)).flatten)))) := by
  induction ls generalizing cur with
  | nil => simp [parseTagsFrom]
  | cons l ls ih =>
    obtain ⟨h0, h1, ht, hn⟩ := hl l List.mem_cons_self
    rw [List.flatMap_cons, List.map_append, List.map_cons, List.cons_append]
    rw [show l.1 ++ (':' :: ' ' :: l.2.1) ++ ['\n'] = l.1 ++ ':' :: (' ' :: l.2.1 ++ ['\n']) by simp,
      parseTagsFrom_label hn.nonempty hn.nocolon hn.noouter, parseTagsFrom_more h1,
      ih _ (fun x hx => hl x (List.mem_cons_of_mem _ hx)), yieldTag_lines hn.nonempty h0 h1 ht]
    simp

/-- What is read back from written fields. -/
theorem parseTags_refold (fs : List (Str × Str)) (h : ∀ f ∈ fs, LoadedLabel f.1 ∧ Foldable f.2) :
    parseTags .universal (fieldsText fs) = .ok (fs.map (fun f => (f.1, reread f.2))) := by
  obtain ⟨ls, rfl, hl⟩ := fieldsText_lines fs h
  have e : fieldsText (ls.map (fun l => (l.1, l.2.1 ++ (l.2.2.map ('\n' :: ·)).flatten))) =
      ((ls.flatMap (fun l => (l.1 ++ (':' :: ' ' :: l.2.1)) :: l.2.2)).map (· ++ ['\n'])).flatten := by
    unfold fieldsText
    clear hl h
    induction ls with
    | nil => rfl
    | cons l ls ih =>
      simp only [List.map_cons, List.flatten_cons, List.flatMap_cons, List.map_append, List.flatten_append, ih]
      congr 1
      by_cases hne : l.2.2 = []
      · rw [hne]; simp
      · rw [flatten_nl hne, flatten_nl' hne]; simp
  unfold parseTags
  rw [e, textLines_universal, parse_lines none hl, List.map_map]
  · rfl
  · intro x hx c hc
    obtain ⟨l, hm, hx⟩ := List.mem_flatMap.1 hx
    obtain ⟨h0, h1, _, hn⟩ := hl l hm
    rcases List.mem_cons.1 hx with rfl | hx
    · rcases List.mem_append.1 hc with hc | hc
      · exact hn.nobreak c hc
      · simp only [List.mem_cons] at hc
        rcases hc with rfl | rfl | hc
        · decide
        · decide
        · exact h0 c hc
    · exact (h1 x hx).nobreak c hc

/-! ## What is read can be written -/

/-- Lines read from a file. -/
inductive TLines : List Str → Prop
  | nil : TLines []
  | last (b : Str) : (∀ c ∈ b, isNl c = false) → TLines [b]
  | cons (b : Str) (rest : List Str) : (∀ c ∈ b, isNl c = false) → TLines rest → TLines ((b ++ ['\n']) :: rest)

theorem translateNl_no_cr (s : Str) : '\r' ∉ translateNl s := by
  fun_induction translateNl s with
  | case1 => simp
  | case2 rest ih => simp [ih]
  | case3 rest _ ih => simp [ih]
  | case4 c rest h1 h2 ih =>
    simp only [List.mem_cons, not_or]
    exact ⟨fun e => h2 e.symm, ih⟩

theorem tlines_linesOf {s : Str} (h : '\r' ∉ s) : TLines (linesOf isNl s) := by
  induction s with
  | nil => exact .nil
  | cons x xs ih =>
    simp only [List.mem_cons, not_or] at h
    have ih := ih h.2
    by_cases hx : x = '\n'
    · subst hx
      rw [linesOf_cons_brk (by decide) (fun e => absurd e.1 (by decide))]
      exact .cons [] _ (by simp) ih
    · have hb : isNl x = false := by
        unfold isNl
        simp only [Bool.or_eq_false_iff, beq_eq_false_iff_ne, ne_eq]
        exact ⟨hx, fun e => h.1 e.symm⟩
      rw [linesOf_cons_not hb]
      cases hl : linesOf isNl xs with
      | nil => exact .last [x] (by simpa using hb)
      | cons l ls =>
        rw [hl] at ih
        simp only
        cases ih with
        | last _ h1 =>
          refine .last (x :: l) ?_
          intro c hc
          rcases List.mem_cons.1 hc with rfl | hc
          · exact hb
          · exact h1 c hc
        | cons b _ h1 h2 =>
          rw [← List.cons_append]
          refine .cons (x :: b) ls ?_ h2
          intro c hc
          rcases List.mem_cons.1 hc with rfl | hc
          · exact hb
          · exact h1 c hc

/-- A value while its lines are being read. -/
def RawValue (v : Str) : Prop :=
  ∃ (x : Str) (bs : List Str), v = x ++ (bs.map (· ++ ['\n'])).flatten ∧ (∀ c ∈ x, isNl c = false) ∧
    ∀ b ∈ bs, Continuation b

theorem strip_mid {y m z : Str} (hy : ¬ Blank y) (hz : ¬ Blank z) :
    strip (y ++ m ++ z) = lstripBy isSpace y ++ m ++ rstripBy isSpace z := by
  obtain ⟨a, e1, h1⟩ := lstripBy_suffix isSpace y
  obtain ⟨t, e2, h2⟩ := rstripBy_prefix isSpace z
  have n1 : lstripBy isSpace y ≠ [] := by
    intro e; rw [e, List.append_nil] at e1; rw [e1] at hy; exact hy h1
  have n2 : rstripBy isSpace z ≠ [] := by
    intro e; rw [e, List.nil_append] at e2; rw [e2] at hz; exact hz h2
  have e3 : y ++ m ++ z = a ++ (lstripBy isSpace y ++ m ++ rstripBy isSpace z) ++ t := by
    conv => lhs; rw [e1, e2]
    simp [List.append_assoc]
  rw [e3, strip_surround h1 h2, strip_of_trimmed]
  refine ⟨fun c hc => ?_, fun c hc => ?_⟩
  · cases hl : lstripBy isSpace y with
    | nil => exact absurd hl n1
    | cons w ws =>
      rw [hl] at hc
      simp only [List.cons_append, List.head?_cons, Option.some.injEq] at hc
      subst hc
      exact dropWhile_head_not (s := y) w (by rw [show y.dropWhile isSpace = lstripBy isSpace y from rfl, hl]; rfl)
  · refine rstripBy_last (s := z) c ?_
    rw [List.getLast?_append] at hc
    cases hg : (rstripBy isSpace z).getLast? with
    | none => exact absurd (List.getLast?_eq_none_iff.1 hg) n2
    | some w => rw [hg] at hc; simpa using hc

theorem continuation_rstrip {l : Str} (h : Continuation l) : Continuation (rstripBy isSpace l) := by
  obtain ⟨t, e, ht⟩ := rstripBy_prefix isSpace l
  have hb : ¬ Blank (rstripBy isSpace l) := by
    intro hb
    refine h.nonblank ?_
    rw [e]
    intro c hc
    rcases List.mem_append.1 hc with hc | hc
    · exact hb c hc
    · exact ht c hc
  refine ⟨fun c hc => h.nobreak c (by rw [e]; exact List.mem_append_left _ hc), ?_, hb⟩
  have := h.indent
  cases hr : rstripBy isSpace l with
  | nil => rw [hr] at hb; exact absurd (by simp [Blank]) hb
  | cons w ws => rw [e, hr] at this; simpa using this

theorem foldable_strip {v : Str} (h : RawValue v) : Foldable (strip v) := by
  obtain ⟨x, bs, rfl, hx, hb⟩ := h
  refine ⟨?_, trimmed_strip _⟩
  cases bs with
  | nil =>
    simp only [List.map_nil, List.flatten_nil, List.append_nil]
    exact ⟨strip x, [], by simp, fun c hc => hx c (mem_of_mem_strip hc), by simp⟩
  | cons b bs =>
    have hcb := hb b List.mem_cons_self
    have hxb : ∀ c ∈ x ++ b, isNl c = false := by
      intro c hc
      rcases List.mem_append.1 hc with hc | hc
      · exact hx c hc
      · exact hcb.nobreak c hc
    by_cases hne : bs = []
    · subst hne
      refine ⟨strip (x ++ b), [], ?_, fun c hc => hxb c (mem_of_mem_strip hc), by simp⟩
      simp only [List.map_cons, List.map_nil, List.flatten_cons, List.flatten_nil, List.append_nil]
      rw [← List.append_assoc, strip_append_space (by decide)]
    · obtain ⟨init, last, rfl⟩ := exists_concat hne
      have hcl := hb last (by simp)
      have nb : ¬ Blank (x ++ b) := fun h' => hcb.nonblank (fun c hc => h' c (List.mem_append_right _ hc))
      have e : x ++ ((b :: (init ++ [last])).map (· ++ ['\n'])).flatten =
          ((x ++ b) ++ ((init.map ('\n' :: ·)).flatten ++ ['\n']) ++ last) ++ ['\n'] := by
        clear hb hcl hne
        simp only [List.map_cons, List.flatten_cons, List.map_append, List.flatten_append, List.map_nil,
          List.flatten_nil, List.append_nil]
        have sw : ∀ l : List Str, '\n' :: (l.map (· ++ ['\n'])).flatten = (l.map ('\n' :: ·)).flatten ++ ['\n'] := by
          intro l
          induction l with
          | nil => rfl
          | cons a l ih =>
            simp only [List.map_cons, List.flatten_cons, List.append_assoc, List.cons_append, List.nil_append]
            rw [ih]
        have := sw init
        simp only [List.append_assoc, List.cons_append, List.nil_append]
        rw [← List.cons_append, this]
        simp
      rw [e, strip_append_space (by decide), strip_mid nb hcl.nonblank]
      refine ⟨lstripBy isSpace (x ++ b), init ++ [rstripBy isSpace last], ?_, ?_, ?_⟩
      · simp
      · intro c hc
        obtain ⟨a, ea, _⟩ := lstripBy_suffix isSpace (x ++ b)
        exact hxb c (by rw [ea]; exact List.mem_append_right _ hc)
      · intro l hl
        rcases List.mem_append.1 hl with hl | hl
        · exact hb l (by simp [hl])
        · rw [List.mem_singleton.1 hl]; exact continuation_rstrip hcl

theorem yieldTag_loaded {n v : Str} (hn : n ≠ [] → LoadedLabel n) (hv : RawValue v) :
    ∀ f ∈ yieldTag (some (n, v)), LoadedLabel f.1 ∧ Foldable f.2 := by
  intro f hf
  simp only [yieldTag] at hf
  split at hf
  · cases hf
  · next h => rw [List.mem_singleton.1 hf]; exact ⟨hn h, foldable_strip hv⟩

theorem strip_line_nonl {b : Str} (hb : ∀ c ∈ b, isNl c = false) : ∀ c ∈ strip (b ++ ['\n']), isNl c = false := by
  intro c hc
  rw [strip_append_space (by decide)] at hc
  exact hb c (mem_of_mem_strip hc)

theorem takeWhile_sat {p : Char → Bool} {s : Str} {c : Char} (h : c ∈ s.takeWhile p) : p c = true := by
  induction s with
  | nil => cases h
  | cons x xs ih =>
    simp only [List.takeWhile] at h
    cases hx : p x with
    | true =>
      rw [hx] at h
      rcases List.mem_cons.1 h with rfl | h
      · exact hx
      · exact ih h
    | false => rw [hx] at h; cases h

theorem parseTagsFrom_loaded {ls : List Str} (hl : TLines ls) :
    ∀ (cur : Option (Str × Str)) (fs : List (Str × Str)),
      (∀ n v, cur = some (n, v) → (n ≠ [] → LoadedLabel n) ∧ RawValue v) → parseTagsFrom cur ls = .ok fs →
      ∀ f ∈ fs, LoadedLabel f.1 ∧ Foldable f.2 := by
  have hy : ∀ cur : Option (Str × Str), (∀ n v, cur = some (n, v) → (n ≠ [] → LoadedLabel n) ∧ RawValue v) →
      ∀ f ∈ yieldTag cur, LoadedLabel f.1 ∧ Foldable f.2 := by
    intro cur hc
    cases cur with
    | none => intro f hf; cases hf
    | some nv => exact yieldTag_loaded (hc _ _ rfl).1 (hc _ _ rfl).2
  have hnew : ∀ line : Str, (∀ c ∈ strip line, isNl c = false) → ∀ n v,
      some (strip ((strip line).takeWhile (· ≠ ':')), ((strip line).dropWhile (· ≠ ':')).tail) = some (n, v) →
      (n ≠ [] → LoadedLabel n) ∧ RawValue v := by
    intro line h n v e
    cases e
    refine ⟨fun hn => ⟨hn, ?_, ?_, trimmed_strip _⟩, ?_⟩
    · intro hm
      have := takeWhile_sat (mem_of_mem_strip hm)
      simp at this
    · intro c hc
      exact h c ((List.takeWhile_prefix _).subset (mem_of_mem_strip hc))
    · refine ⟨((strip line).dropWhile (· ≠ ':')).tail, [], by simp, ?_, by simp⟩
      intro c hc
      exact h c ((List.dropWhile_suffix _).subset (List.mem_of_mem_tail hc))
  induction hl with
  | nil =>
    intro cur fs hc h
    cases h
    exact hy cur hc
  | last b hb =>
    intro cur fs hc h
    unfold parseTagsFrom at h
    split at h
    · cases h; exact hy cur hc
    · next hnb =>
      split at h
      · next n v hcur =>
        cases h
        split at hcur
        case isFalse => cases hcur
        next hind =>
        obtain ⟨h1, x, bs, rfl, h2, h3⟩ := hc n v hcur
        have := yieldTag_loaded (v := x ++ (bs.map (· ++ ['\n'])).flatten ++ (b ++ ['\n'])) h1
          ⟨x, bs ++ [b], by simp, h2, by
            intro l hl
            rcases List.mem_append.1 hl with hl | hl
            · exact h3 l hl
            · rw [List.mem_singleton.1 hl]
              exact ⟨hb, hind, fun e => hnb (blank_iff_strip.1 e)⟩⟩
        have e : yieldTag (some (n, x ++ (bs.map (· ++ ['\n'])).flatten ++ (b ++ ['\n']))) =
            yieldTag (some (n, x ++ (bs.map (· ++ ['\n'])).flatten ++ b)) := by
          simp only [yieldTag]
          rw [← List.append_assoc, strip_append_space (by decide)]
        rw [e] at this
        exact this
      · split at h
        · simp only [parseTagsFrom] at h
          cases h
          intro f hf
          rcases List.mem_append.1 hf with hf | hf
          · exact hy cur hc f hf
          · exact hy _ (hnew b (fun c hc => hb c (mem_of_mem_strip hc))) f hf
        · cases h
  | cons b rest hb _ ih =>
    intro cur fs hc h
    unfold parseTagsFrom at h
    split at h
    · exact ih cur fs hc h
    · next hnb =>
      split at h
      · next n v hcur =>
        split at hcur
        case isFalse => cases hcur
        next hind =>
        obtain ⟨h1, x, bs, rfl, h2, h3⟩ := hc n v hcur
        refine ih _ fs ?_ h
        intro n' v' e
        cases e
        refine ⟨h1, x, bs ++ [b], by simp, h2, ?_⟩
        intro l hl
        rcases List.mem_append.1 hl with hl | hl
        · exact h3 l hl
        · rw [List.mem_singleton.1 hl]
          rw [strip_append_space (by decide)] at hnb
          refine ⟨hb, ?_, fun e => hnb (blank_iff_strip.1 e)⟩
          cases b with
          | nil => exact absurd rfl hnb
          | cons y ys => simpa using hind
      · split at h
        · simp only at h
          split at h
          · cases h
          · next l hl =>
            cases h
            intro f hf
            rcases List.mem_append.1 hf with hf | hf
            · exact hy cur hc f hf
            · exact ih _ l (hnew _ (strip_line_nonl hb)) hl f hf
        · cases h

/-- What is read from a metadata file can be written. -/
theorem parseTags_loaded {text : Str} {fs : List (Str × Str)} (h : parseTags .universal text = .ok fs) :
    ∀ f ∈ fs, LoadedLabel f.1 ∧ Foldable f.2 :=
  parseTagsFrom_loaded (tlines_linesOf (translateNl_no_cr text)) none fs (fun _ _ e => (by cases e)) h

end Verif
