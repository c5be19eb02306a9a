import Verif.Model.Paths
import Verif.Spec.Paths
import Verif.Lemmas.Walk
/-!
# Lemmas about path strings
-/

namespace Verif
open Spec

theorem splitOn_append_joinPath {q : Path} (h : GoodPath q) (p : Str) :
    splitOn '/' (joinPath q ++ '/' :: p) = q ++ splitOn '/' p := by
  obtain ⟨hne, hg⟩ := h
  induction q with
  | nil => exact absurd rfl hne
  | cons c cs ih =>
    by_cases hcs : cs = []
    · subst hcs
      exact splitOn_append_sep p (hg c (by simp)).noslash
    · have e : joinPath (c :: cs) = c ++ '/' :: joinPath cs := by
        rw [joinPath, joinWith_cons hcs]; simp [joinPath]
      rw [e, List.append_assoc, List.cons_append, splitOn_append_sep _ (hg c (by simp)).noslash,
        ih hcs (fun d hd => hg d (by simp [hd]))]
      rfl

theorem follow_append (cur : Path) (a b : List Str) : follow cur (a ++ b) = follow (follow cur a) b := by
  induction a generalizing cur with
  | nil => rfl
  | cons c cs ih =>
    simp only [List.cons_append, follow]
    split
    · exact ih _
    · split <;> exact ih _

theorem follow_good (cur : Path) {a : List Str} (h : ∀ c ∈ a, GoodName c) : follow cur a = cur ++ a := by
  induction a generalizing cur with
  | nil => simp [follow]
  | cons c cs ih =>
    have hc := h c (by simp)
    rw [follow, if_neg (fun e => e.elim hc.nonempty hc.nodot), if_neg hc.nodotdot,
      ih _ (fun d hd => h d (by simp [hd]))]
    simp

/-- Components without slash stay good while following. -/
theorem goodName_follow {cur : Path} (hc : ∀ c ∈ cur, GoodName c) {a : List Str} (ha : ∀ c ∈ a, '/' ∉ c) :
    ∀ c ∈ follow cur a, GoodName c := by
  induction a generalizing cur with
  | nil => exact hc
  | cons c cs ih =>
    have ha' : ∀ d ∈ cs, '/' ∉ d := fun d hd => ha d (by simp [hd])
    rw [follow]
    split
    · exact ih hc ha'
    · next h1 =>
      split
      · exact ih (fun d hd => hc d (List.dropLast_subset _ hd)) ha'
      · next h2 =>
        refine ih (fun d hd => ?_) ha'
        rcases List.mem_append.1 hd with hd | hd
        · exact hc d hd
        · rw [List.mem_singleton] at hd
          subst hd
          exact ⟨fun e => h1 (.inl e), ha d (by simp), fun e => h1 (.inr e), h2⟩

theorem goodName_leadsTo {dir : Path} (h : ∀ c ∈ dir, GoodName c) (p : Str) :
    ∀ c ∈ leadsTo dir p, GoodName c := by
  refine goodName_follow ?_ (fun c hc => sep_not_mem_splitOn hc)
  split
  · simp
  · exact h

theorem foldl_normStep {acc : Path} (h : ∀ c ∈ acc, c ≠ ['.', '.']) (cs : List Str) :
    cs.foldl (normStep true) acc = follow acc cs := by
  induction cs generalizing acc with
  | nil => rfl
  | cons c cs ih =>
    rw [List.foldl_cons, follow]
    have hl : acc.getLast? ≠ some ['.', '.'] := fun e => h _ (List.mem_of_getLast? e) rfl
    by_cases h1 : c = [] ∨ c = ['.']
    · rw [if_pos h1, show normStep true acc c = acc by
        rcases h1 with h1 | h1 <;> subst h1 <;> rfl]
      exact ih h
    · rw [if_neg h1]
      have h1' : (decide (c = []) || decide (c = ['.'])) = false := by
        simpa using h1
      by_cases h2 : c = ['.', '.']
      · rw [if_pos h2, show normStep true acc c = acc.dropLast by
          subst h2; simp [normStep, hl]]
        exact ih (fun d hd => h d (List.dropLast_subset _ hd))
      · rw [if_neg h2, show normStep true acc c = acc ++ [c] by
          simp [normStep, h2, h1']]
        refine ih (fun d hd => ?_)
        rcases List.mem_append.1 hd with hd | hd
        · exact h d hd
        · rw [List.mem_singleton] at hd; subst hd; exact h2

/-- `normpath` of a string with exactly one leading slash. -/
theorem normpath_abs {c : Char} {s : Str} (h : c ≠ '/') :
    normpath ('/' :: c :: s) = '/' :: joinPath (follow [] (splitOn '/' (c :: s))) := by
  have hk : initialSlashes ('/' :: c :: s) = 1 := by
    unfold initialSlashes
    split <;> simp_all
  have hf : (splitOn '/' ('/' :: c :: s)).foldl (normStep true) [] = follow [] (splitOn '/' (c :: s)) := by
    rw [foldl_normStep (by simp), splitOn_cons_sep, follow, if_pos (.inl rfl)]
  unfold normpath
  rw [if_neg (by simp)]
  simp only [hk]
  rw [show ((1 : Nat) != 0) = true from rfl, hf]
  simp

theorem absPath_shape {s : Str} {dir : Path} (h : AbsPath s dir) :
    ∃ c r, c ≠ '/' ∧ joinPath dir = c :: r ∧ s = '/' :: c :: r := by
  obtain ⟨hg, rfl⟩ := h
  have hne := joinPath_ne_nil hg
  have hh := joinPath_head hg
  change ∃ c r, c ≠ '/' ∧ joinPath dir = c :: r ∧ '/' :: joinPath dir = _
  cases hj : joinPath dir with
  | nil => exact absurd hj hne
  | cons c r => exact ⟨c, r, hh c (by rw [hj]; rfl), rfl, rfl⟩

theorem splitOn_joinPath' {p : Path} (h : GoodPath p) : splitOn '/' (joinPath p) = p :=
  splitOn_joinWith h.1 (fun c hc => (h.2 c hc).noslash)

theorem normpath_absPath {s : Str} {dir : Path} (h : AbsPath s dir) : normpath s = s := by
  obtain ⟨c, r, hc, hj, rfl⟩ := absPath_shape h
  rw [normpath_abs hc, ← hj, splitOn_joinPath' h.1, follow_good _ h.1.2, List.nil_append]

/-- Joining a relative path to a bag directory and normalizing gives the place the path
leads to from there. -/
theorem normpath_join_rel {s : Str} {dir : Path} (h : AbsPath s dir) {p : Str} (hp : p.head? ≠ some '/') :
    normpath (pathJoin s p) = '/' :: joinPath (leadsTo dir p) := by
  obtain ⟨c, r, hc, hj, rfl⟩ := absPath_shape h
  have hl : ('/' :: c :: r).getLast? ≠ some '/' := by
    have := joinPath_last h.1
    rw [hj] at this
    intro e
    rw [List.getLast?_cons_cons] at e
    exact this _ e rfl
  have hj' : pathJoin ('/' :: c :: r) p = '/' :: c :: (r ++ '/' :: p) := by
    unfold pathJoin isAbs
    rw [if_neg (by simpa using hp), if_neg (by simpa using hl)]
    simp
  rw [hj', normpath_abs hc]
  have e : c :: (r ++ '/' :: p) = joinPath dir ++ '/' :: p := by rw [hj]; simp
  rw [e, splitOn_append_joinPath h.1, follow_append, follow_good _ h.1.2]
  unfold leadsTo
  rw [if_neg hp]
  rfl

/-- An absolute path replaces the bag directory. -/
theorem pathJoin_abs {s p : Str} (hp : p.head? = some '/') : pathJoin s p = p := by
  unfold pathJoin isAbs
  rw [if_pos (by simpa using hp)]

/-- `normpath` of an absolute path: one slash, or two if there are exactly two. -/
theorem normpath_of_abs {p : Str} (hp : p.head? = some '/') (dir : Path) :
    normpath p = '/' :: joinPath (leadsTo dir p) ∨ ∃ t, normpath p = '/' :: '/' :: t := by
  cases p with
  | nil => simp at hp
  | cons x s =>
    obtain rfl : x = '/' := by simpa using hp
    have hf : ((splitOn '/' ('/' :: s)).foldl (normStep true) []) = leadsTo dir ('/' :: s) := by
      rw [foldl_normStep (by simp)]
      unfold leadsTo
      rw [if_pos hp]
    have h12 : initialSlashes ('/' :: s) = 1 ∨ initialSlashes ('/' :: s) = 2 := by
      unfold initialSlashes
      split <;> simp_all
    unfold normpath
    rw [if_neg (by simp)]
    rcases h12 with h | h
    · left
      simp only [h]
      rw [show ((1 : Nat) != 0) = true from rfl, hf]
      simp
    · right
      simp only [h]
      rw [show ((2 : Nat) != 0) = true from rfl, hf]
      exact ⟨joinPath (leadsTo dir ('/' :: s)), by simp [List.replicate]⟩

theorem joinPath_cons {c : Str} {cs : Path} (h : cs ≠ []) :
    joinPath (c :: cs) = c ++ '/' :: joinPath cs := by
  rw [joinPath, joinWith_cons h]; simp [joinPath]

/-- Two strings without slash, each followed by a slash: prefix means equal first parts. -/
theorem prefix_sep {a b x y : Str} (ha : '/' ∉ a) (hb : '/' ∉ b)
    (h : a ++ '/' :: x <+: b ++ '/' :: y) : a = b ∧ x <+: y := by
  induction a generalizing b with
  | nil =>
    cases b with
    | nil => simpa using h
    | cons d b =>
      rw [List.nil_append, List.cons_append, List.cons_prefix_cons] at h
      exact absurd (h.1 ▸ List.mem_cons_self) hb
  | cons c a ih =>
    cases b with
    | nil =>
      rw [List.nil_append, List.cons_append, List.cons_prefix_cons] at h
      exact absurd (h.1 ▸ List.mem_cons_self) ha
    | cons d b =>
      rw [List.cons_append, List.cons_append, List.cons_prefix_cons] at h
      obtain ⟨h1, h2⟩ := ih (fun e => ha (by simp [e])) (fun e => hb (by simp [e])) h.2
      exact ⟨by rw [h.1, h1], h2⟩

/-- A string prefix of a path string is inside the directory or in a lookalike sibling. -/
theorem prefix_joinPath {A B : Path} (hA : GoodPath A) (hB : ∀ c ∈ B, GoodName c) :
    joinPath A <+: joinPath B ↔ Inside A B ∨ Lookalike A B := by
  obtain ⟨hne, hg⟩ := hA
  induction A generalizing B with
  | nil => exact absurd rfl hne
  | cons a as ih =>
    have ha := hg a (by simp)
    cases B with
    | nil =>
      constructor
      · intro h
        have : joinPath (a :: as) = [] := by simpa [joinPath, joinWith] using h
        exact absurd this (joinPath_ne_nil ⟨hne, hg⟩)
      · rintro (h | ⟨_, _, _, _, _, _, h⟩)
        · simp [Inside] at h
        · simp at h
    | cons b bs =>
      have hb := hB b (by simp)
      by_cases has : as = []
      · subst has
        rw [show joinPath [a] = a from rfl]
        have key : a <+: joinPath (b :: bs) ↔ a <+: b := by
          by_cases hbs : bs = []
          · subst hbs; exact Iff.rfl
          · rw [joinPath_cons hbs]
            constructor
            · intro h
              rcases List.prefix_or_prefix_of_prefix h (List.prefix_append b _) with h' | ⟨t, rfl⟩
              · exact h'
              · cases t with
                | nil => simp
                | cons x t =>
                  rw [List.prefix_append_right_inj, List.cons_prefix_cons] at h
                  exact absurd (by rw [h.1]; simp) ha.noslash
            · intro h; exact h.trans (List.prefix_append _ _)
        rw [key]
        constructor
        · rintro ⟨ext, rfl⟩
          by_cases he : ext = []
          · left; subst he; simp [Inside]
          · right; exact ⟨[], a, ext, bs, rfl, he, rfl⟩
        · rintro (h | ⟨parent, name, ext, rest, h1, _, h3⟩)
          · rw [Inside, List.cons_prefix_cons] at h; rw [h.1]; exact List.prefix_refl _
          · cases parent with
            | nil =>
              simp only [List.nil_append, List.cons.injEq, and_true, List.cons_append] at h1 h3
              rw [h3.1, h1]; exact List.prefix_append _ _
            | cons d parent => simp at h1
      · rw [joinPath_cons has]
        by_cases hbs : bs = []
        · subst hbs
          rw [show joinPath [b] = b from rfl]
          constructor
          · rintro ⟨t, rfl⟩
            exact absurd (by simp) hb.noslash
          · rintro (h | ⟨parent, name, ext, rest, h1, _, h3⟩)
            · rw [Inside, List.cons_prefix_cons] at h
              exact absurd (List.prefix_nil.1 h.2) has
            · cases parent with
              | nil => simp at h1; exact absurd h1.2 has
              | cons d parent => simp at h3
        · rw [joinPath_cons hbs]
          have ih' := ih (B := bs) (fun d hd => hB d (by simp [hd])) has (fun d hd => hg d (by simp [hd]))
          constructor
          · intro h
            obtain ⟨rfl, h2⟩ := prefix_sep ha.noslash hb.noslash h
            rcases ih'.1 h2 with h | ⟨parent, name, ext, rest, h1, he, h3⟩
            · left; rw [Inside, List.cons_prefix_cons]; exact ⟨rfl, h⟩
            · right; exact ⟨a :: parent, name, ext, rest, by rw [h1]; rfl, he, by rw [h3]; rfl⟩
          · intro h
            have : a = b ∧ (Inside as bs ∨ Lookalike as bs) := by
              rcases h with h | ⟨parent, name, ext, rest, h1, he, h3⟩
              · rw [Inside, List.cons_prefix_cons] at h; exact ⟨h.1, .inl h.2⟩
              · cases parent with
                | nil => simp at h1; exact absurd h1.2 has
                | cons d parent =>
                  simp only [List.cons_append, List.cons.injEq] at h1 h3
                  exact ⟨by rw [h1.1, h3.1], .inr ⟨parent, name, ext, rest, h1.2, he, by simpa using h3.2⟩⟩
            obtain ⟨rfl, h'⟩ := this
            exact (List.prefix_append_right_inj a).2 (List.cons_prefix_cons.2 ⟨rfl, ih'.2 h'⟩)

theorem commonPrefix_eq_left {a b : Str} : commonPrefix a b = a ↔ a <+: b := by
  induction a generalizing b with
  | nil => simp [commonPrefix]
  | cons x a ih =>
    cases b with
    | nil => simp [commonPrefix]
    | cons y b =>
      rw [commonPrefix, List.cons_prefix_cons]
      split
      · next h => subst h; simp [ih]
      · next h => simp [h]

theorem comps_abs {p : Path} (h : ∀ c ∈ p, GoodName c) : comps ('/' :: joinPath p) = p := by
  by_cases hp : p = []
  · subst hp; rfl
  · have e : comps ('/' :: joinPath p) = comps (joinPath p) := by
      unfold comps; rw [splitOn_cons_sep]; rfl
    rw [e, comps_joinPath ⟨hp, h⟩]

end Verif
