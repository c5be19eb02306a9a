import Verif.Spec.Tree
import Verif.Lemmas.HeadBagSave
/-!
# Lemmas about paths and walks
-/

namespace Verif

open Spec

theorem comps_joinPath {p : Path} (h : GoodPath p) : comps (joinPath p) = p := by
  unfold comps joinPath
  rw [splitOn_joinWith h.1 (fun c hc => (h.2 c hc).noslash)]
  rw [List.filter_eq_self]
  intro c hc
  have := h.2 c hc
  simp [this.nonempty, this.nodot]

theorem joinPath_inj {p q : Path} (hp : GoodPath p) (hq : GoodPath q) (h : joinPath p = joinPath q) : p = q := by
  rw [← comps_joinPath hp, h, comps_joinPath hq]

theorem joinPath_ne_nil {p : Path} (h : GoodPath p) : joinPath p ≠ [] := by
  intro e
  have := comps_joinPath h
  rw [e] at this
  exact h.1 this.symm

theorem joinPath_snoc {p : Path} (h : p ≠ []) (c : Str) : joinPath (p ++ [c]) = joinPath p ++ '/' :: c := by
  unfold joinPath
  induction p with
  | nil => exact absurd rfl h
  | cons x xs ih =>
    cases xs with
    | nil => simp [joinWith]
    | cons y ys =>
      have := ih (by simp)
      simp only [List.cons_append, joinWith] at this ⊢
      rw [this]; simp

theorem joinPath_append {p q : Path} (hp : p ≠ []) (hq : q ≠ []) :
    joinPath (p ++ q) = joinPath p ++ '/' :: joinPath q := by
  unfold joinPath
  induction p with
  | nil => exact absurd rfl hp
  | cons x xs ih =>
    cases xs with
    | nil =>
      cases q with
      | nil => exact absurd rfl hq
      | cons y ys => simp [joinWith]
    | cons y ys =>
      have := ih (by simp)
      simp only [List.cons_append, joinWith] at this ⊢
      rw [this]; simp

theorem splitOn_joinPath {p : Path} (h : GoodPath p) : (splitOn '/' (joinPath p)).filter (· ≠ []) = p := by
  unfold joinPath
  rw [splitOn_joinWith h.1 (fun c hc => (h.2 c hc).noslash)]
  rw [List.filter_eq_self]
  intro c hc
  simp [(h.2 c hc).nonempty]

theorem goodPath_prefix {p q : Path} (h : GoodPath q) (hp : p <+: q) (hne : p ≠ []) : GoodPath p :=
  ⟨hne, fun c hc => h.2 c (hp.subset hc)⟩

theorem joinPath_head {p : Path} (h : GoodPath p) : ∀ c ∈ (joinPath p).head?, c ≠ '/' := by
  intro c hc
  obtain ⟨x, xs, rfl⟩ : ∃ x xs, p = x :: xs := by
    cases p with
    | nil => exact absurd rfl h.1
    | cons x xs => exact ⟨x, xs, rfl⟩
  have hx := h.2 x (by simp)
  have : c ∈ x.head? := by
    cases x with
    | nil => exact absurd rfl hx.nonempty
    | cons a as =>
      cases xs with
      | nil => simpa [joinPath, joinWith] using hc
      | cons y ys => simpa [joinPath, joinWith] using hc
  rintro rfl
  exact hx.noslash (List.mem_of_mem_head? this)

theorem joinPath_last {p : Path} (h : GoodPath p) : ∀ c ∈ (joinPath p).getLast?, c ≠ '/' := by
  intro c hc
  obtain ⟨init, last, rfl⟩ := exists_concat h.1
  have hx := h.2 last (by simp)
  have : c ∈ last.getLast? := by
    by_cases hi : init = []
    · subst hi; simpa [joinPath, joinWith] using hc
    · rw [joinPath_snoc hi] at hc
      have hne := hx.nonempty
      cases last with
      | nil => exact absurd rfl hne
      | cons a as =>
        have e : joinPath init ++ '/' :: a :: as = (joinPath init ++ ['/']) ++ (a :: as) := by simp
        rw [e, List.getLast?_append] at hc
        simp [List.getLast?_cons] at hc ⊢
        exact hc
  rintro rfl
  exact hx.noslash (List.mem_of_getLast? this)

/-- For a normalized start directory both kinds of bag name the directories alike. -/
theorem dirStr_norm (ro : Bool) {i d : Path} (hi : GoodPath i) (hd : GoodPath d) (h : i <+: d) :
    dirStr ro (joinPath i) d = joinPath d := by
  obtain ⟨rel, rfl⟩ := h
  unfold dirStr
  simp only [comps_joinPath hi, List.drop_left]
  cases ro with
  | false => rw [if_neg (by simp), splitOn_joinPath hi]
  | true =>
    simp only [if_true]
    have hl : ∀ s : Str, (∀ c ∈ s.head?, c ≠ '/') → lstripBy (fun x => decide (x = '/')) s = s := by
      intro s hs
      apply dropWhile_eq_self_of_head
      intro c hc
      simpa using hs c hc
    have hhead : ∀ b : Str, lstripBy (fun x => decide (x = '/')) (joinPath i ++ b) = joinPath i ++ b := by
      intro b
      apply hl
      intro c hc
      apply joinPath_head hi
      have hne := joinPath_ne_nil hi
      cases h : joinPath i with
      | nil => exact absurd h hne
      | cons a as => rw [h] at hc; simpa using hc
    rw [hhead]
    by_cases hr : rel = []
    · subst hr
      have : joinPath i ++ '/' :: joinPath [] = joinPath i ++ ['/'] := rfl
      rw [this, rstripBy_append_all (by simp)]
      rw [List.append_nil]
      apply rstripBy_eq_self
      intro c hc
      simpa using joinPath_last hi c hc
    · rw [← joinPath_append hi.1 hr]
      apply rstripBy_eq_self
      intro c hc
      simpa using joinPath_last hd c hc

/-! ## Trees -/

theorem isfile_iff {t : Tree} {p : Path} : t.isfile p = true ↔ ∃ c, dget t p = some (.file c) := by
  unfold Tree.isfile
  cases h : dget t p with
  | none => simp
  | some n => cases n <;> simp

theorem isdir_iff {t : Tree} {p : Path} : t.isdir p = true ↔ p = [] ∨ dget t p = some .dir := by
  simp [Tree.isdir]

theorem mem_filesOf {t : Tree} (h : WfTree t) {d : Path} {f : Str} :
    f ∈ filesOf t d ↔ t.isfile (d ++ [f]) = true := by
  rw [isfile_iff]
  unfold filesOf
  rw [List.mem_filterMap]
  constructor
  · rintro ⟨⟨q, n⟩, he, hf⟩
    cases n with
    | dir => simp at hf
    | file c =>
      simp only at hf
      split at hf
      · rename_i hd
        have hq : q = d ++ [f] := by
          rw [← hd]
          obtain ⟨init, last, e⟩ := exists_concat (l := q) (by rintro rfl; simp at hf)
          subst e
          simp at hf
          simp [hf]
        exact ⟨c, (dget_iff_mem h.nodup).2 (hq ▸ he)⟩
      · cases hf
  · rintro ⟨c, hc⟩
    exact ⟨(d ++ [f], .file c), (dget_iff_mem h.nodup).1 hc, by simp⟩

theorem wf_prefix_dir {t : Tree} (h : WfTree t) {p q : Path} (hq : q ∈ dkeys t) (hp : p <+: q) (hne : p ≠ q) :
    t.isdir p = true := by
  obtain ⟨r, rfl⟩ := hp
  have hr : r ≠ [] := by rintro rfl; simp at hne
  clear hne
  -- walk up from the entry to p
  generalize hn : r.length = n
  induction n generalizing r with
  | zero => exact absurd (List.length_eq_zero_iff.1 hn) hr
  | succ n ih =>
    obtain ⟨init, last, rfl⟩ := exists_concat hr
    have hpar := h.parent _ hq
    rw [← List.append_assoc, List.dropLast_concat] at hpar
    by_cases hi : init = []
    · subst hi; simpa using hpar
    · have hk : p ++ init ∈ dkeys t := by
        rcases isdir_iff.1 hpar with e | e
        · simp at e; exact absurd e.2 hi
        · exact mem_dkeys_iff.2 ⟨_, e⟩
      exact ih init hk hi (by simpa using hn)

theorem mem_dirsBelow {t : Tree} (h : WfTree t) {s d : Path} (hs : t.isdir s = true) :
    d ∈ dirsBelow t s ↔ t.isdir d = true ∧ s <+: d := by
  unfold dirsBelow
  simp only [List.mem_cons, List.mem_map, List.mem_filter, Bool.and_eq_true, decide_eq_true_eq,
    List.isPrefixOf_iff_prefix]
  constructor
  · rintro (rfl | ⟨⟨q, n⟩, ⟨he, ⟨hn, hp⟩, _⟩, rfl⟩)
    · exact ⟨hs, List.prefix_refl _⟩
    · simp only at hn hp ⊢
      subst hn
      exact ⟨isdir_iff.2 (.inr ((dget_iff_mem h.nodup).2 he)), hp⟩
  · rintro ⟨hd, hp⟩
    by_cases e : d = s
    · exact .inl e
    · right
      rcases isdir_iff.1 hd with rfl | hg
      · exact absurd (List.prefix_nil.1 hp).symm e
      · exact ⟨(d, .dir), ⟨(dget_iff_mem h.nodup).1 hg, ⟨rfl, hp⟩, by simpa using e⟩, rfl⟩

theorem mem_walkDirs {t : Tree} (h : WfTree t) {s d : Path} (hs : t.isdir s = true) {prune : Path → Bool} :
    d ∈ walkDirs t s prune ↔ t.isdir d = true ∧ s <+: d ∧
      ∀ a, s <+: a → a <+: d → a ≠ d → prune a = false := by
  unfold walkDirs
  rw [List.mem_filter, mem_dirsBelow h hs, and_assoc]
  constructor
  · rintro ⟨h1, h2, h3⟩
    refine ⟨h1, h2, fun a ha hd hne => ?_⟩
    rw [List.all_eq_true] at h3
    have hlen : a.length < d.length := by
      obtain ⟨r, rfl⟩ := hd
      cases r with
      | nil => simp at hne
      | cons x xs => simp
    have := h3 a.length (by simpa using hlen)
    have hge : ¬ a.length < s.length := by
      have := ha.length_le; omega
    rw [← List.prefix_iff_eq_take.1 hd] at this
    simpa [hge] using this
  · rintro ⟨h1, h2, h3⟩
    refine ⟨h1, h2, ?_⟩
    rw [List.all_eq_true]
    intro k hk
    have hk' : k < d.length := by simpa using hk
    by_cases hks : k < s.length
    · simp [hks]
    · have hpre : s <+: d.take k := by
        obtain ⟨r, rfl⟩ := h2
        rw [List.take_append]
        rw [List.take_of_length_le (by omega)]
        exact List.prefix_append _ _
      have hne : d.take k ≠ d := by
        intro e
        have := congrArg List.length e
        simp at this; omega
      simp [h3 _ hpre (List.take_prefix _ _) hne]

end Verif
