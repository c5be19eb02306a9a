import Verif.Lemmas.Walk
import Verif.Lemmas.History
import Verif.Model.TagDir
/-!
# Lemmas about moving a directory
-/

namespace Verif

open Spec

theorem dget_append {K V : Type} [DecidableEq K] (a b : List (K × V)) (k : K) :
    dget (a ++ b) k = (dget a k).or (dget b k) := by
  induction a with
  | nil => simp [dget]
  | cons x xs ih =>
    obtain ⟨k', v⟩ := x
    simp only [List.cons_append, dget]
    split
    · simp
    · exact ih

theorem dget_filter_key {K V : Type} [DecidableEq K] (d : List (K × V)) (f : K → Bool) (k : K) :
    dget (d.filter (fun e => f e.1)) k = if f k then dget d k else none := by
  induction d with
  | nil => simp [dget]
  | cons x xs ih =>
    obtain ⟨k', v⟩ := x
    rw [List.filter_cons]
    by_cases h : f k' = true
    · simp only [h, if_true, dget]
      by_cases e : k' = k
      · subst e; simp [h]
      · simp [e, ih]
    · simp only [h, Bool.false_eq_true, if_false, dget, ih]
      by_cases e : k' = k
      · subst e; simp [h]
      · simp [e]

theorem dget_moved (t : Tree) (old new : Path) (x : Path) :
    dget ((t.filter (fun e => old.isPrefixOf e.1)).map (fun e => (new ++ e.1.drop old.length, e.2))) (new ++ x) =
      dget t (old ++ x) := by
  induction t with
  | nil => simp [dget]
  | cons y ys ih =>
    obtain ⟨k, v⟩ := y
    rw [List.filter_cons]
    by_cases h : old.isPrefixOf k = true
    · obtain ⟨r, rfl⟩ := List.isPrefixOf_iff_prefix.1 h
      simp only [h, if_true, List.map_cons, dget, List.drop_left]
      by_cases e : r = x
      · subst e; simp
      · rw [if_neg (by simpa using e), if_neg (by simpa using e)]
        exact ih
    · simp only [h, Bool.false_eq_true, if_false, dget]
      rw [ih, if_neg]
      rintro rfl
      exact h (List.isPrefixOf_iff_prefix.2 (List.prefix_append _ _))

theorem dget_moved_not (t : Tree) (old new : Path) (p : Path) (h : ¬ new <+: p) :
    dget ((t.filter (fun e => old.isPrefixOf e.1)).map (fun e => (new ++ e.1.drop old.length, e.2))) p = none := by
  rw [dget_eq_none_iff]
  simp only [dkeys, List.map_map, List.mem_map, not_exists, not_and]
  rintro e _ rfl
  exact h (List.prefix_append _ _)

theorem makedirsFrom_ok {t t' : Tree} {pre rest : Path} (h : t.makedirsFrom pre rest = .ok t') (p : Path) :
    dget t' p = dget t p ∨ (p <+: pre ++ rest ∧ dget t p = none ∧ dget t' p = some .dir) := by
  induction rest generalizing t pre with
  | nil =>
    simp only [Tree.makedirsFrom, Except.ok.injEq] at h
    subst h; exact .inl rfl
  | cons c rest ih =>
    simp only [Tree.makedirsFrom] at h
    split at h
    · have := ih h
      rwa [List.append_assoc] at this
    · split at h
      · cases h
      · rename_i t1 ht
        obtain ⟨e, hn⟩ := mkdir_ok ht
        have := ih h
        rw [List.append_assoc, e, dget_dset] at this
        by_cases hp : pre ++ [c] = p
        · subst hp
          rw [if_pos rfl] at this
          right
          refine ⟨⟨rest, by simp⟩, hn, ?_⟩
          rcases this with h1 | h1
          · exact h1
          · exact h1.2.2
        · rw [if_neg hp] at this
          exact this

theorem removedirs_spec (t : Tree) (p q : Path) :
    dget (t.removedirs p) q = dget t q ∨ (q <+: p ∧ dget (t.removedirs p) q = none) := by
  fun_induction Tree.removedirs t p with
  | case1 => exact .inl rfl
  | case2 => exact .inl rfl
  | case3 t p hp _ ih =>
    rcases ih with h | ⟨h1, h2⟩
    · rw [dget_ddel] at h
      by_cases e : p = q
      · subst e; rw [if_pos rfl] at h; exact .inr ⟨List.prefix_refl _, h⟩
      · rw [if_neg e] at h; exact .inl h
    · exact .inr ⟨h1.trans (List.dropLast_prefix _), h2⟩

theorem rename_ok {t t' : Tree} {old new : Path} (h : t.rename old new = .ok t') :
    dget t old ≠ none ∧ ¬ old <+: new ∧
    (∀ x, dget t new = none → (∀ y, dget t (new ++ y) = none) → dget t' (new ++ x) = dget t (old ++ x)) ∧
    (∀ p, ¬ new <+: p → dget t' p = if old.isPrefixOf p then none else dget t p) := by
  unfold Tree.rename at h
  split at h
  · cases h
  · rename_i hc
    injection h with h
    simp only [Bool.or_eq_true, Option.isNone_iff_eq_none, Bool.not_eq_true', not_or] at hc
    obtain ⟨⟨h1, h2⟩, h3⟩ := hc
    refine ⟨h1, fun hp => h3 (List.isPrefixOf_iff_prefix.2 hp), fun x _ hn => ?_, fun p hp => ?_⟩
    · rw [← h, dget_append, dget_moved, dget_filter_key t (fun k => !old.isPrefixOf k), hn]
      simp
    · rw [← h, dget_append, dget_moved_not _ _ _ _ hp, dget_filter_key t (fun k => !old.isPrefixOf k)]
      cases hh : old.isPrefixOf p <;> simp

/-- Nothing exists below a path where nothing exists. -/
theorem none_below {t : Tree} (h : WfTree t) {p : Path} (hp : t.exists p = false) (x : Path) :
    dget t (p ++ x) = none := by
  simp only [Tree.exists, Bool.or_eq_false_iff, decide_eq_false_iff_not] at hp
  cases hx : x with
  | nil => simpa using hp.2
  | cons c cs =>
    rw [dget_eq_none_iff]
    intro hm
    have hd := wf_prefix_dir h hm (List.prefix_append p _) (by simp)
    rcases isdir_iff.1 hd with e | e
    · exact hp.1 e
    · rw [e] at hp; simp at hp

theorem renames_ok {t t' : Tree} (h : WfTree t) {old new : Path} (hr : t.renames old new = .ok t')
    (hn : t.exists new = false) :
    (∀ x, dget t' (new ++ x) = dget t (old ++ x)) ∧
    (∀ p c, dget t p = some (.file c) → ¬ old <+: p → dget t' p = some (.file c)) := by
  have hne : new ≠ [] := by
    rintro rfl; simp [Tree.exists] at hn
  unfold Tree.renames at hr
  split at hr
  · cases hr
  · rename_i t1 h1
    split at hr
    · cases hr
    · rename_i t2 h2
      injection hr with hr
      have m := makedirsFrom_ok h1
      simp only [List.nil_append] at m
      obtain ⟨r1, r2, r3, r4⟩ := rename_ok h2
      have hnp : ∀ x : Path, ¬ new ++ x <+: new.dropLast := by
        intro x hx
        have := hx.length_le
        have hl := List.length_pos_iff.2 hne
        simp at this; omega
      have hn1 : ∀ x, dget t1 (new ++ x) = none := by
        intro x
        rcases m (new ++ x) with e | e
        · rw [e, none_below h hn]
        · exact absurd e.1 (hnp x)
      have hold1 : dget t1 old = dget t old := by
        rcases m old with e | e
        · exact e
        · exact absurd (e.1.trans (List.dropLast_prefix _)) r2
      have holdk : old ∈ dkeys t := by
        rw [hold1] at r1
        exact Classical.byContradiction (fun hc => r1 (dget_eq_none_iff.2 hc))
      have hone : old ≠ [] := (h.good old holdk).1
      constructor
      · intro x
        rw [← hr]
        have e2 : dget t2 (new ++ x) = dget t (old ++ x) := by
          rw [r3 x (by simpa using hn1 []) hn1]
          rcases m (old ++ x) with e | e
          · exact e
          · exact absurd (((List.prefix_append old x).trans e.1).trans (List.dropLast_prefix _)) r2
        rcases removedirs_spec t2 old.dropLast (new ++ x) with e | ⟨e, _⟩
        · rw [e, e2]
        · -- then `new` would be above `old`, which exists
          have hpre : new <+: old := ((List.prefix_append new x).trans e).trans (List.dropLast_prefix _)
          have hno : new ≠ old := by
            rintro rfl; exact r2 (List.prefix_refl _)
          have := wf_prefix_dir h holdk hpre hno
          rcases isdir_iff.1 this with e' | e'
          · exact absurd e' hne
          · simp [Tree.exists, hne, e'] at hn
      · intro p c hp hop
        have hnewp : ¬ new <+: p := by
          rintro ⟨x, rfl⟩
          rw [none_below h hn] at hp; cases hp
        have e1 : dget t1 p = some (.file c) := by
          rcases m p with e | e
          · rw [e, hp]
          · rw [e.2.1] at hp; cases hp
        have e2 : dget t2 p = some (.file c) := by
          rw [r4 p hnewp, if_neg (fun hh => hop (List.isPrefixOf_iff_prefix.1 hh)), e1]
        rw [← hr]
        rcases removedirs_spec t2 old.dropLast p with e | ⟨e, _⟩
        · rw [e, e2]
        · have hpo : p <+: old := e.trans (List.dropLast_prefix _)
          have hpne : p ≠ old := by
            rintro rfl; exact hop (List.prefix_refl _)
          have := wf_prefix_dir h holdk hpo hpne
          rcases isdir_iff.1 this with e' | e'
          · subst e'
            have := (h.good [] (mem_dkeys_iff.2 ⟨_, hp⟩)).1
            exact absurd rfl this
          · rw [e'] at hp; cases hp

/-! ## Names -/

theorem comps_osJoin1 (a b : Str) : comps (osJoin1 a b) = comps a ++ comps b := by
  unfold osJoin1
  split
  · rename_i h; subst h; rfl
  · rename_i hne
    split
    · rename_i hl
      obtain ⟨i, l, rfl⟩ := exists_concat hne
      simp only [List.getLast?_concat, Option.some.injEq] at hl
      subst hl
      rw [List.append_assoc, List.singleton_append, comps_sep, comps_sep]
      have : comps [] = [] := rfl
      rw [this, List.append_nil]
    · exact comps_sep a b

theorem comps_foldl_osJoin (l : List Str) (a : Str) :
    comps (l.foldl osJoin1 a) = comps a ++ l.flatMap comps := by
  induction l generalizing a with
  | nil => simp
  | cons b l ih => rw [List.foldl_cons, ih, comps_osJoin1, List.flatMap_cons, List.append_assoc]

theorem comps_noSep {c : Str} (h : '/' ∉ c) : comps c = [c].filter (fun c => c ≠ [] && c ≠ ['.']) := by
  unfold comps; rw [splitOn_noSep h]

/-- The normalised directory name has the same components. -/
theorem comps_osJoin_split (d : Str) : comps (osJoin (splitOn '/' d)) = comps d := by
  have key : ∀ l : List Str, (∀ c ∈ l, '/' ∉ c) → l.flatMap comps = l.filter (fun c => c ≠ [] && c ≠ ['.']) := by
    intro l
    induction l with
    | nil => intro _; rfl
    | cons c l ih =>
      intro h
      rw [List.flatMap_cons, comps_noSep (h c (by simp)), ih (fun c hc => h c (by simp [hc])),
        ← List.filter_append]
      rfl
  have hs : ∀ c ∈ splitOn '/' d, '/' ∉ c := fun c hc => sep_not_mem_splitOn hc
  cases h : splitOn '/' d with
  | nil => exact absurd h (splitOn_ne_nil _ _)
  | cons a l =>
    have := key (a :: l) (by rw [← h]; exact hs)
    simp only [osJoin]
    rw [comps_foldl_osJoin, ← List.flatMap_cons, this, ← h]
    rfl

end Verif
