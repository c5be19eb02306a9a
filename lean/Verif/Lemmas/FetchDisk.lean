import Verif.Lemmas.Fetching
import Verif.Spec.Fetching
/-!
# The disk while bags are fetched
-/

namespace Verif

open Spec

theorem below_filter (t : Tree) (f : Path → Bool) (d : Path) :
    Tree.below (t.filter (fun e => f e.1)) d = (t.below d).filter (fun e => f (d ++ e.1)) := by
  induction t with
  | nil => rfl
  | cons e t ih =>
    obtain ⟨k, v⟩ := e
    rw [List.filter_cons, below_cons]
    by_cases hp : (d.isPrefixOf k && decide (k ≠ d)) = true
    · have hk : d ++ k.drop d.length = k := by
        rw [Bool.and_eq_true, List.isPrefixOf_iff_prefix] at hp
        obtain ⟨s, rfl⟩ := hp.1
        rw [List.drop_left]
      rw [if_pos hp, List.filter_cons]
      simp only [hk]
      by_cases hf : f k = true
      · rw [if_pos hf, if_pos hf, below_cons, if_pos hp, ih]
      · rw [if_neg hf, if_neg hf, ih]
    · rw [if_neg hp]
      by_cases hf : f k = true
      · simp only [hf, if_true]; rw [below_cons, if_neg hp, ih]
      · simp only [hf, Bool.false_eq_true, if_false]; rw [ih]

theorem below_filter_all {t : Tree} {f : Path → Bool} {d : Path} (h : ∀ p, f (d ++ p) = true) :
    Tree.below (t.filter (fun e => f e.1)) d = t.below d := by
  rw [below_filter]
  exact List.filter_eq_self.2 (fun e _ => h e.1)

theorem below_below (t : Tree) (a b : Path) : Tree.below (t.below a) b = t.below (a ++ b) := by
  induction t with
  | nil => rfl
  | cons e t ih =>
    obtain ⟨k, v⟩ := e
    rw [below_cons, below_cons]
    by_cases hp : (a.isPrefixOf k && decide (k ≠ a)) = true
    · rw [if_pos hp]
      rw [Bool.and_eq_true, List.isPrefixOf_iff_prefix] at hp
      obtain ⟨s, rfl⟩ := hp.1
      rw [List.drop_left, below_cons]
      have e1 : ((a ++ b).isPrefixOf (a ++ s) && decide (a ++ s ≠ a ++ b)) = (b.isPrefixOf s && decide (s ≠ b)) := by
        have h1 : (a ++ b).isPrefixOf (a ++ s) = b.isPrefixOf s := by
          rw [Bool.eq_iff_iff, List.isPrefixOf_iff_prefix, List.isPrefixOf_iff_prefix, List.prefix_append_right_inj]
        rw [h1]
        congr 1
        simp
      rw [e1, ih]
      have e2 : (a ++ s).drop (a ++ b).length = s.drop b.length := by
        rw [List.length_append, ← List.drop_drop, List.drop_left]
      rw [e2]
    · rw [if_neg hp, ih, if_neg]
      intro hc
      apply hp
      rw [Bool.and_eq_true, List.isPrefixOf_iff_prefix, decide_eq_true_eq] at hc ⊢
      refine ⟨(List.prefix_append _ _).trans hc.1, ?_⟩
      rintro rfl
      have := hc.1.length_le
      rw [List.length_append] at this
      have hb : b = [] := List.length_eq_zero_iff.1 (by omega)
      subst hb
      exact hc.2 (by simp)

theorem cacheOf_below (t : Tree) {x : Path} (h : cacheRel <+: x) : Tree.below (cacheOf t) x = t.below x := by
  unfold cacheOf
  refine below_filter_all (f := fun q => cacheRel.isPrefixOf q) (fun p => ?_)
  exact List.isPrefixOf_iff_prefix.2 (h.trans (List.prefix_append _ _))

theorem dget_cacheOf (t : Tree) {x : Path} (h : cacheRel <+: x) : dget (cacheOf t) x = dget t x := by
  unfold cacheOf
  rw [dget_filter_key t (fun q => cacheRel.isPrefixOf q), if_pos (List.isPrefixOf_iff_prefix.2 h)]

/-- What is there, and in what state, when a run with fetched bags has come as far as one with the bags at hand, whose
destination is `d`: `got` are the names of the bags fetched so far. -/
structure Fetched (W0 : Tree) (bags : Str → Option Tree) (D : Path) (got : List Str) (d W : Tree) : Prop where
  wf : WfTree W
  dest : W.isdir D = true
  alike : Alike d (W.below D)
  have_ : ∀ n ∈ got, W.isdir (D ++ cacheRel ++ [n]) = true ∧ bags n = some (W.below (D ++ cacheRel ++ [n]))
  none : ∀ n, n ∉ got → dget W (D ++ cacheRel ++ [n]) = none
  place : dget W (D ++ cacheRel) = Option.none ∨ dget W (D ++ cacheRel) = some .dir
  rest : ∀ q, ¬ D <+: q → dget W q = dget W0 q

theorem entries_ne_nil {t : Tree} (h : WfTree t) : ∀ e ∈ t, e.1 ≠ [] :=
  fun e he => (h.good e.1 (List.mem_map.2 ⟨e, he, rfl⟩)).1

/-- Something is done in the destination. -/
theorem Fetched.work {W0 : Tree} {bags : Str → Option Tree} {D : Path} (hD : Clean D) {got : List Str} {d W : Tree}
    (h : Fetched W0 bags D got d W) {e e' : Tree} (hs : StillAlike (W.below D) e e') (hw : WfTree e') :
    Fetched W0 bags D got e (W.withBelow D e') := by
  have hb := below_withBelow W D (entries_ne_nil hw)
  have key : ∀ n, dget (W.withBelow D e') (D ++ cacheRel ++ [n]) = dget W (D ++ cacheRel ++ [n]) := by
    intro n
    have hpre : cacheRel <+: cacheRel ++ [n] := List.prefix_append _ _
    rw [List.append_assoc, dget_withBelow _ _ _ (by simp), ← dget_cacheOf _ hpre, hs.2, dget_cacheOf _ hpre, dget_below (by simp)]
  have keyb : ∀ n, (W.withBelow D e').below (D ++ cacheRel ++ [n]) = W.below (D ++ cacheRel ++ [n]) := by
    intro n
    have hpre : cacheRel <+: cacheRel ++ [n] := List.prefix_append _ _
    rw [List.append_assoc, ← below_below _ D (cacheRel ++ [n]), ← below_below _ D (cacheRel ++ [n]), hb, ← cacheOf_below _ hpre, hs.2,
      cacheOf_below _ hpre]
  refine ⟨wf_withBelow h.wf hw h.dest hD, isdir_withBelow_self W e' h.dest, by rw [hb]; exact hs.1, ?_, ?_, ?_, ?_⟩
  · intro n hn
    obtain ⟨h1, h2⟩ := h.have_ n hn
    refine ⟨?_, by rw [keyb]; exact h2⟩
    rw [isdir_iff] at h1 ⊢
    rw [key]; exact h1
  · intro n hn
    rw [key]; exact h.none n hn
  · have hpre : cacheRel <+: cacheRel := List.prefix_refl _
    rw [dget_withBelow _ _ _ (by simp [cacheRel]), ← dget_cacheOf _ hpre, hs.2, dget_cacheOf _ hpre, dget_below (by simp [cacheRel])]
    exact h.place
  · intro q hq
    rw [dget_withBelow_other _ _ hq]; exact h.rest q hq

theorem goodName_mb : GoodName py!"multibag" := ⟨by decide, by decide, by decide, by decide⟩

theorem goodName_cache : GoodName py!"_membercache" := ⟨by decide, by decide, by decide, by decide⟩

/-- The directory for fetched bags is made. -/
theorem Fetched.prepare {W0 : Tree} {bags : Str → Option Tree} {D : Path} (hD : Clean D) {got : List Str} {d W : Tree}
    (h : Fetched W0 bags D got d W) (hx : W.exists (D ++ cacheRel) = false) :
    ∃ W', W.makedirsFrom [] (D ++ cacheRel) = .ok W' ∧ W'.isdir (D ++ cacheRel) = true ∧ Fetched W0 bags D got d W' := by
  have hnil : got = [] := by
    cases got with
    | nil => rfl
    | cons n got =>
      have h1 := (h.have_ n List.mem_cons_self).1
      rw [isdir_iff] at h1
      have h2 := wf_prefix h.wf (p := D ++ cacheRel ++ [n]) (q := D ++ cacheRel) (by rw [h1.resolve_left (by simp)]; rfl)
        (List.prefix_append _ _) (by simp [cacheRel])
      unfold Tree.exists at hx
      rw [h2] at hx
      simp at hx
  subst hnil
  have hmb : W.isdir (D ++ mbDir) = true := by
    rw [isdir_iff]; right
    rw [← dget_below (by simp [mbDir])]
    exact h.alike.dir
  have e0 : D ++ mbDir ++ [py!"_membercache"] = D ++ cacheRel := by simp [mbDir, cacheRel]
  have hnd : W.isdir (D ++ cacheRel) = false := by
    cases e : W.isdir (D ++ cacheRel) with
    | false => rfl
    | true => rw [exists_of_isdir e] at hx; cases hx
  have hdrop : (D ++ cacheRel).dropLast = D ++ mbDir := by
    rw [← e0, List.dropLast_concat]
  have hmk : W.makedirsFrom [] (D ++ cacheRel) = .ok (dset W (D ++ cacheRel) .dir) := by
    rw [makedirs_at h.wf h.dest]
    show W.makedirsFrom D [py!"multibag", py!"_membercache"] = _
    simp only [Tree.makedirsFrom]
    have e1 : D ++ [py!"multibag"] = D ++ mbDir := rfl
    rw [e1, if_pos hmb, e0, if_neg (by rw [hnd]; simp)]
    have : W.mkdir (D ++ cacheRel) = .ok (dset W (D ++ cacheRel) .dir) := by
      unfold Tree.mkdir
      rw [hx, hdrop, hmb]; rfl
    rw [this]
  refine ⟨_, hmk, isdir_iff.2 (.inr (by rw [dget_dset, if_pos rfl])), ?_⟩
  have hpar : W.isdir (D ++ cacheRel).dropLast = true := by rw [hdrop]; exact hmb
  have hgp : GoodPath (D ++ cacheRel) := by
    refine ⟨by simp [cacheRel], fun c hc => ?_⟩
    rcases List.mem_append.1 hc with hc | hc
    · exact hD c hc
    · simp only [cacheRel, List.mem_cons, List.not_mem_nil, or_false] at hc
      rcases hc with rfl | rfl
      · exact goodName_mb
      · exact goodName_cache
  refine ⟨wf_dset h.wf hgp hpar (.inr rfl), ?_, ?_, by simp, ?_, .inr (by rw [dget_dset, if_pos rfl]), ?_⟩
  · rw [isdir_iff]
    rcases isdir_iff.1 h.dest with e | e
    · exact .inl e
    · right
      rw [dget_dset, if_neg (fun (e : D ++ cacheRel = D) => by simp [cacheRel] at e)]
      exact e
  · rw [below_dset (by simp [cacheRel])]
    refine ⟨?_, ?_, h.alike.cache, ?_⟩
    · rw [besideMb_dset, if_pos (by exact ⟨[_], rfl⟩)]; exact h.alike.out
    · intro p hp hc
      rw [dget_dset, if_neg (fun (e : cacheRel = p) => hc (e ▸ List.prefix_refl _))]
      exact h.alike.mid p hp hc
    · rw [dget_dset, if_neg (by decide)]; exact h.alike.dir
  · intro n hn
    rw [dget_dset, if_neg (fun e => by simpa using congrArg List.length e)]
    exact h.none n hn
  · intro q hq
    rw [dget_dset, if_neg (fun (e : D ++ cacheRel = q) => hq (e ▸ List.prefix_append _ _))]
    exact h.rest q hq

theorem Spec.Delivered.dget {W W' : Tree} {q : Path} {t : Tree} (h : Delivered W W' q t) {p : Path} (hp : ¬ q <+: p) :
    dget W' p = dget W p := by
  have := congrArg (fun x => Verif.dget x p) h.rest
  simp only [dget_filter_key _ (fun x => !q.isPrefixOf x), isPrefixOf_false hp, Bool.not_false, if_true] at this
  exact this

theorem Spec.Delivered.below {W W' : Tree} {q : Path} {t : Tree} (h : Delivered W W' q t) {x : Path} (hx : ∀ p, ¬ q <+: x ++ p) :
    W'.below x = W.below x := by
  have key : ∀ X : Tree, Tree.below (X.filter (fun e => !q.isPrefixOf e.1)) x = X.below x :=
    fun X => below_filter_all (f := fun y => !q.isPrefixOf y) (fun p => by simp only [isPrefixOf_false (hx p), Bool.not_false])
  rw [← key W', ← key W, h.rest]

theorem prefix_cache {D p : Path} {n : Str} (h : D ++ cacheRel ++ [n] <+: D ++ p) : cacheRel ++ [n] <+: p := by
  rw [List.append_assoc] at h
  exact (List.prefix_append_right_inj D).1 h

theorem Spec.Delivered.beside {W W' : Tree} {D : Path} {n : Str} {t : Tree} (h : Delivered W W' (D ++ cacheRel ++ [n]) t) :
    besideMb (W'.below D) = besideMb (W.below D) := by
  have key : ∀ X : Tree, besideMb (Tree.below (X.filter (fun e => !(D ++ cacheRel ++ [n]).isPrefixOf e.1)) D) = besideMb (X.below D) := by
    intro X
    rw [below_filter X (fun y => !(D ++ cacheRel ++ [n]).isPrefixOf y)]
    unfold besideMb
    rw [List.filter_filter]
    apply List.filter_congr
    intro e _
    by_cases hm : mbDir <+: e.1
    · simp [List.isPrefixOf_iff_prefix.2 hm]
    · have : ¬ D ++ cacheRel ++ [n] <+: D ++ e.1 := fun hc => hm ((show mbDir <+: cacheRel ++ [n] from ⟨_, rfl⟩).trans (prefix_cache hc))
      simp only [isPrefixOf_false hm, isPrefixOf_false this, Bool.not_false, Bool.and_self]
  rw [← key W', ← key W, h.rest]

/-- A bag is fetched. -/
theorem Fetched.more {W0 : Tree} {bags : Str → Option Tree} {D : Path} {got : List Str} {d W W' : Tree}
    (h : Fetched W0 bags D got d W) {n : Str} (hn : n ∉ got) {t : Tree} (ht : bags n = some t)
    (hd : Delivered W W' (D ++ cacheRel ++ [n]) t) : Fetched W0 bags D (n :: got) d W' := by
  have hother : ∀ p, ¬ cacheRel ++ [n] <+: p → Verif.dget W' (D ++ p) = Verif.dget W (D ++ p) :=
    fun p hp => hd.dget (fun hc => hp (prefix_cache hc))
  have hmb : ¬ cacheRel ++ [n] <+: mbDir := fun hc => by have := hc.length_le; simp [cacheRel, mbDir] at this
  refine ⟨hd.proper, ?_, ?_, ?_, ?_, ?_, ?_⟩
  · have := h.dest
    rw [isdir_iff] at this ⊢
    rcases this with e | e
    · exact .inl e
    · right
      have h1 := hd.dget (p := D) (fun hc => by have := hc.length_le; simp only [List.length_append, List.length_cons] at this; omega)
      rw [h1]; exact e
  · refine ⟨by rw [hd.beside]; exact h.alike.out, ?_, h.alike.cache, ?_⟩
    · intro p hp hc
      have hne : p ≠ [] := by rintro rfl; exact absurd hp (by decide)
      rw [dget_below hne, hother p (fun hx => hc ((List.prefix_append _ _).trans hx)), ← dget_below hne]
      exact h.alike.mid p hp hc
    · rw [dget_below (by simp [mbDir]), hother _ hmb, ← dget_below (by simp [mbDir])]
      exact h.alike.dir
  · intro m hm
    rcases List.mem_cons.1 hm with rfl | hm
    · exact ⟨hd.dir, by rw [hd.contents]; exact ht⟩
    · have hmn : m ≠ n := fun e => hn (e ▸ hm)
      obtain ⟨h1, h2⟩ := h.have_ m hm
      have hnp : ∀ p, ¬ D ++ cacheRel ++ [n] <+: D ++ cacheRel ++ [m] ++ p := by
        intro p hc
        rw [List.append_assoc (D ++ cacheRel), List.prefix_append_right_inj] at hc
        simp at hc
        exact hmn hc.symm
      refine ⟨?_, by rw [hd.below hnp]; exact h2⟩
      rw [isdir_iff] at h1 ⊢
      have := hd.dget (p := D ++ cacheRel ++ [m]) (by simpa using hnp [])
      rw [this]; exact h1
  · intro m hm
    rw [List.mem_cons, not_or] at hm
    have := hd.dget (p := D ++ cacheRel ++ [m]) (fun hc => by
      rw [List.prefix_append_right_inj] at hc
      simp at hc
      exact hm.1 hc.symm)
    rw [this]; exact h.none m hm.2
  · rw [hother _ (fun hc => by have := hc.length_le; simp only [List.length_append, List.length_cons] at this; omega)]
    exact h.place
  · intro q hq
    rw [hd.dget (fun hc => hq (((List.prefix_append D cacheRel).trans (List.prefix_append _ _)).trans hc))]
    exact h.rest q hq

end Verif
