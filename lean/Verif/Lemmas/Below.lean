import Verif.Model.OpenBag
/-!
# The part of a file system below a directory
-/

namespace Verif

theorem dget_below {t : Tree} {d p : Path} (hp : p ≠ []) : dget (t.below d) p = dget t (d ++ p) := by
  unfold Tree.below
  induction t with
  | nil => rfl
  | cons e t ih =>
    obtain ⟨k, n⟩ := e
    rw [List.filterMap_cons]
    by_cases hk : k = d ++ p
    · subst hk
      have : (d.isPrefixOf (d ++ p) && decide (d ++ p ≠ d)) = true := by
        simp [hp]
      simp only [this, if_true]
      simp [dget]
    · simp only
      split
      · next h =>
        rw [ih]
        simp [dget, hk]
      · next x h =>
        split at h
        · next hc =>
          cases h
          simp only [Bool.and_eq_true, List.isPrefixOf_iff_prefix, decide_eq_true_eq] at hc
          obtain ⟨r, hr⟩ := hc.1
          have : k.drop d.length ≠ p := by
            intro e
            rw [← hr, List.drop_left] at e
            exact hk (by rw [← hr, e])
          simp only [dget, this, if_false, hk]
          exact ih
        · cases h

theorem dget_below_root (t : Tree) (d : Path) : dget (t.below d) [] = none := by
  unfold Tree.below
  induction t with
  | nil => rfl
  | cons e t ih =>
    obtain ⟨k, n⟩ := e
    rw [List.filterMap_cons]
    simp only
    split
    · exact ih
    · next x h =>
      split at h
      · next hc =>
        cases h
        simp only [Bool.and_eq_true, List.isPrefixOf_iff_prefix, decide_eq_true_eq] at hc
        obtain ⟨r, hr⟩ := hc.1
        have : k.drop d.length ≠ [] := by
          intro e
          rw [← hr, List.drop_left] at e
          exact hc.2 (by rw [← hr, e, List.append_nil])
        simp only [dget, this, if_false]
        exact ih
      · cases h

theorem below_cons {k : Path} {n : Node} {t : Tree} {d : Path} :
    Tree.below ((k, n) :: t) d = if d.isPrefixOf k && k ≠ d then (k.drop d.length, n) :: Tree.below t d else Tree.below t d := by
  unfold Tree.below
  rw [List.filterMap_cons]
  by_cases h : (d.isPrefixOf k && decide (k ≠ d)) = true
  · simp only [h, if_true]
  · simp only [h, if_false, Bool.false_eq_true]

theorem below_dset {t : Tree} {d p : Path} {x : Node} (hp : p ≠ []) : Tree.below (dset t (d ++ p) x) d = dset (t.below d) p x := by
  have hk : (d.isPrefixOf (d ++ p) && decide (d ++ p ≠ d)) = true := by simp [hp]
  induction t with
  | nil =>
    rw [show dset ([] : Tree) (d ++ p) x = [(d ++ p, x)] from rfl, below_cons, if_pos hk, List.drop_left]
    rfl
  | cons e t ih =>
    obtain ⟨k, n⟩ := e
    by_cases e : k = d ++ p
    · subst e
      rw [show dset ((d ++ p, n) :: t) (d ++ p) x = (d ++ p, x) :: t by simp [dset], below_cons, below_cons, if_pos hk, if_pos hk,
        List.drop_left]
      simp [dset]
    · rw [show dset ((k, n) :: t) (d ++ p) x = (k, n) :: dset t (d ++ p) x by simp [dset, e], below_cons, below_cons, ih]
      by_cases h : (d.isPrefixOf k && decide (k ≠ d)) = true
      · rw [if_pos h, if_pos h]
        have : k.drop d.length ≠ p := by
          intro e'
          simp only [Bool.and_eq_true, List.isPrefixOf_iff_prefix, decide_eq_true_eq] at h
          obtain ⟨r, hr⟩ := h.1
          rw [← hr, List.drop_left] at e'
          exact e (by rw [← hr, e'])
        simp [dset, this]
      · rw [if_neg h, if_neg h]

theorem below_dset_other {t : Tree} {d q : Path} {x : Node} (h : d <+: q → q = d) : Tree.below (dset t q x) d = t.below d := by
  have hk : ¬ (d.isPrefixOf q && decide (q ≠ d)) = true := by
    simp only [Bool.and_eq_true, List.isPrefixOf_iff_prefix, decide_eq_true_eq]
    exact fun hc => hc.2 (h hc.1)
  induction t with
  | nil => rw [show dset ([] : Tree) q x = [(q, x)] from rfl, below_cons, if_neg hk]
  | cons e t ih =>
    obtain ⟨k, n⟩ := e
    by_cases e : k = q
    · subst e
      rw [show dset ((k, n) :: t) k x = (k, x) :: t by simp [dset], below_cons, below_cons, if_neg hk, if_neg hk]
    · rw [show dset ((k, n) :: t) q x = (k, n) :: dset t q x by simp [dset, e], below_cons, below_cons, ih]

theorem below_nil {t : Tree} {d : Path} (h : ∀ p, p ≠ [] → dget t (d ++ p) = none) (hk : ∀ k ∈ dkeys t, (dget t k).isSome = true) :
    t.below d = [] := by
  unfold Tree.below
  rw [List.filterMap_eq_nil_iff]
  intro e he
  by_cases hc : (d.isPrefixOf e.1 && decide (e.1 ≠ d)) = true
  · exfalso
    simp only [Bool.and_eq_true, List.isPrefixOf_iff_prefix, decide_eq_true_eq] at hc
    obtain ⟨⟨r, hr⟩, hne⟩ := hc
    have := hk e.1 (List.mem_map.2 ⟨e, he, rfl⟩)
    rw [← hr, h r (by rintro rfl; exact hne (by rw [← hr, List.append_nil]))] at this
    cases this
  · rw [if_neg hc]

end Verif
