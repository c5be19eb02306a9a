import Verif.Spec.RestoreShared
import Verif.Lemmas.SplitShared
import Verif.Lemmas.FetchDisk
import Verif.Lemmas.Times
import Verif.Lemmas.Restorer
import Verif.Props.Restorer
import Verif.Props.RestoreCall
/-!
# Restores operation by operation (for C120)
-/

namespace Verif
open Spec

/-! ## What a process is sure to do -/

section
variable {σ α β : Type} {I : σ → Tree → Prop}

/-- From the state `s` on, the process ends like this: the file system is as in `s` whenever it has a turn. -/
def Sure (I : σ → Tree → Prop) : Doing α → σ → Except PyErr (α × σ) → Prop
  | .done (.error e), _, r => r = .error e
  | .done (.ok a), s, r => r = .ok (a, s)
  | .next op k, s, r => ∀ t, I s t →
      (∃ e, op t = .error e ∧ r = .error e) ∨ ∃ t' s', op t = .ok t' ∧ I s' t' ∧ Sure I (k t) s' r

theorem sure_turn {m : Doing α} {s : σ} {r : Except PyErr (α × σ)} {t : Tree} (hi : I s t) (h : Sure I m s r) :
    ∃ s', I s' (m.turn t).2 ∧ Sure I (m.turn t).1 s' r := by
  cases m with
  | done x => exact ⟨s, hi, h⟩
  | next op k =>
    simp only [Doing.turn]
    rcases h t hi with ⟨e, h1, h2⟩ | ⟨t', s', h1, h2, h3⟩
    · rw [h1]
      exact ⟨s, hi, h2⟩
    · rw [h1]
      exact ⟨s', h2, h3⟩

theorem sure_ret (a : α) (s : σ) : Sure I (.ret a) s (.ok (a, s)) := rfl

theorem sure_ask {f : Tree → Except PyErr α} {s : σ} {x : Except PyErr α} (h : ∀ t, I s t → f t = x) :
    Sure I (ask f) s (x.map (fun a => (a, s))) := by
  intro t hi
  refine .inr ⟨t, s, rfl, hi, ?_⟩
  show Sure I (Doing.done (f t)) s _
  rw [h t hi]
  cases x <;> rfl

theorem sure_bind {m : Doing α} {g : α → Doing β} {s : σ} {r : Except PyErr (α × σ)} {r' : Except PyErr (β × σ)}
    (h : Sure I m s r) (he : ∀ e, r = .error e → r' = .error e) (ho : ∀ a s1, r = .ok (a, s1) → Sure I (g a) s1 r') :
    Sure I (m.bind g) s r' := by
  induction m generalizing s with
  | done x =>
    cases x with
    | error e => exact he e h
    | ok a => exact ho a s h
  | next op k ih =>
    intro t hi
    rcases h t hi with ⟨e, h1, h2⟩ | ⟨t', s', h1, h2, h3⟩
    · exact .inl ⟨e, h1, he e h2⟩
    · exact .inr ⟨t', s', h1, h2, ih t h3⟩

theorem sure_change {f : Tree → Except PyErr Tree} {s : σ} {r : Except PyErr (Unit × σ)}
    (h : ∀ t, I s t → (∃ e, f t = .error e ∧ r = .error e) ∨ ∃ t' s', f t = .ok t' ∧ I s' t' ∧ r = .ok ((), s')) :
    Sure I (change f) s r := h

/-- A question, and then what depends on the answer. -/
theorem sure_asked {f : Tree → Except PyErr α} {g : α → Doing β} {s : σ} {x : Except PyErr α} {r : Except PyErr (β × σ)}
    (h : ∀ t, I s t → f t = x) (he : ∀ e, x = .error e → r = .error e) (ho : ∀ a, x = .ok a → Sure I (g a) s r) :
    Sure I ((ask f).bind g) s r := by
  refine sure_bind (sure_ask h) (fun e h1 => ?_) (fun a s1 h1 => ?_)
  · cases x with
    | error e' => cases h1; exact he _ rfl
    | ok a => cases h1
  · cases x with
    | error e' => cases h1
    | ok a' => cases h1; exact ho _ rfl

end

/-! ## The destination -/

/-- The file system of a restore: what is at its destination, what is in it, and the rest as in `W`. -/
structure Holding (W : Tree) (D : Path) (R : List Path) (s : Option Node × Tree) (t : Tree) : Prop where
  node : dget t D = s.1
  here : t.below D = s.2
  parent : t.isdir D.dropLast = true
  far : ∀ r ∈ R, dget t r = dget W r ∧ t.below r = W.below r

/-- The destination is a directory with these contents. -/
def made (d : Tree) : Option Node × Tree := (some .dir, d)

section
variable {W : Tree} {D : Path} {R : List Path}

theorem Holding.isdir {d t : Tree} (h : Holding W D R (made d) t) : t.isdir D = true := isdir_iff.2 (.inr h.node)

theorem Holding.off {s : Option Node × Tree} {t t' : Tree} (hD : D ≠ []) (hR : ∀ r ∈ R, r ≠ []) (h : Holding W D R s t)
    (hk : KeepsOff D R t t') : Holding W D R s t' := by
  obtain ⟨h1, h2⟩ := alone_of_leftAlone hD hk.dest
  refine ⟨h1.trans h.node, h2.trans h.here, hk.parent, fun r hr => ?_⟩
  obtain ⟨h3, h4⟩ := alone_of_leftAlone (hR r hr) (hk.sources r hr)
  exact ⟨h3.trans (h.far r hr).1, h4.trans (h.far r hr).2⟩

theorem not_below_dropLast {D : Path} (hD : D ≠ []) (p : Path) : D ++ p ≠ D.dropLast := by
  intro e
  have := congrArg List.length e
  rw [List.length_append, List.length_dropLast] at this
  have : D.length ≠ 0 := fun h => hD (List.length_eq_zero_iff.1 h)
  omega

/-- Something in the destination is changed. -/
theorem holding_dset {d t : Tree} (hD : D ≠ []) (hap : ∀ r ∈ R, ¬ D <+: r ∧ ¬ r <+: D) (h : Holding W D R (made d) t) {p : Path} (hp : p ≠ [])
    (x : Node) : Holding W D R (made (dset d p x)) (dset t (D ++ p) x) := by
  refine ⟨?_, ?_, ?_, fun r hr => ?_⟩
  · rw [dget_dset, if_neg (fun (e : D ++ p = D) => hp (List.append_right_eq_self.1 e))]
    exact h.node
  · rw [below_dset hp, h.here]; rfl
  · rcases isdir_iff.1 h.parent with e | e
    · exact isdir_iff.2 (.inl e)
    · refine isdir_iff.2 (.inr ?_)
      rw [dget_dset, if_neg (not_below_dropLast hD p)]
      exact e
  · obtain ⟨h1, h2⟩ := hap r hr
    rw [dget_dset, if_neg (fun (e : D ++ p = r) => h1 ⟨p, e⟩), below_dset_other]
    · exact h.far r hr
    · intro hpre
      rcases List.prefix_or_prefix_of_prefix hpre (List.prefix_append D p) with h3 | h3
      · exact absurd h3 h2
      · exact absurd h3 h1

theorem sure_write (hD : D ≠ []) (hap : ∀ r ∈ R, ¬ D <+: r ∧ ¬ r <+: D) {f : Tree → Except PyErr Tree} {d : Tree} {p : Path} {c : Str}
    (hf : ∀ t, Holding W D R (made d) t → f t = t.write (D ++ p) c) :
    Sure (Holding W D R) (change f) (made d) ((d.write p c).map (fun d' => ((), made d'))) := by
  refine sure_change fun t hi => ?_
  rw [hf t hi]
  have hh : HoldsAt t D d := holds_below hi.here
  by_cases hp : p = []
  · subst hp
    refine .inl ⟨.osError, ?_, ?_⟩
    · unfold Tree.write
      rw [List.append_nil, hi.isdir]; rfl
    · rfl
  · unfold Tree.write
    rw [holds_isdir hh hi.isdir, holds_parent hh hi.isdir hp]
    by_cases hc : (d.isdir p || !d.isdir (List.dropLast p)) = true
    · rw [if_pos hc, if_pos hc]
      exact .inl ⟨_, rfl, rfl⟩
    · rw [if_neg hc, if_neg hc]
      exact .inr ⟨_, _, rfl, holding_dset hD hap hi hp _, rfl⟩

theorem sure_mkdir (hD : D ≠ []) (hap : ∀ r ∈ R, ¬ D <+: r ∧ ¬ r <+: D) {d : Tree} {p : Path} :
    Sure (Holding W D R) (change (fun t => t.mkdir (D ++ p))) (made d) ((d.mkdir p).map (fun d' => ((), made d'))) := by
  refine sure_change fun t hi => ?_
  have hh : HoldsAt t D d := holds_below hi.here
  by_cases hp : p = []
  · subst hp
    refine .inl ⟨.osError, ?_, ?_⟩
    · unfold Tree.mkdir
      rw [List.append_nil, exists_of_isdir hi.isdir]; rfl
    · rfl
  · unfold Tree.mkdir
    rw [holds_exists hh hi.isdir, holds_parent hh hi.isdir hp]
    by_cases hc : (d.exists p || !d.isdir (List.dropLast p)) = true
    · rw [if_pos hc, if_pos hc]
      exact .inl ⟨_, rfl, rfl⟩
    · rw [if_neg hc, if_neg hc]
      exact .inr ⟨_, _, rfl, holding_dset hD hap hi hp _, rfl⟩

theorem sure_rmtree (hD : D ≠ []) (hap : ∀ r ∈ R, ¬ D <+: r ∧ ¬ r <+: D) {d : Tree} {p : Path} (hp : p ≠ []) :
    Sure (Holding W D R) (change (fun t => t.rmtree (D ++ p))) (made d) ((d.rmtree p).map (fun d' => ((), made d'))) := by
  refine sure_change fun t hi => ?_
  have hh : HoldsAt t D d := holds_below hi.here
  unfold Tree.rmtree
  rw [holds_isdir hh hi.isdir]
  by_cases hc : d.isdir p = true
  · rw [if_pos hc, if_pos hc]
    refine .inr ⟨_, _, rfl, ?_, rfl⟩
    have hk : ∀ q, ¬ (D ++ p) <+: q → dget (t.filter (fun e => !(D ++ p).isPrefixOf e.1)) q = dget t q := by
      intro q hq
      rw [dget_filter_key t (fun q => !(D ++ p).isPrefixOf q), if_pos]
      rw [Bool.not_eq_true', ← Bool.not_eq_true, List.isPrefixOf_iff_prefix]
      exact hq
    have long : ∀ q, (D ++ p) <+: q → D <+: q := fun q h => (List.prefix_append D p).trans h
    refine ⟨?_, ?_, ?_, fun r hr => ?_⟩
    · rw [hk D (fun h => hp (by have := h.length_le; rw [List.length_append] at this; exact List.length_eq_zero_iff.1 (by omega)))]
      exact hi.node
    · rw [below_filter t (fun q => !(D ++ p).isPrefixOf q), hi.here]
      refine List.filter_congr fun e _ => ?_
      congr 1
      rw [Bool.eq_iff_iff, List.isPrefixOf_iff_prefix, List.isPrefixOf_iff_prefix, List.prefix_append_right_inj]
    · rcases isdir_iff.1 hi.parent with e | e
      · exact isdir_iff.2 (.inl e)
      · refine isdir_iff.2 (.inr ?_)
        rw [hk _ (fun h => ?_)]
        · exact e
        · obtain ⟨q, hq⟩ := long _ h
          exact not_below_dropLast hD q hq
    · obtain ⟨h1, h2⟩ := hap r hr
      rw [hk r (fun h => h1 (long _ h)), below_filter_all (f := fun q => !(D ++ p).isPrefixOf q)]
      · exact hi.far r hr
      · intro q
        rw [Bool.not_eq_true', ← Bool.not_eq_true, List.isPrefixOf_iff_prefix]
        intro h
        rcases List.prefix_or_prefix_of_prefix (long _ h) (List.prefix_append r q) with h3 | h3
        · exact h1 h3
        · exact h2 h3
  · rw [if_neg hc, if_neg hc]
    exact .inl ⟨_, rfl, rfl⟩

end

end Verif
