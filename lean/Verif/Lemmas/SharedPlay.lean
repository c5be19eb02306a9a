import Verif.Lemmas.Splice
import Verif.Model.SharedAll
/-!
# Every order of turns is a history
-/

namespace Verif

/-- The split has made `n` operations or more, and the first `n` are `c`. -/
def Began (n : Nat) (c : List (Tree × Tree)) (s : SharedSplit) : Prop := n ≤ s.log.length ∧ s.log.take n = c

theorem began_did {n : Nat} {c : List (Tree × Tree)} {s x : SharedSplit} {t : Tree} {r : Except PyErr SplitDisk} (h : Began n c s)
    (hx : s.did t r = .ok x) : Began n c x := by
  unfold SharedSplit.did at hx
  split at hx
  · cases hx
  · cases hx
    refine ⟨?_, ?_⟩
    · show n ≤ (s.log ++ _).length
      rw [List.length_append]
      exact Nat.le_trans h.1 (Nat.le_add_right _ _)
    · show (s.log ++ _).take n = c
      rw [List.take_append_of_le_length h.1]
      exact h.2

theorem notBegan {n : Nat} {s : SharedSplit} (h : ∀ c, ¬ Began n c s) : s.log.length < n :=
  Nat.lt_of_not_le fun hle => h _ ⟨hle, rfl⟩

theorem shared_spliced {n : Nat} {seen seen' : Nat → Tree} (h : ∀ k < n, seen k = seen' k) :
    Spliced (Began n) (sharedFS fun s => seen s.log.length) (sharedFS fun s => seen' s.log.length) where
  finish := ⟨rfl, fun _ _ _ h => h⟩
  newBag m := splice_single (fun d hd => by simp only [sharedFS, h _ (notBegan hd)]) (fun _ _ _ hc hx => began_did hc hx) (fun _ _ _ hc hx => began_did hc hx)
  mkdir p := splice_single (fun d hd => by simp only [sharedFS, h _ (notBegan hd)]) (fun _ _ _ hc hx => began_did hc hx) (fun _ _ _ hc hx => began_did hc hx)
  makedirs p := splice_single (fun d hd => by simp only [sharedFS, h _ (notBegan hd)]) (fun _ _ _ hc hx => began_did hc hx) (fun _ _ _ hc hx => began_did hc hx)
  write p c := splice_single (fun d hd => by simp only [sharedFS, h _ (notBegan hd)]) (fun _ _ _ hc hx => began_did hc hx) (fun _ _ _ hc hx => began_did hc hx)
  append p c := splice_single (fun d hd => by simp only [sharedFS, h _ (notBegan hd)]) (fun _ _ _ hc hx => began_did hc hx) (fun _ _ _ hc hx => began_did hc hx)
  replicate p := splice_single (fun d hd => by simp only [sharedFS, h _ (notBegan hd)]) (fun _ _ _ hc hx => began_did hc hx) (fun _ _ _ hc hx => began_did hc hx)
  exists_ p d hd := by simp only [sharedFS, h _ (notBegan hd)]
  isdir p d hd := by simp only [sharedFS, h _ (notBegan hd)]
  isfile p d hd := by simp only [sharedFS, h _ (notBegan hd)]
  read p d hd := by simp only [sharedFS, h _ (notBegan hd)]
  srcRead p d hd := by simp only [sharedFS, h _ (notBegan hd)]

/-- The first operations of a split depend only on what these find. -/
theorem steps_take (j : SplitJob) {n : Nat} {seen seen' : Nat → Tree} (h : ∀ k < n, seen k = seen' k) :
    (j.steps seen).take n = (j.steps seen').take n := by
  unfold SplitJob.steps
  rcases ((splice_applyRun (shared_spliced h) j.source j.blen j.opts j.plan j.names) { src := j.src, outdir := j.outdir }).1 with e | ⟨c, h1, h2⟩
  · have e' : j.run seen = j.run seen' := e
    rw [e']
    by_cases hn : n ≤ (j.run seen').2.log.length
    · rw [List.take_append_of_le_length hn, List.take_append_of_le_length hn]
    · rw [h _ (Nat.lt_of_not_le hn)]
  · have h1' : Began n c (j.run seen).2 := h1
    have h2' : Began n c (j.run seen').2 := h2
    rw [List.take_append_of_le_length h1'.1, List.take_append_of_le_length h2'.1, h1'.2, h2'.2]

/-- The operations found what there was. -/
def Saw (seen : Nat → Tree) (s : SharedSplit) : Prop := ∀ (k : Nat) x, s.log[k]? = some x → x.1 = seen k

theorem saw_did {seen : Nat → Tree} {s x : SharedSplit} {r : Except PyErr SplitDisk} (h : Saw seen s)
    (hx : s.did (seen s.log.length) r = .ok x) : Saw seen x := by
  unfold SharedSplit.did at hx
  split at hx
  · cases hx
  · rename_i d
    cases hx
    intro k y hy
    have hy : (s.log ++ [(seen s.log.length, d.disk)])[k]? = some y := hy
    by_cases hk : k < s.log.length
    · rw [List.getElem?_append_left hk] at hy
      exact h k y hy
    · rw [List.getElem?_append_right (Nat.le_of_not_lt hk)] at hy
      cases hj : k - s.log.length with
      | zero =>
        rw [hj] at hy
        cases hy
        have : k = s.log.length := Nat.le_antisymm (Nat.le_of_sub_eq_zero hj) (Nat.le_of_not_lt hk)
        rw [this]
      | succ m =>
        rw [hj] at hy
        cases hy

theorem saw_keeps (seen : Nat → Tree) : Keeps (sharedFS fun s => seen s.log.length) (Saw seen) (Saw seen) (fun _ => True) (fun _ => True) where
  weaken h := h
  newBag h _ hx := saw_did h hx
  finish h := h
  mkdir _ h hx := saw_did h hx
  makedirs _ h hx := saw_did h hx
  write _ h hx := saw_did h hx
  append _ h hx := saw_did h hx
  replicate _ h hx := saw_did h hx

theorem steps_found (j : SplitJob) {seen : Nat → Tree} {k : Nat} {s : Tree × Tree} (h : (j.steps seen)[k]? = some s) : s.1 = seen k := by
  have hs : Saw seen (j.run seen).2 := keeps_applyRun (saw_keeps seen) (fun _ _ => uses_any ..) (fun _ _ => trivial)
    (d := { src := j.src, outdir := j.outdir }) (fun _ _ h => by cases h)
  unfold SplitJob.steps at h
  by_cases hk : k < (j.run seen).2.log.length
  · rw [List.getElem?_append_left hk] at h
    exact hs k s h
  · rw [List.getElem?_append_right (Nat.le_of_not_lt hk)] at h
    cases hj : k - (j.run seen).2.log.length with
    | zero =>
      rw [hj] at h
      cases h
      have : k = (j.run seen).2.log.length := Nat.le_antisymm (Nat.le_of_sub_eq_zero hj) (Nat.le_of_not_lt hk)
      rw [this]
    | succ m =>
      rw [hj] at h
      cases h

/-! ## Histories -/

section
variable {ι : Type}

theorem chained_snoc {W : Tree} {L : List (ι × Tree × Tree)} (h : Chained W L) (x : ι) (t' : Tree) :
    Chained W (L ++ [(x, lastDisk W L, t')]) ∧ lastDisk W (L ++ [(x, lastDisk W L, t')]) = t' := by
  induction L generalizing W with
  | nil => exact ⟨⟨rfl, trivial⟩, rfl⟩
  | cons s L ih => exact ⟨⟨h.1, (ih h.2).1⟩, (ih h.2).2⟩

variable [DecidableEq ι]

theorem opsOf_snoc (L : List (ι × Tree × Tree)) (x : ι) (s : Tree × Tree) (i : ι) :
    opsOf (L ++ [(x, s)]) i = if x = i then opsOf L i ++ [s] else opsOf L i := by
  unfold opsOf
  rw [List.filter_append]
  by_cases h : x = i <;> simp [h]

theorem foundBy_at (W : Tree) (L : List (ι × Tree × Tree)) (i : ι) {k : Nat} (hk : k < (opsOf L i).length) :
    foundBy W L i k = ((opsOf L i)[k]'hk).1 := by
  unfold foundBy
  rw [List.getElem?_eq_getElem hk]
  rfl

end

section
variable {α : Type}

theorem turns_snoc (m : Doing α) (l : List Tree) (t : Tree) : m.turns (l ++ [t]) = m.turns l ++ [(t, ((m.after l).turn t).2)] := by
  induction l generalizing m with
  | nil => rfl
  | cons a l ih =>
    show _ :: _ = _ :: _
    rw [List.cons_eq_cons]
    exact ⟨rfl, ih _⟩

end

variable {ι κ : Type} [DecidableEq ι] [DecidableEq κ] {W : Tree} {splits : ι → SplitJob} {restores : κ → RestoreJob}

/-- What a call finds next is what is there, so the file systems found so far and this one are those of the longer history. -/
theorem ranAll_split {L : List ((ι ⊕ κ) × Tree × Tree)} (h : RanAll W splits restores L) (i : ι) {s : Tree × Tree}
    (hs : ((splits i).steps (fun k => (((opsOf L (.inl i)).map (·.1))[k]?).getD (lastDisk W L)))[((opsOf L (.inl i)).map (·.1)).length]? = some s) :
    RanAll W splits restores (L ++ [(.inl i, lastDisk W L, s.2)]) where
  chained := (chained_snoc h.chained _ _).1
  restore k := by
    rw [opsOf_snoc, if_neg (by intro e; cases e)]
    exact h.restore k
  split i' := by
    rw [opsOf_snoc]
    by_cases e : i = i'
    · subst e
      rw [if_pos rfl]
      rw [List.length_map] at hs
      obtain ⟨seen, hseen⟩ : ∃ seen : Nat → Tree, seen = fun k => (((opsOf L (.inl i)).map (·.1))[k]?).getD (lastDisk W L) := ⟨_, rfl⟩
      rw [← hseen] at hs
      have h1 := steps_found _ hs
      have h2 : seen (opsOf L (.inl i)).length = lastDisk W L := by
        rw [hseen]
        show (((opsOf L (.inl i)).map (·.1))[(opsOf L (.inl i)).length]?).getD (lastDisk W L) = _
        rw [List.getElem?_eq_none (by rw [List.length_map]; exact Nat.le_refl _)]
        rfl
      rw [h2] at h1
      have e1 : ∀ k < (opsOf L (.inl i)).length, foundBy W L (.inl i) k =
          seen k := by
        intro k hk
        rw [foundBy_at W L _ hk, hseen]
        show _ = (((opsOf L (.inl i)).map (·.1))[k]?).getD (lastDisk W L)
        rw [List.getElem?_map, List.getElem?_eq_getElem hk]
        rfl
      have e2 : ∀ k < (opsOf L (.inl i)).length + 1, seen k =
          foundBy W (L ++ [(.inl i, lastDisk W L, s.2)]) (.inl i) k := by
        intro k hk
        unfold foundBy
        rw [opsOf_snoc, if_pos rfl]
        by_cases hk' : k < (opsOf L (.inl i)).length
        · rw [List.getElem?_append_left hk', ← e1 k hk', foundBy_at W L _ hk', List.getElem?_eq_getElem hk']
          rfl
        · have : k = (opsOf L (.inl i)).length := Nat.le_antisymm (Nat.le_of_lt_succ hk) (Nat.le_of_not_lt hk')
          subst this
          rw [List.getElem?_append_right (Nat.le_refl _), Nat.sub_self, h2]
          rfl
      rw [List.prefix_iff_eq_take, List.length_append, List.length_singleton, ← steps_take _ e2, List.take_add_one, hs,
        ← steps_take _ e1, ← List.prefix_iff_eq_take.1 (h.split i)]
      congr 1
      rw [← h1]
      rfl
    · rw [if_neg (by intro e'; exact e (Sum.inl.inj e'))]
      have : foundBy W (L ++ [(.inl i, lastDisk W L, s.2)]) (.inl i') = foundBy W L (.inl i') := by
        funext k
        unfold foundBy
        rw [opsOf_snoc, if_neg (by intro e'; exact e (Sum.inl.inj e'))]
      rw [this]
      exact h.split i'

theorem ranAll_restore {L : List ((ι ⊕ κ) × Tree × Tree)} (h : RanAll W splits restores L) (k : κ) :
    RanAll W splits restores (L ++ [(.inr k, lastDisk W L, ((restoreNow restores L k).turn (lastDisk W L)).2)]) where
  chained := (chained_snoc h.chained _ _).1
  split i := by
    have : foundBy W (L ++ [(.inr k, lastDisk W L, ((restoreNow restores L k).turn (lastDisk W L)).2)]) (.inl i) = foundBy W L (.inl i) := by
      funext m
      unfold foundBy
      rw [opsOf_snoc, if_neg (by intro e; cases e)]
    rw [this, opsOf_snoc, if_neg (by intro e; cases e)]
    exact h.split i
  restore k' := by
    rw [opsOf_snoc]
    by_cases e : k = k'
    · subst e
      rw [if_pos rfl, List.map_append, List.map_singleton, turns_snoc, h.restore k]
      rfl
    · rw [if_neg (by intro e'; exact e (Sum.inr.inj e'))]
      exact h.restore k'

/-- Whatever the order of turns, what takes place is a history. -/
theorem ranAll_play (order : List (ι ⊕ κ)) {L : List ((ι ⊕ κ) × Tree × Tree)} (h : RanAll W splits restores L) :
    RanAll W splits restores (playAll splits restores order (lastDisk W L) L) := by
  induction order generalizing L with
  | nil => exact h
  | cons x order ih =>
    cases x with
    | inl i =>
      simp only [playAll]
      split
      · exact ih h
      · rename_i s hs
        have h' := ranAll_split h i hs
        have e := (chained_snoc h.chained (.inl i) s.2).2
        have := ih h'
        rw [e] at this
        exact this
    | inr k =>
      simp only [playAll]
      have h' := ranAll_restore h k
      have e := (chained_snoc h.chained (.inr k) ((restoreNow restores L k).turn (lastDisk W L)).2).2
      have := ih h'
      rw [e] at this
      exact this

theorem ranAll_nil : RanAll W splits restores [] where
  chained := trivial
  split _ := List.nil_prefix
  restore _ := rfl

end Verif
