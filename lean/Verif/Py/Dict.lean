/-!
# Python dictionaries (insertion ordered)

An association list without repeated keys; assignment to an existing key keeps
its position, as in Python's `dict` and `OrderedDict`.
-/

namespace Verif

variable {K V : Type} [DecidableEq K]

/-- `d.get(k)`. -/
def dget (d : List (K × V)) (k : K) : Option V :=
  match d with
  | [] => none
  | (k', v) :: r => if k' = k then some v else dget r k

/-- `d[k] = v`. -/
def dset (d : List (K × V)) (k : K) (v : V) : List (K × V) :=
  match d with
  | [] => [(k, v)]
  | (k', v') :: r => if k' = k then (k', v) :: r else (k', v') :: dset r k v

/-- `del d[k]` (no effect when absent; the callers test for presence). -/
def ddel (d : List (K × V)) (k : K) : List (K × V) := d.filter (fun p => p.1 ≠ k)

/-- `list(d.keys())`. -/
def dkeys (d : List (K × V)) : List K := d.map Prod.fst

/-- `k in d`. -/
def dmem (d : List (K × V)) (k : K) : Bool := (dget d k).isSome

/-- `OrderedDict(pairs)`: assign the pairs one after the other. -/
def dofPairs (l : List (K × V)) : List (K × V) := l.foldl (fun d p => dset d p.1 p.2) []

/-- `d.update(pairs)`. -/
def dupdate (d l : List (K × V)) : List (K × V) := l.foldl (fun d p => dset d p.1 p.2) d

/-! ## Lemmas -/

theorem dget_dset (d : List (K × V)) (k k' : K) (v : V) :
    dget (dset d k v) k' = if k = k' then some v else dget d k' := by
  induction d with
  | nil => simp [dset, dget]
  | cons p r ih =>
    obtain ⟨a, b⟩ := p
    simp only [dset]
    split
    · subst a; simp only [dget]; split <;> rfl
    · rename_i h
      simp only [dget, ih]
      by_cases h1 : a = k'
      · simp only [h1, if_true]
        rw [if_neg]; rintro rfl; exact h h1
      · simp [h1]

theorem dget_ddel (d : List (K × V)) (k k' : K) :
    dget (ddel d k) k' = if k = k' then none else dget d k' := by
  induction d with
  | nil => simp [ddel, dget]
  | cons p r ih =>
    obtain ⟨a, b⟩ := p
    simp only [ddel, List.filter_cons] at *
    by_cases h : a = k
    · simp only [h, ne_eq, not_true, decide_false, Bool.false_eq_true, if_false]
      rw [ih]
      by_cases h' : k = k'
      · simp [h']
      · simp [h', dget]
    · simp only [ne_eq, h, not_false_eq_true, decide_true, if_true, dget]
      rw [ih]
      by_cases h' : a = k'
      · simp only [h', if_true]; rw [if_neg]; rintro rfl; exact h h'
      · simp [h']

theorem dkeys_dset (d : List (K × V)) (k : K) (v : V) :
    dkeys (dset d k v) = if k ∈ dkeys d then dkeys d else dkeys d ++ [k] := by
  induction d with
  | nil => simp [dset, dkeys]
  | cons p r ih =>
    obtain ⟨a, b⟩ := p
    simp only [dset]
    by_cases h : a = k
    · subst h; simp [dkeys]
    · simp only [h, if_false]
      change a :: dkeys (dset r k v) = _
      rw [ih]
      have h' : ¬ k = a := fun e => h e.symm
      have e : dkeys ((a, b) :: r) = a :: dkeys r := rfl
      rw [e]
      by_cases hm : k ∈ dkeys r
      · rw [if_pos hm, if_pos (by simp [hm])]
      · rw [if_neg hm, if_neg (by simp [hm, h'])]; rfl

theorem mem_dkeys_dset {d : List (K × V)} {k k' : K} {v : V} :
    k' ∈ dkeys (dset d k v) ↔ k' = k ∨ k' ∈ dkeys d := by
  rw [dkeys_dset]
  split
  · constructor
    · exact Or.inr
    · rintro (rfl | h) <;> assumption
  · simp [or_comm]

theorem nodup_dset {d : List (K × V)} (h : (dkeys d).Nodup) (k : K) (v : V) :
    (dkeys (dset d k v)).Nodup := by
  rw [dkeys_dset]
  split
  · exact h
  · rename_i hk
    rw [List.nodup_append]
    refine ⟨h, by simp, ?_⟩
    intro a ha b hb e
    simp at hb; subst hb; subst e; exact hk ha

theorem dkeys_ddel (d : List (K × V)) (k : K) :
    dkeys (ddel d k) = (dkeys d).filter (fun k' => k' ≠ k) := by
  simp [dkeys, ddel, List.filter_map, Function.comp_def]

theorem nodup_ddel {d : List (K × V)} (h : (dkeys d).Nodup) (k : K) :
    (dkeys (ddel d k)).Nodup := by
  rw [dkeys_ddel]; exact h.filter _

theorem dget_eq_none_iff {d : List (K × V)} {k : K} : dget d k = none ↔ k ∉ dkeys d := by
  induction d with
  | nil => simp [dget, dkeys]
  | cons p r ih =>
    obtain ⟨a, b⟩ := p
    simp only [dget, dkeys, List.map_cons, List.mem_cons, not_or]
    by_cases h : a = k
    · simp [h]
    · rw [if_neg h]
      exact ⟨fun e => ⟨fun e' => h e'.symm, ih.1 e⟩, fun e => ih.2 e.2⟩

theorem mem_of_dget {d : List (K × V)} {k : K} {v : V} (h : dget d k = some v) : (k, v) ∈ d := by
  induction d with
  | nil => simp [dget] at h
  | cons p r ih =>
    obtain ⟨a, b⟩ := p
    simp only [dget] at h
    split at h
    · rename_i e; injection h with h; subst e; subst h; simp
    · exact List.mem_cons_of_mem _ (ih h)

theorem dget_of_mem {d : List (K × V)} (hn : (dkeys d).Nodup) {k : K} {v : V}
    (h : (k, v) ∈ d) : dget d k = some v := by
  induction d with
  | nil => simp at h
  | cons p r ih =>
    obtain ⟨a, b⟩ := p
    simp only [dkeys, List.map_cons, List.nodup_cons] at hn
    simp only [dget]
    rcases List.mem_cons.1 h with h | h
    · injection h with h1 h2; simp [h1, h2]
    · rw [if_neg]
      · exact ih hn.2 h
      · rintro rfl; exact hn.1 (List.mem_map.2 ⟨_, h, rfl⟩)

theorem dget_iff_mem {d : List (K × V)} (hn : (dkeys d).Nodup) {k : K} {v : V} :
    dget d k = some v ↔ (k, v) ∈ d := ⟨mem_of_dget, dget_of_mem hn⟩

theorem nodup_foldl_dset (l : List (K × V)) (d : List (K × V)) (h : (dkeys d).Nodup) :
    (dkeys (l.foldl (fun d p => dset d p.1 p.2) d)).Nodup := by
  induction l generalizing d with
  | nil => exact h
  | cons p r ih => exact ih _ (nodup_dset h _ _)

theorem nodup_dofPairs (l : List (K × V)) : (dkeys (dofPairs l)).Nodup :=
  nodup_foldl_dset l [] (by simp [dkeys])

/-- The value of a key after a sequence of assignments is that of the last one. -/
theorem dget_foldl_dset (l d : List (K × V)) (k : K) :
    dget (l.foldl (fun d p => dset d p.1 p.2) d) k
      = ((l.reverse.find? (fun p => p.1 = k)).map Prod.snd).or (dget d k) := by
  induction l generalizing d with
  | nil => simp
  | cons p r ih =>
    rw [List.foldl_cons, ih, dget_dset, List.reverse_cons, List.find?_append]
    cases h : r.reverse.find? (fun p => p.1 = k) with
    | some q => simp
    | none =>
      by_cases h' : p.1 = k <;> simp [h']

theorem dset_of_not_mem {d : List (K × V)} {k : K} (h : k ∉ dkeys d) (v : V) :
    dset d k v = d ++ [(k, v)] := by
  induction d with
  | nil => rfl
  | cons p r ih =>
    obtain ⟨a, b⟩ := p
    simp only [dkeys, List.map_cons, List.mem_cons, not_or] at h
    simp only [dset]
    rw [if_neg (fun e => h.1 e.symm), ih h.2]; rfl

theorem foldl_dset_of_nodup (l d : List (K × V)) (h : (dkeys (d ++ l)).Nodup) :
    l.foldl (fun d p => dset d p.1 p.2) d = d ++ l := by
  induction l generalizing d with
  | nil => simp
  | cons p r ih =>
    obtain ⟨a, b⟩ := p
    rw [List.foldl_cons]
    have hk : a ∉ dkeys d := by
      simp only [dkeys, List.map_append, List.map_cons, List.nodup_append] at h
      intro ha
      exact h.2.2 a ha a (by simp) rfl
    rw [dset_of_not_mem hk, ih _ (by simpa using h)]
    simp

/-- A dictionary is rebuilt from its own items. -/
theorem dofPairs_of_nodup {l : List (K × V)} (h : (dkeys l).Nodup) : dofPairs l = l := by
  simpa [dofPairs] using foldl_dset_of_nodup l [] (by simpa using h)

theorem mem_dkeys_iff {d : List (K × V)} {k : K} : k ∈ dkeys d ↔ ∃ v, dget d k = some v := by
  constructor
  · intro h
    cases e : dget d k with
    | none => exact absurd h (dget_eq_none_iff.1 e)
    | some v => exact ⟨v, rfl⟩
  · rintro ⟨v, hv⟩
    exact Classical.byContradiction (fun h => by rw [dget_eq_none_iff.2 h] at hv; cases hv)

theorem dmem_iff {d : List (K × V)} {k : K} : dmem d k = true ↔ k ∈ dkeys d := by
  rw [mem_dkeys_iff, dmem, Option.isSome_iff_exists]

end Verif
