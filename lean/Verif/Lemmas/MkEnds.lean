import Verif.Lemmas.MkRepeat
/-!
# Lemmas on when the making of a dataset ends
-/

namespace Verif

open Spec

/-! ## Names -/

/-- The value of a hexadecimal digit. -/
def hexVal (c : Char) : Nat := if c.toNat < 58 then c.toNat - 48 else c.toNat - 87

theorem hexVal_digitChar : ∀ d : Nat, d < 16 → hexVal d.digitChar = d := by decide

theorem hexVal_toDigits (n : Nat) : (Nat.toDigits 16 n).foldl (fun a c => a * 16 + hexVal c) 0 = n := by
  induction n using Nat.strongRecOn with
  | ind n ih =>
    rw [Nat.toDigits_eq_if (by decide)]
    split
    · rename_i h
      show 0 * 16 + hexVal n.digitChar = n
      rw [hexVal_digitChar n h]
      omega
    · rename_i h
      rw [List.foldl_append, ih (n / 16) (by omega)]
      show n / 16 * 16 + hexVal (n % 16).digitChar = n
      rw [hexVal_digitChar _ (by omega)]
      omega

theorem hexVal_hex3 (n : Nat) : (hex3 n).foldl (fun a c => a * 16 + hexVal c) 0 = n := by
  unfold hex3
  rw [List.foldl_append]
  have : ∀ k : Nat, (List.replicate k '0').foldl (fun a c => a * 16 + hexVal c) 0 = 0 := by
    intro k
    induction k with
    | zero => rfl
    | succ k ih =>
      rw [List.replicate_succ]
      exact ih
  rw [this, hexVal_toDigits]

theorem hex3_injective {m n : Nat} (h : hex3 m = hex3 n) : m = n := by
  rw [← hexVal_hex3 m, h, hexVal_hex3]

theorem nodup_length_le {α : Type} [DecidableEq α] : ∀ {l m : List α}, l.Nodup → (∀ a ∈ l, a ∈ m) → l.length ≤ m.length
  | [], _, _, _ => Nat.zero_le _
  | a :: l, m, hn, hs => by
    rw [List.nodup_cons] at hn
    have ha : a ∈ m := hs a (by simp)
    have := nodup_length_le (l := l) (m := m.erase a) hn.2 (fun b hb =>
      (List.mem_erase_of_ne (fun (h : b = a) => hn.1 (h ▸ hb))).2 (hs b (by simp [hb])))
    rw [List.length_erase_of_mem ha] at this
    have := List.length_pos_of_mem ha
    simp only [List.length_cons]
    omega

/-- How much there is. -/
def Dataset.size (t : Dataset) : Nat := t.files.length + t.dirs.length

theorem has_true {t : Dataset} {p : List Str} (h : t.has p = true) : p ∈ t.files.map (·.1) ++ t.dirs := by
  unfold Dataset.has at h
  rw [Bool.or_eq_true, List.any_eq_true] at h
  rcases h with ⟨f, hf, h⟩ | h
  · rw [List.mem_append]
    exact .inl (List.mem_map.2 ⟨f, hf, by simpa using h⟩)
  · rw [List.mem_append]
    exact .inr (List.contains_iff_mem.1 h)

theorem nodup_names {under : List Str} {name : Nat → Str} (hname : ∀ m n, name m = name n → m = n) (K : Nat) :
    ((List.range K).map (fun r => under ++ [name r])).Nodup := by
  rw [List.nodup_iff_pairwise_ne, List.pairwise_map]
  refine List.Pairwise.imp (fun {a b} hab h => hab (hname a b ?_)) (List.nodup_iff_pairwise_ne.1 List.nodup_range)
  simpa using h

/-- If there are fewer things than numbers, a number gives a name that is free. -/
theorem free_name {t : Dataset} {under : List Str} {name : Nat → Str} {K : Nat} (hname : ∀ m n, name m = name n → m = n)
    (h : t.size < K) : ∃ r < K, t.has (under ++ [name r]) = false := by
  refine Classical.byContradiction fun hno => ?_
  have hall : ∀ p ∈ (List.range K).map (fun r => under ++ [name r]), p ∈ t.files.map (·.1) ++ t.dirs := by
    intro p hp
    obtain ⟨r, hr, rfl⟩ := List.mem_map.1 hp
    refine has_true ?_
    rcases hh : t.has (under ++ [name r]) with _ | _
    · exact absurd ⟨r, List.mem_range.1 hr, hh⟩ hno
    · rfl
  have := nodup_length_le (nodup_names hname K) hall
  simp only [List.length_map, List.length_range, List.length_append] at this
  unfold Dataset.size at h
  omega

/-! ## Work that can always go on -/

/-- The first numbers of a sequence. -/
def firstOf (s : Nat → Nat) (n : Nat) : List Nat := (List.range n).map s

theorem firstOf_add (s : Nat → Nat) (m n : Nat) : firstOf s (m + n) = firstOf s m ++ firstOf (fun i => s (m + i)) n := by
  unfold firstOf
  rw [List.range_add, List.map_append, List.map_map]
  rfl

theorem fair_later {K : Nat} {s : Nat → Nat} (h : Fair K s) (m : Nat) : Fair K (fun i => s (m + i)) := by
  intro r hr n
  obtain ⟨i, hi, e⟩ := h r hr (m + n)
  exact ⟨i - m, by omega, by dsimp only; rw [show m + (i - m) = i by omega]; exact e⟩

/-- A list that begins a beginning is a beginning. -/
theorem firstOf_prefix {s : Nat → Nat} {n : Nat} {a b : List Nat} (h : firstOf s n = a ++ b) : a = firstOf s a.length := by
  have hl : a.length ≤ n := by
    have := congrArg List.length h
    simp only [firstOf, List.length_map, List.length_range, List.length_append] at this
    omega
  obtain ⟨k, rfl⟩ := Nat.exists_eq_add_of_le hl
  rw [firstOf_add] at h
  have := List.append_inj h (by simp [firstOf])
  exact this.1.symm

/-- Work that goes on if more numbers are drawn: it uses the first of the numbers and the others have no effect, nothing is taken
away, it ends for some numbers, and if it never leaves more than `K` things in all, then it ends whenever each number below `K` is
drawn again and again. -/
structure GoesOn {α : Type} (m : Making α) : Prop where
  used : ∀ {t draws o t' rest}, m (t, draws) = some (o, t', rest) →
    ∃ first, draws = first ++ rest ∧ ∀ l, m (t, first ++ l) = some (o, t', l)
  grows : ∀ {t draws o t' rest}, m (t, draws) = some (o, t', rest) → t.size ≤ t'.size
  can : ∀ t, ∃ draws o t', m (t, draws) = some (o, t', [])
  ends : ∀ K t, (∀ draws o t' rest, m (t, draws) = some (o, t', rest) → t'.size ≤ K) → ∀ s, Fair K s →
    ∃ n o t', m (t, firstOf s n) = some (o, t', [])

theorem goesOn_pure {α : Type} (a : α) : GoesOn (.pure a) :=
  ⟨fun h => (by cases h; exact ⟨[], rfl, fun _ => rfl⟩), fun h => (by cases h; exact Nat.le_refl _), fun t => ⟨[], _, _, rfl⟩,
    fun K t _ s _ => ⟨0, _, _, rfl⟩⟩

theorem goesOn_lift {α : Type} (r : Except PyErr α) : GoesOn (.lift r) := by
  cases r with
  | ok a => exact goesOn_pure a
  | error e =>
    exact ⟨fun h => (by cases h; exact ⟨[], rfl, fun _ => rfl⟩), fun h => (by cases h; exact Nat.le_refl _), fun t => ⟨[], _, _, rfl⟩,
      fun K t _ s _ => ⟨0, _, _, rfl⟩⟩

theorem bind_ok {α β : Type} {m : Making α} {f : α → Making β} {t u : Dataset} {draws rest : List Nat} {a : α}
    (h : m (t, draws) = some (.ok a, u, rest)) : (m.bind f) (t, draws) = f a (u, rest) := by
  unfold Making.bind
  rw [h]

theorem bind_error {α β : Type} {m : Making α} {f : α → Making β} {t u : Dataset} {draws rest : List Nat} {e : PyErr}
    (h : m (t, draws) = some (.error e, u, rest)) : (m.bind f) (t, draws) = some (.error e, u, rest) := by
  unfold Making.bind
  rw [h]

theorem goesOn_bind {α β : Type} {m : Making α} {f : α → Making β} (hm : GoesOn m)
    (hf : ∀ a, (∃ t draws u rest, m (t, draws) = some (.ok a, u, rest)) → GoesOn (f a)) : GoesOn (m.bind f) := by
  refine ⟨?_, ?_, ?_, ?_⟩
  · intro t draws o t' rest h
    rcases bind_some h with ⟨e, h1, rfl⟩ | ⟨a, u, draws₁, h1, h2⟩
    · obtain ⟨first, e1, h3⟩ := hm.used h1
      exact ⟨first, e1, fun l => bind_error (h3 l)⟩
    · obtain ⟨first, e1, h3⟩ := hm.used h1
      obtain ⟨second, e2, h4⟩ := (hf a ⟨_, _, _, _, h1⟩).used h2
      refine ⟨first ++ second, by rw [e1, e2, List.append_assoc], fun l => ?_⟩
      rw [List.append_assoc, bind_ok (h3 (second ++ l))]
      exact h4 l
  · intro t draws o t' rest h
    rcases bind_some h with ⟨e, h1, rfl⟩ | ⟨a, u, draws₁, h1, h2⟩
    · exact hm.grows h1
    · exact Nat.le_trans (hm.grows h1) ((hf a ⟨_, _, _, _, h1⟩).grows h2)
  · intro t
    obtain ⟨draws, o, u, h1⟩ := hm.can t
    rcases o with e | a
    · exact ⟨_, _, _, bind_error h1⟩
    · obtain ⟨draws₂, o₂, t', h2⟩ := (hf a ⟨_, _, _, _, h1⟩).can u
      obtain ⟨first, e1, h3⟩ := hm.used h1
      exact ⟨first ++ draws₂, o₂, t', by rw [bind_ok (h3 draws₂)]; exact h2⟩
  · intro K t hK s hs
    have hfK : ∀ draws a u rest, m (t, draws) = some (.ok a, u, rest) →
        ∀ draws' o t' rest', f a (u, draws') = some (o, t', rest') → t'.size ≤ K := by
      intro draws a u rest h1 draws' o t' rest' h2
      obtain ⟨first, _, h3⟩ := hm.used h1
      exact hK (first ++ draws') o t' rest' (by rw [bind_ok (h3 draws')]; exact h2)
    have hmK : ∀ draws o t' rest, m (t, draws) = some (o, t', rest) → t'.size ≤ K := by
      intro draws o u rest h1
      rcases o with e | a
      · exact hK _ _ _ _ (bind_error h1)
      · obtain ⟨draws₂, o₂, t', h2⟩ := (hf a ⟨_, _, _, _, h1⟩).can u
        exact Nat.le_trans ((hf a ⟨_, _, _, _, h1⟩).grows h2) (hfK _ _ _ _ h1 _ _ _ _ h2)
    obtain ⟨n, o, u, h1⟩ := hm.ends K t hmK s hs
    rcases o with e | a
    · exact ⟨n, _, _, bind_error h1⟩
    · obtain ⟨n', o, t', h2⟩ := (hf a ⟨_, _, _, _, h1⟩).ends K u (hfK _ _ _ _ h1) _ (fair_later hs n)
      obtain ⟨first, e1, h3⟩ := hm.used h1
      rw [List.append_nil] at e1
      refine ⟨n + n', o, t', ?_⟩
      rw [firstOf_add, e1, bind_ok (h3 _)]
      exact h2

theorem mkfilename_go {under : List Str} {name : Nat → Str} {t : Dataset} : ∀ (draws : List Nat),
    ((∃ r ∈ draws, t.has (under ++ [name r]) = false) → ∃ o rest, mkfilename.go under name t draws = some (o, t, rest)) ∧
    (∀ o t' rest, mkfilename.go under name t draws = some (o, t', rest) → ∃ first, draws = first ++ rest ∧
      ∀ l, mkfilename.go under name t (first ++ l) = some (o, t', l))
  | [] => ⟨fun ⟨_, hr, _⟩ => (by cases hr), fun o t' rest h => (by cases h)⟩
  | r :: draws => by
    obtain ⟨h1, h2⟩ := mkfilename_go (under := under) (name := name) (t := t) draws
    unfold mkfilename.go
    by_cases hh : t.has (under ++ [name r]) = true
    · rw [if_pos hh]
      refine ⟨fun ⟨r', hr', hfree⟩ => h1 ⟨r', ?_, hfree⟩, fun o t' rest h => ?_⟩
      · rcases List.mem_cons.1 hr' with rfl | hr'
        · rw [hfree] at hh
          cases hh
        · exact hr'
      · obtain ⟨first, e, h3⟩ := h2 o t' rest h
        refine ⟨r :: first, by rw [e]; rfl, fun l => ?_⟩
        show mkfilename.go under name t (r :: (first ++ l)) = _
        unfold mkfilename.go
        rw [if_pos hh]
        exact h3 l
    · rw [if_neg hh]
      refine ⟨fun _ => ⟨_, _, rfl⟩, fun o t' rest h => ?_⟩
      cases h
      refine ⟨[r], rfl, fun l => ?_⟩
      show mkfilename.go under name t (r :: l) = _
      unfold mkfilename.go
      rw [if_neg hh]

/-- Finding a name and making something of that name. -/
theorem goesOn_create {α : Type} {under : List Str} {name : Nat → Str} (hname : ∀ m n, name m = name n → m = n)
    {f : List Str → Dataset → α × Dataset} (hf : ∀ p t, (f p t).2.size = t.size + 1) :
    GoesOn ((mkfilename under name).bind (fun p s => some (.ok (f p s.1).1, (f p s.1).2, s.2))) := by
  have hsome : ∀ {t draws o t' rest}, ((mkfilename under name).bind (fun p s => some (.ok (f p s.1).1, (f p s.1).2, s.2))) (t, draws) =
      some (o, t', rest) → t'.size = t.size + 1 := by
    intro t draws o t' rest h
    rcases bind_some h with ⟨e, h1, rfl⟩ | ⟨p, u, draws₁, h1, h2⟩
    · obtain ⟨_, h3, _⟩ := mkfilename_some h1
      cases h3
    · obtain ⟨_, _, rfl, _⟩ := mkfilename_some h1
      cases h2
      exact hf p u
  have hext : ∀ t draws, (∃ r ∈ draws, t.has (under ++ [name r]) = false) → ∃ first rest o t', draws = first ++ rest ∧
      ((mkfilename under name).bind (fun p s => some (.ok (f p s.1).1, (f p s.1).2, s.2))) (t, first) = some (o, t', []) := by
    intro t draws h
    obtain ⟨o, rest, h1⟩ := (mkfilename_go draws).1 h
    obtain ⟨first, e, h2⟩ := (mkfilename_go draws).2 _ _ _ h1
    obtain ⟨r, rfl, _⟩ := mkfilename_some (name := name) (under := under) h1
    have h3 := h2 []
    rw [List.append_nil] at h3
    exact ⟨first, rest, _, _, e, bind_ok (m := mkfilename under name) h3⟩
  refine ⟨?_, fun h => by rw [hsome h]; omega, ?_, ?_⟩
  · intro t draws o t' rest h
    rcases bind_some h with ⟨e, h1, rfl⟩ | ⟨p, u, draws₁, h1, h2⟩
    · obtain ⟨_, h3, _⟩ := mkfilename_some h1
      cases h3
    · obtain ⟨first, e, h3⟩ := (mkfilename_go draws).2 _ _ _ h1
      cases h2
      exact ⟨first, e, fun l => bind_ok (m := mkfilename under name) (show mkfilename under name (t, first ++ l) = _ from h3 l)⟩
  · intro t
    obtain ⟨r, _, hfree⟩ := free_name (t := t) (under := under) hname (Nat.lt_succ_self _)
    obtain ⟨first, _, o, t', _, h⟩ := hext t [r] ⟨r, by simp, hfree⟩
    exact ⟨first, o, t', h⟩
  · intro K t hK s hs
    obtain ⟨r', _, hfree'⟩ := free_name (t := t) (under := under) hname (Nat.lt_succ_self _)
    obtain ⟨_, _, _, _, _, h'⟩ := hext t [r'] ⟨r', by simp, hfree'⟩
    have h1 := hK _ _ _ _ h'
    rw [hsome h'] at h1
    obtain ⟨r, hr, hfree⟩ := free_name (t := t) (under := under) hname (show t.size < K by omega)
    obtain ⟨i, _, hi⟩ := hs r hr 0
    obtain ⟨first, rest, o, t', e, h2⟩ := hext t (firstOf s (i + 1)) ⟨r, List.mem_map.2 ⟨i, by simp, hi⟩, hfree⟩
    exact ⟨first.length, o, t', by rw [← firstOf_prefix e]; exact h2⟩

theorem goesOn_createFile (lnFloor : Nat → Nat) (size : Nat) (under : List Str) : GoesOn (createFile lnFloor size under) :=
  goesOn_create (f := fun p t => ((fileText lnFloor size).length, { t with files := t.files ++ [(p, fileText lnFloor size)] }))
    (fun _ _ h => hex3_injective (List.append_cancel_right h)) (fun p t => by simp [Dataset.size]; omega)

theorem goesOn_createDir (under : List Str) : GoesOn (createDir under) :=
  goesOn_create (f := fun p t => (p, { t with dirs := t.dirs ++ [p] }))
    (fun _ _ h => hex3_injective (List.append_cancel_right h)) (fun p t => by simp [Dataset.size]; omega)

theorem goesOn_fillFiles (lnFloor : Nat → Nat) (target : List Str) (ms mf : Int) : ∀ (sizes : List Nat) (c : Nat × Nat),
    GoesOn (fillFiles lnFloor target ms mf sizes c)
  | [], c => goesOn_pure c
  | sz :: sizes, c => by
    unfold fillFiles
    split
    · exact goesOn_pure c
    · exact goesOn_bind (goesOn_createFile lnFloor sz target) (fun n _ => goesOn_fillFiles lnFloor target ms mf sizes _)

theorem goesOn_fillSet (lnFloor : Nat → Nat) (target : List Str) (f : FileSet) : ∀ (n : Nat) (c : Nat × Nat),
    GoesOn (fillSet lnFloor target f n c)
  | 0, c => goesOn_pure c
  | n + 1, c => by
    unfold fillSet
    rcases f.iter with _ | it
    · exact goesOn_pure c
    · exact goesOn_bind (goesOn_lift _) (fun l _ => goesOn_bind (goesOn_fillFiles lnFloor target _ _ l _)
        (fun d _ => goesOn_fillSet lnFloor target f n _))

theorem goesOn_fillSets (lnFloor : Nat → Nat) (target : List Str) (ts tf : Int) : ∀ (l : List FileSet) (c : Nat × Nat),
    GoesOn (fillSets lnFloor target ts tf l c)
  | [], c => goesOn_pure c
  | f :: l, c => by
    unfold fillSets
    split
    · exact goesOn_pure c
    · exact goesOn_bind (goesOn_fillSet lnFloor target f _ c) (fun d _ => goesOn_fillSets lnFloor target ts tf l d)

section
variable {fill : List Str → Int → Int → DirSpec → Making ((Nat × Nat) × DirSpec)}

theorem goesOn_fillReps {k : Nat} (hgo : ∀ p ts tf d, d.depth ≤ k → GoesOn (fill p ts tf d))
    (hdep : ∀ p ts tf d, d.depth ≤ k → (fill p ts tf d).Ends (fun _ o _ => ∀ r, o = .ok r → r.2.depth ≤ d.depth))
    (target : List Str) (ts tf : Int) : ∀ (n : Nat) (d : DirSpec) (c : Nat × Nat), d.depth ≤ k →
      GoesOn (fillReps fill target ts tf n d c)
  | 0, d, c, _ => goesOn_pure _
  | n + 1, d, c, hd => by
    unfold fillReps
    split
    · exact goesOn_pure _
    · refine goesOn_bind (goesOn_createDir target) (fun p _ => goesOn_bind (hgo p _ _ d hd) (fun r hr => ?_))
      obtain ⟨t, draws, u, rest, h⟩ := hr
      have := hdep _ _ _ _ hd _ _ _ _ _ h r rfl
      exact goesOn_fillReps hgo hdep target ts tf n r.2 _ (by omega)

theorem goesOn_fillDirs {k : Nat} (hgo : ∀ p ts tf d, d.depth ≤ k → GoesOn (fill p ts tf d))
    (hdep : ∀ p ts tf d, d.depth ≤ k → (fill p ts tf d).Ends (fun _ o _ => ∀ r, o = .ok r → r.2.depth ≤ d.depth))
    (target : List Str) (ts tf : Int) : ∀ (l : List DirSpec) (c : Nat × Nat), DirSpec.depths l ≤ k →
      GoesOn (fillDirs fill target ts tf l c)
  | [], c, _ => goesOn_pure _
  | d :: l, c, hd => by
    have hd' : d.depth ≤ k ∧ DirSpec.depths l ≤ k := by
      unfold DirSpec.depths at hd
      omega
    unfold fillDirs
    split
    · exact goesOn_pure _
    · exact goesOn_bind (goesOn_fillReps hgo hdep target ts tf _ d c hd'.1) (fun r _ =>
        goesOn_bind (goesOn_fillDirs hgo hdep target ts tf l r.1 hd'.2) (fun q _ => goesOn_pure _))
end

theorem goesOn_fillDir (lnFloor : Nat → Nat) : ∀ (fuel : Nat) (target : List Str) (ts tf : Int) (d : DirSpec), d.depth ≤ fuel →
    GoesOn (fillDir lnFloor fuel target ts tf d)
  | 0, _, _, _, d, h => by
    have := depth_subdirs d
    omega
  | fuel + 1, target, ts, tf, d, h => by
    have hsub := depth_subdirs d
    unfold fillDir
    split
    · exact goesOn_pure _
    · refine goesOn_bind (goesOn_lift _) (fun p hp => goesOn_bind (goesOn_fillSets lnFloor target ts tf p.1 _) (fun c _ =>
        goesOn_bind (goesOn_fillDirs (k := fuel) (fun p ts tf d hd => goesOn_fillDir lnFloor fuel p ts tf d hd)
          (fun p ts tf d hd => (fillDir_depth lnFloor fuel p ts tf d hd).2) target ts tf p.2 c ?_) (fun q _ => goesOn_pure _)))
      obtain ⟨t, draws, u, rest, h1⟩ := hp
      rcases hd : distribute ts tf (d.files.getD []) d.subdirs with e | p' <;> rw [hd] at h1 <;> cases h1
      have := distribute_depth hd
      omega

theorem goesOn_makeDataset (lnFloor : Nat → Nat) (parent : Bool) (plan : DirSpec) : GoesOn (makeDataset lnFloor parent plan) := by
  unfold makeDataset
  split
  · exact goesOn_lift (.error .osError)
  · split
    · exact goesOn_lift (.error .valueError)
    · exact goesOn_bind (goesOn_fillDir lnFloor _ _ _ _ _ (Nat.le_refl _)) (fun r _ => goesOn_pure _)

/-! ## Work that never ends -/

theorem mkfilename_draws {under : List Str} {name : Nat → Str} {t t' : Dataset} {draws rest : List Nat}
    {o : Except PyErr (List Str)} (h : mkfilename under name (t, draws) = some (o, t', rest)) :
    ∃ r ∈ draws, o = .ok (under ++ [name r]) ∧ t' = t ∧ t.has (under ++ [name r]) = false ∧ ∀ x ∈ rest, x ∈ draws := by
  have hgo : ∀ draws, mkfilename.go under name t draws = some (o, t', rest) → ∃ r ∈ draws, o = .ok (under ++ [name r]) ∧ t' = t ∧
      t.has (under ++ [name r]) = false ∧ ∀ x ∈ rest, x ∈ draws := by
    intro draws
    induction draws with
    | nil => intro h; cases h
    | cons r draws ih =>
      intro h
      unfold mkfilename.go at h
      split at h
      · obtain ⟨r', h1, h2, h3, h4, h5⟩ := ih h
        exact ⟨r', List.mem_cons_of_mem _ h1, h2, h3, h4, fun x hx => List.mem_cons_of_mem _ (h5 x hx)⟩
      · rename_i hh
        cases h
        exact ⟨r, by simp, rfl, rfl, by simpa using hh, fun x hx => List.mem_cons_of_mem _ hx⟩
  exact hgo _ h

/-- As many files of one size as are made have different numbers. -/
theorem fillFiles_numbers {lnFloor : Nat → Nat} (hln : LogLike lnFloor) (target : List Str) (ms mf : Int) {sz : Nat} (hsz : sz < 2 ^ 98) :
    ∀ (n : Nat) (c : Nat × Nat) (t : Dataset) (draws : List Nat) (o : Except PyErr (Nat × Nat)) (t' : Dataset) (rest : List Nat),
    (c.1 : Int) + (n * sz : Nat) ≤ ms → (c.2 : Int) + n ≤ mf →
    fillFiles lnFloor target ms mf (List.replicate n sz) c (t, draws) = some (o, t', rest) →
    ∃ rs : List Nat, rs.length = n ∧ rs.Nodup ∧ ∀ r ∈ rs, r ∈ draws ∧ t.has (target ++ [hex3 r ++ '_' :: natStr sz]) = false
  | 0, c, t, draws, o, t', rest, _, _, h => ⟨[], rfl, by simp, by simp⟩
  | n + 1, c, t, draws, o, t', rest, h1, h2, h => by
    have e : ((n + 1) * sz : Nat) = n * sz + sz := Nat.succ_mul n sz
    rw [e] at h1
    rw [List.replicate_succ] at h
    unfold fillFiles at h
    rw [if_neg (by omega)] at h
    have hlen := C76_create_file lnFloor hln sz hsz
    rcases bind_some h with ⟨e, h3, rfl⟩ | ⟨m, u, draws₁, h3, h4⟩
    · rcases bind_some h3 with ⟨e, h5, _⟩ | ⟨_, _, _, _, h6⟩
      · obtain ⟨_, _, h7, _⟩ := mkfilename_draws h5
        cases h7
      · cases h6
    · rcases bind_some h3 with ⟨e, _, h6⟩ | ⟨p, v, draws₂, h5, h6⟩
      · cases h6
      · obtain ⟨r, hr, h7, rfl, hfree, hrest⟩ := mkfilename_draws h5
        cases h7
        cases h6
        rw [hlen] at h4
        obtain ⟨rs, l1, l2, l3⟩ := fillFiles_numbers hln target ms mf hsz n _ _ _ _ _ _ (by dsimp only; omega) (by dsimp only; omega) h4
        have hmono : ∀ q, Dataset.has { files := v.files ++ [(target ++ [hex3 r ++ '_' :: natStr sz], fileText lnFloor sz)], dirs := v.dirs } q = false →
            v.has q = false ∧ q ≠ target ++ [hex3 r ++ '_' :: natStr sz] := by
          intro q hq
          unfold Dataset.has at hq ⊢
          rw [List.any_append, Bool.or_eq_false_iff, Bool.or_eq_false_iff] at hq
          refine ⟨by rw [hq.1.1, hq.2]; rfl, fun h => ?_⟩
          have := hq.1.2
          rw [h] at this
          simp at this
        refine ⟨r :: rs, by rw [List.length_cons, l1], ?_, ?_⟩
        · rw [List.nodup_cons]
          exact ⟨fun hm => (hmono _ (l3 r hm).2).2 rfl, l2⟩
        · intro x hx
          rcases List.mem_cons.1 hx with rfl | hx
          · exact ⟨hr, hfree⟩
          · exact ⟨hrest _ (l3 x hx).1, (hmono _ (l3 x hx).2).1⟩

theorem inventory_single (sz n : Nat) : inventorySizes [(sz, n)] = List.replicate n sz := by
  unfold inventorySizes
  simp [sortDown, insertDown, dget]

end Verif
