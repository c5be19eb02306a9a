import Verif.Lemmas.MkPlan
/-!
# Lemmas on the distribution of totals over the directives of a plan
-/

namespace Verif

open Spec

/-! ## Iterators -/

theorem iterate_uniform {s n : Int} (hs : 0 ≤ s) (hn : 0 < n) :
    ∃ l : List Nat, (SizeIter.uniform (some s) (some n)).iterate = .ok l ∧ (l.sum : Int) = s ∧ (l.length : Int) = n := by
  obtain ⟨l, h1, h2, h3, h4⟩ := C76_uniform s.toNat n.toNat (by omega)
  rw [Int.toNat_of_nonneg hs, Int.toNat_of_nonneg (by omega)] at h1
  refine ⟨l.map Int.toNat, ?_, ?_, ?_⟩
  · unfold SizeIter.iterate
    dsimp only
    rw [h1]
    rfl
  · rw [sum_toNat l (fun x hx => (h4 x hx).1), h3, Int.toNat_of_nonneg hs]
  · rw [List.length_map, h2, Int.toNat_of_nonneg (by omega)]

theorem iterate_uniform_none {s n : Option Int} (h : uniformTotals s n = none) :
    (SizeIter.uniform s n).iterate = .error .runtimeError := by
  unfold SizeIter.iterate uniformSizes
  cases s with
  | none => rfl
  | some a =>
    cases n with
    | none => dsimp only; split <;> rfl
    | some b =>
      unfold uniformTotals at h
      dsimp only at h ⊢
      by_cases ha : a < 0
      · rw [if_pos ha]; rfl
      · by_cases hb : b < 0
        · rw [if_neg ha, if_pos hb]; rfl
        · rw [if_pos (by omega)] at h
          cases h

theorem uniformTotals_some {s n : Option Int} {a b : Int} (h : uniformTotals s n = some (a, b)) :
    s = some a ∧ n = some b ∧ 0 ≤ a ∧ 0 ≤ b := by
  unfold uniformTotals at h
  split at h
  · split at h
    · cases h; rename_i h; exact ⟨rfl, rfl, h.1, h.2⟩
    · cases h
  · cases h

theorem dget_nodup : ∀ {l : List (Nat × Nat)} {k v : Nat}, (l.map (·.1)).Nodup → (k, v) ∈ l → dget l k = some v
  | (k', v') :: l, k, v, hn, hm => by
    rw [List.map_cons, List.nodup_cons] at hn
    unfold dget
    rcases List.mem_cons.1 hm with h | h
    · cases h
      simp
    · have : k' ≠ k := by
        rintro rfl
        exact hn.1 (List.mem_map.2 ⟨_, h, rfl⟩)
      rw [if_neg this]
      exact dget_nodup hn.2 h

theorem sum_flatMap_replicate (f : Nat → Nat) : ∀ ks : List Nat,
    (ks.flatMap (fun k => List.replicate (f k) k)).sum = (ks.map (fun k => k * f k)).sum
  | [] => rfl
  | k :: ks => by
    simp only [List.flatMap_cons, List.sum_append, List.map_cons, List.sum_cons, sum_flatMap_replicate f ks, List.sum_replicate_nat,
      Nat.mul_comm]

theorem length_flatMap_replicate (f : Nat → Nat) : ∀ ks : List Nat,
    (ks.flatMap (fun k => List.replicate (f k) k)).length = (ks.map f).sum
  | [] => rfl
  | k :: ks => by
    simp only [List.flatMap_cons, List.length_append, List.map_cons, List.sum_cons, length_flatMap_replicate f ks,
      List.length_replicate]

theorem sum_perm {l l' : List Nat} (h : l.Perm l') : l.sum = l'.sum := by
  induction h with
  | nil => rfl
  | cons x _ ih => simp [ih]
  | swap x y l => simp; omega
  | trans _ _ h1 h2 => exact h1.trans h2

theorem inventory_totals {sizes : List (Nat × Nat)} (hn : (sizes.map (·.1)).Nodup) :
    (((inventorySizes sizes).sum : Nat) : Int) = (inventoryTotals sizes).1 ∧
      (((inventorySizes sizes).length : Nat) : Int) = (inventoryTotals sizes).2 := by
  have hp := sortDown_perm (sizes.map (·.1))
  unfold inventorySizes inventoryTotals
  rw [sum_flatMap_replicate (fun k => (dget sizes k).getD 0), length_flatMap_replicate (fun k => (dget sizes k).getD 0)]
  rw [sum_perm (hp.map _), sum_perm (hp.map _), List.map_map, List.map_map]
  constructor
  · congr 2
    refine List.map_congr_left (fun c hc => ?_)
    simp only [Function.comp, dget_nodup hn (show (c.1, c.2) ∈ sizes from hc), Option.getD_some]
  · congr 2
    refine List.map_congr_left (fun c hc => ?_)
    simp only [Function.comp, dget_nodup hn (show (c.1, c.2) ∈ sizes from hc), Option.getD_some]

/-- The iterator yields what the directive claims. -/
def Told (f : FileSet) (it : SizeIter) : Prop :=
  (∀ a b, says f = some (a, b) → ∃ l : List Nat, it.iterate = .ok l ∧ (l.sum : Int) = a ∧ (l.length : Int) = b) ∧
  (says f = none → ∃ s n, it = .uniform s n ∧ it.iterate = .error .runtimeError) ∧
  (∀ k ts tf r, says ⟨k, ts, tf, r, some it⟩ = says f ∧ SetInOrder ⟨k, ts, tf, r, some it⟩)

theorem told_uniform {f : FileSet} {s n : Option Int} (hs : says f = uniformTotals s n) (h : ∀ a, uniformTotals s n ≠ some (a, 0)) :
    Told f (.uniform s n) := by
  refine ⟨?_, ?_, fun _ _ _ _ => ⟨hs.symm, h⟩⟩
  · intro a b hab
    rw [hs] at hab
    obtain ⟨rfl, rfl, ha, hb⟩ := uniformTotals_some hab
    have : b ≠ 0 := by rintro rfl; exact h a hab
    exact iterate_uniform ha (by omega)
  · intro hn
    exact ⟨s, n, rfl, iterate_uniform_none (hs ▸ hn)⟩

theorem told_inventory {f : FileSet} {l : List (Nat × Nat)} (hs : says f = some (inventoryTotals l)) (h : (l.map (·.1)).Nodup) :
    Told f (.inventory l) := by
  refine ⟨?_, ?_, fun _ _ _ _ => ⟨hs.symm, h⟩⟩
  · intro a b hab
    rw [hs] at hab
    injection hab with hab
    obtain ⟨h1, h2⟩ := inventory_totals h
    rw [hab] at h1 h2
    exact ⟨_, rfl, h1, h2⟩
  · intro hn
    rw [hs] at hn
    cases hn

theorem resolve_one {f : FileSet} (h : SetInOrder f) :
    ∃ it, f.iterOf = .ok it ∧ Told f it := by
  rcases f with ⟨kind, ts, tf, reps, iter⟩
  rcases iter with _ | ⟨s, n⟩ | l
  · cases kind with
    | uniform => exact ⟨_, rfl, told_uniform rfl h⟩
    | inventory sizes =>
      obtain ⟨l, rfl, hl⟩ := h
      exact ⟨_, rfl, told_inventory rfl hl⟩
    | other => cases h
  · exact ⟨_, rfl, told_uniform rfl h⟩
  · exact ⟨_, rfl, told_inventory rfl h⟩

theorem resolve_all : ∀ {l : List FileSet}, (∀ f ∈ l, SetInOrder f) →
    ∃ l', resolveIters l = .ok l' ∧ Forall₂ (fun f f' => ∃ it, f' = { f with iter := some it } ∧ Told f it) l l'
  | [], _ => ⟨[], rfl, .nil⟩
  | f :: l, h => by
    obtain ⟨it, h1, h2⟩ := resolve_one (h f (by simp))
    obtain ⟨l', h3, h4⟩ := resolve_all (fun g hg => h g (List.mem_cons_of_mem _ hg))
    refine ⟨{ f with iter := some it } :: l', ?_, .cons ⟨it, rfl, h2⟩ h4⟩
    unfold resolveIters
    rw [h1, h3]

theorem totals_one {f : FileSet} {it : SizeIter} (h : Told f it) :
    fileTotals { f with iter := some it } = .ok ((says f).map (·.1), (says f).map (·.2)) := by
  unfold fileTotals
  dsimp only
  rcases hs : says f with _ | ⟨a, b⟩
  · obtain ⟨s, n, rfl, hi⟩ := h.2.1 hs
    rw [hi]
    rfl
  · obtain ⟨l, hi, h1, h2⟩ := h.1 a b hs
    rw [hi]
    simp [h1, h2]

theorem totals_all : ∀ {l l' : List FileSet}, Forall₂ (fun f f' => ∃ it, f' = { f with iter := some it } ∧ Told f it) l l' →
    allTotals l' = .ok (l.map (fun f => ((says f).map (·.1), (says f).map (·.2))))
  | [], _, .nil => rfl
  | f :: l, _, .cons (as := _) h hl => by
    obtain ⟨it, rfl, ht⟩ := h
    unfold allTotals
    rw [totals_one ht, totals_all hl]
    rfl

/-! ## Shares -/

theorem claimed_eq : ∀ l : List (Option Int × Nat), claimed l = claims l
  | [] => rfl
  | (none, r) :: l => by
    have := claimed_eq l
    unfold claimed at this ⊢
    simp only [List.map_cons, List.sum_cons, this, claims, Option.getD_none]
    omega
  | (some t, r) :: l => by
    have := claimed_eq l
    unfold claimed at this ⊢
    simp only [List.map_cons, List.sum_cons, this, claims, Option.getD_some]

theorem openReps_eq : ∀ l : List (Option Int × Nat), (∀ c ∈ l, c.1 = none → c.2 = 1) → openReps l = unclaimed l
  | [], _ => rfl
  | (none, r) :: l, h => by
    have ih := openReps_eq l (fun c hc => h c (List.mem_cons_of_mem _ hc))
    have hr : r = 1 := h _ (List.mem_cons_self ..) rfl
    unfold openReps unclaimed at ih ⊢
    simp only [Option.isNone_none, List.filter_cons_of_pos, List.map_cons, List.sum_cons, List.length_cons, ih, hr]
    omega
  | (some t, r) :: l, h => by
    have ih := openReps_eq l (fun c hc => h c (List.mem_cons_of_mem _ hc))
    unfold openReps unclaimed at ih ⊢
    simpa using ih

theorem any_none {l : List (Option Int × Nat)} : l.any (fun c => c.1.isNone) = true ↔ unclaimed l ≠ 0 := by
  unfold unclaimed
  rw [List.any_eq_true, Ne, List.length_eq_zero_iff, List.filter_eq_nil_iff]
  simp

/-- The bytes or files that the directives get, with repetitions. -/
def inAll (xs : List Int) (l : List (Option Int × Nat)) : Int := ((xs.zip (l.map (·.2))).map (fun c => c.1 * (c.2 : Int))).sum

theorem spread_ok (dflt : Int) : ∀ (l : List (Option Int × Nat)) (vs : List Int), vs.length = unclaimed l →
    (∀ c ∈ l, c.1 = none → c.2 = 1) →
    Forall₂ (fun c x => match c.1 with | some t => x = t | none => x ∈ vs) l (spread dflt vs l) ∧
      inAll (spread dflt vs l) l = claims l + vs.sum ∧
      (((spread dflt vs l).zip l).map (fun c => if c.2.1.isNone then c.1 else 0)).sum = vs.sum
  | [], vs, hv, _ => by
    have : vs = [] := List.length_eq_zero_iff.1 (by simpa [unclaimed] using hv)
    subst this
    unfold spread
    exact ⟨.nil, rfl, rfl⟩
  | (some t, r) :: l, vs, hv, h => by
    obtain ⟨h1, h2, h3⟩ := spread_ok dflt l vs (by simpa [unclaimed] using hv) (fun c hc => h c (List.mem_cons_of_mem _ hc))
    unfold spread
    refine ⟨.cons rfl h1, ?_, ?_⟩
    · unfold inAll at h2 ⊢
      simp only [List.map_cons, List.zip_cons_cons, List.sum_cons, h2, claims]
      omega
    · simp only [List.map_cons, List.zip_cons_cons, List.sum_cons, h3]
      simp
  | (none, r) :: l, [], hv, h => by simp [unclaimed] at hv
  | (none, r) :: l, v :: vs, hv, h => by
    obtain ⟨h1, h2, h3⟩ := spread_ok dflt l vs (by simpa [unclaimed] using hv) (fun c hc => h c (List.mem_cons_of_mem _ hc))
    have hr : r = 1 := h _ (List.mem_cons_self ..) rfl
    unfold spread
    refine ⟨.cons (by simp) (forall₂_imp ?_ h1), ?_, ?_⟩
    · intro c x hc
      cases hc1 : c.1 with
      | none => rw [hc1] at hc; exact List.mem_cons_of_mem _ hc
      | some t => rw [hc1] at hc; exact hc
    · unfold inAll at h2 ⊢
      simp only [List.map_cons, List.zip_cons_cons, List.sum_cons, h2, claims, hr]
      omega
    · simp only [List.map_cons, List.zip_cons_cons, List.sum_cons, h3]
      simp

theorem inAll_told : ∀ l : List (Option Int × Nat), unclaimed l = 0 →
    inAll (l.map (fun c => c.1.getD 0)) l = claims l ∧
    Forall₂ (fun c x => c.1 = some x) l (l.map (fun c => c.1.getD 0)) ∧
    (((l.map (fun c => c.1.getD 0)).zip l).map (fun c => if c.2.1.isNone then c.1 else 0)).sum = 0
  | [], _ => ⟨rfl, .nil, rfl⟩
  | (none, r) :: l, h => by simp [unclaimed] at h
  | (some t, r) :: l, h => by
    obtain ⟨h1, h2, h3⟩ := inAll_told l (by simpa [unclaimed] using h)
    refine ⟨?_, .cons rfl h2, ?_⟩
    · unfold inAll at h1 ⊢
      simp only [List.map_cons, List.zip_cons_cons, List.sum_cons, h1, claims, Option.getD_some]
    · simp only [List.map_cons, List.zip_cons_cons, List.sum_cons, h3]
      simp

theorem shareOut_ok {total dflt : Int} {l : List (Option Int × Nat)} (hc : claims l ≤ total) (h1 : ∀ c ∈ l, c.1 = none → c.2 = 1) :
    ∃ xs, shareOut total dflt l = .ok xs ∧ Forall₂ (fun c x => Gets total l c.1 x ∧ (c.1 = none → 0 ≤ x)) l xs ∧
      inAll xs l = (if unclaimed l = 0 then claims l else total) ∧
      filesLeft total xs l = (if unclaimed l = 0 then total - claims l else 0) := by
  unfold shareOut filesLeft
  by_cases hu : unclaimed l = 0
  · obtain ⟨a, b, c⟩ := inAll_told l hu
    rw [if_neg (fun h => (any_none.1 h) hu)]
    refine ⟨_, rfl, forall₂_imp ?_ b, ?_, ?_⟩
    · intro c x hcx
      rw [hcx]
      exact ⟨rfl, fun h => by cases h⟩
    · rw [if_pos hu, a]
    · rw [if_pos hu, c, claimed_eq]; omega
  · rw [if_pos (any_none.2 hu), openReps_eq l h1, claimed_eq]
    obtain ⟨vs, hv, hlen, hsum, hnear⟩ := C76_uniform (total - claims l).toNat (unclaimed l) (by omega)
    rw [Int.toNat_of_nonneg (by omega)] at hv hsum hnear
    obtain ⟨a, b, c⟩ := spread_ok dflt l vs hlen h1
    rw [hv]
    refine ⟨_, rfl, forall₂_imp ?_ a, ?_, ?_⟩
    · intro c x hcx
      cases hc1 : c.1 with
      | none =>
        rw [hc1] at hcx
        obtain ⟨n1, n2, n3⟩ := hnear x hcx
        exact ⟨⟨n2, n3⟩, fun _ => n1⟩
      | some t => rw [hc1] at hcx; exact ⟨hcx, fun h => by cases h⟩
    · rw [if_neg hu, b, hsum]; omega
    · rw [if_neg hu, c, hsum]; omega

/-! ## The directives with their totals -/

/-- A set of files whose iterator yields just what its totals say. -/
def Exact (f : FileSet) (a b : Int) : Prop :=
  f.totalsize = some a ∧ f.totalfiles = some b ∧ says f = some (a, b) ∧ SetInOrder f ∧
    ∃ it, ∃ l : List Nat, f.iter = some it ∧ it.iterate = .ok l ∧ (l.sum : Int) = a ∧ (l.length : Int) = b

def setBytes (l : List FileSet) : Int := (l.map (fun f => f.totalsize.getD 0 * (f.reps : Int))).sum
def setFiles (l : List FileSet) : Int := (l.map (fun f => f.totalfiles.getD 0 * (f.reps : Int))).sum
def dirBytes (l : List DirSpec) : Int := (l.map (fun d => d.totalsize.getD 0 * (d.reps : Int))).sum
def dirFiles (l : List DirSpec) : Int := (l.map (fun d => d.totalfiles.getD 0 * (d.reps : Int))).sum

theorem exact_uniform {f : FileSet} {a b : Int} (ha : 0 ≤ a) (hb : 0 < b) (h1 : f.totalsize = some a) (h2 : f.totalfiles = some b)
    (h3 : f.iter = some (.uniform (some a) (some b))) : Exact f a b := by
  have hu : uniformTotals (some a) (some b) = some (a, b) := by
    unfold uniformTotals
    dsimp only
    rw [if_pos ⟨ha, by omega⟩]
  obtain ⟨l, i1, i2, i3⟩ := iterate_uniform ha hb
  refine ⟨h1, h2, ?_, ?_, _, l, h3, i1, i2, i3⟩
  · unfold says
    rw [h3]
    exact hu
  · unfold SetInOrder
    rw [h3]
    intro a' h
    rw [hu] at h
    cases h
    omega

theorem give_one {f : FileSet} {it : SizeIter} (ht : Told f it) {x y : Int} (hx : ∀ a b, says f = some (a, b) → x = a ∧ y = b)
    (hn : says f = none → 0 ≤ x ∧ 0 < y) :
    Exact (FileSet.give { f with iter := some it } ((says f).map (·.1)).isSome x y) x y := by
  rcases hs : says f with _ | ⟨a, b⟩
  · obtain ⟨s, n, rfl, _⟩ := ht.2.1 hs
    obtain ⟨h1, h2⟩ := hn hs
    exact exact_uniform h1 h2 rfl rfl rfl
  · obtain ⟨rfl, rfl⟩ := hx a b hs
    obtain ⟨l, h1, h2, h3⟩ := ht.1 _ _ hs
    have := ht.2.2 f.kind (some x) (some y) f.reps
    exact ⟨rfl, rfl, this.1.trans hs, this.2, it, l, rfl, h1, h2, h3⟩

theorem give_all : ∀ {l l' : List FileSet} {xs ys : List Int},
    Forall₂ (fun f f' => ∃ it, f' = { f with iter := some it } ∧ Told f it) l l' →
    Forall₂ (fun f x => (∀ a b, says f = some (a, b) → x = a) ∧ (says f = none → 0 ≤ x)) l xs →
    Forall₂ (fun f y => (∀ a b, says f = some (a, b) → y = b) ∧ (says f = none → 0 < y)) l ys →
    ∃ fs, (l'.zip ((l.map (fun f => ((says f).map (·.1), (says f).map (·.2)))).zip (xs.zip ys))).map
        (fun c => c.1.give c.2.1.1.isSome c.2.2.1 c.2.2.2) = fs ∧ (∀ f ∈ fs, ∃ a b, Exact f a b) ∧
      setBytes fs = ((xs.zip (l.map (·.reps))).map (fun c => c.1 * (c.2 : Int))).sum ∧
      setFiles fs = ((ys.zip (l.map (·.reps))).map (fun c => c.1 * (c.2 : Int))).sum
  | [], _, _, _, .nil, .nil, .nil => ⟨[], rfl, by simp, rfl, rfl⟩
  | f :: l, _, _, _, .cons h hl, .cons (b := x) hx hxs, .cons (b := y) hy hys => by
    obtain ⟨fs, h1, h2, h3, h4⟩ := give_all hl hxs hys
    obtain ⟨it, rfl, ht⟩ := h
    refine ⟨FileSet.give { f with iter := some it } ((says f).map (·.1)).isSome x y :: fs, ?_, ?_, ?_, ?_⟩
    · rw [← h1]
      rfl
    · intro g hg
      rcases List.mem_cons.1 hg with rfl | hg
      · exact ⟨x, y, give_one ht (fun a b hab => ⟨hx.1 a b hab, hy.1 a b hab⟩) (fun hn => ⟨hx.2 hn, hy.2 hn⟩)⟩
      · exact h2 g hg
    · unfold setBytes at h3 ⊢
      simp only [List.map_cons, List.sum_cons, List.zip_cons_cons, h3]
      rfl
    · unfold setFiles at h4 ⊢
      simp only [List.map_cons, List.sum_cons, List.zip_cons_cons, h4]
      rfl

theorem dirs_all {P Q : DirSpec → Int → Prop} : ∀ {l : List DirSpec} {xs ys : List Int}, Forall₂ P l xs → Forall₂ Q l ys →
    ∃ ds, (l.zip (xs.zip ys)).map (fun c => c.1.setTotals c.2.1 c.2.2) = ds ∧
      Forall₂ (fun s s' => ∃ a b, s' = s.setTotals a b ∧ P s a ∧ Q s b) l ds ∧
      dirBytes ds = ((xs.zip (l.map (·.reps))).map (fun c => c.1 * (c.2 : Int))).sum ∧
      dirFiles ds = ((ys.zip (l.map (·.reps))).map (fun c => c.1 * (c.2 : Int))).sum
  | [], _, _, .nil, .nil => ⟨[], rfl, .nil, rfl, rfl⟩
  | s :: l, _, _, .cons (b := x) hx hxs, .cons (b := y) hy hys => by
    obtain ⟨ds, h1, h2, h3, h4⟩ := dirs_all hxs hys
    have hr : (s.setTotals x y).reps = s.reps ∧ (s.setTotals x y).totalsize = some x ∧ (s.setTotals x y).totalfiles = some y := by
      cases s; exact ⟨rfl, rfl, rfl⟩
    refine ⟨s.setTotals x y :: ds, ?_, .cons ⟨x, y, rfl, hx, hy⟩ h2, ?_, ?_⟩
    · rw [← h1]
      rfl
    · unfold dirBytes at h3 ⊢
      simp only [List.map_cons, List.sum_cons, List.zip_cons_cons, h3, hr, Option.getD_some]
    · unfold dirFiles at h4 ⊢
      simp only [List.map_cons, List.sum_cons, List.zip_cons_cons, h4, hr, Option.getD_some]

theorem zip_maps {α β γ δ : Type} (f : α → γ) (f' : α → δ) (g : β → γ) (g' : β → δ) (l : List α) (m : List β) :
    (l.map f ++ m.map g).zip (l.map f' ++ m.map g') = l.map (fun x => (f x, f' x)) ++ m.map (fun x => (g x, g' x)) := by
  rw [List.zip_append (by simp), List.zip_map', List.zip_map']

theorem forall₂_app {α β : Type} {R : α → β → Prop} : ∀ {as bs : List α} {cs : List β}, Forall₂ R (as ++ bs) cs →
    Forall₂ R as (cs.take as.length) ∧ Forall₂ R bs (cs.drop as.length)
  | [], _, _, h => ⟨.nil, h⟩
  | _ :: as, _, _, .cons h hl => by
    obtain ⟨h1, h2⟩ := forall₂_app (as := as) hl
    exact ⟨.cons h h1, h2⟩

theorem forall₂_of_map {α β γ : Type} {R : γ → β → Prop} {f : α → γ} : ∀ {as : List α} {bs : List β}, Forall₂ R (as.map f) bs →
    Forall₂ (fun a b => R (f a) b) as bs
  | [], _, .nil => .nil
  | _ :: _, _, .cons h hl => .cons h (forall₂_of_map hl)

theorem forall₂_mem {α β : Type} {R : α → β → Prop} : ∀ {as : List α} {bs : List β}, Forall₂ R as bs →
    Forall₂ (fun a b => a ∈ as ∧ R a b) as bs
  | [], _, .nil => .nil
  | a :: as, _, .cons h hl =>
    .cons ⟨by simp, h⟩ (forall₂_imp (fun _ _ hr => ⟨List.mem_cons_of_mem _ hr.1, hr.2⟩) (forall₂_mem hl))

theorem sum_split (xs : List Int) (rs rs' : List Nat) (h : xs.length = rs.length + rs'.length) :
    ((xs.zip (rs ++ rs')).map (fun c => c.1 * (c.2 : Int))).sum =
      (((xs.take rs.length).zip rs).map (fun c => c.1 * (c.2 : Int))).sum +
      (((xs.drop rs.length).zip rs').map (fun c => c.1 * (c.2 : Int))).sum := by
  have : xs.zip (rs ++ rs') = (xs.take rs.length).zip rs ++ (xs.drop rs.length).zip rs' := by
    rw [← List.zip_append (by rw [List.length_take]; omega), List.take_append_drop]
  rw [this, List.map_append, List.sum_append]

/-- A share is positive if there is one for everybody. -/
theorem share_pos {y k R : Int} (hk : 0 < k) (hR : k ≤ R) (h : R < y * k + k) : 0 < y := by
  rcases Int.lt_or_le 0 y with h0 | h0
  · exact h0
  · have := Int.mul_nonpos_of_nonpos_of_nonneg h0 (Int.le_of_lt hk)
    omega

/-- What `_distribute` makes of a plan that suits. -/
structure Shared (ts tf : Int) (d : DirSpec) (fs : List FileSet) (ds : List DirSpec) : Prop where
  exact : ∀ f ∈ fs, ∃ a b, Exact f a b
  bytes : setBytes fs + dirBytes ds = ts
  files : setFiles fs + dirFiles ds = tf
  dirs : Forall₂ (fun s s' => ∃ a b, s' = s.setTotals a b ∧ Suits a b s) d.subdirs ds
  none : d.files.getD [] = [] → fs = [] ∨ ∃ a b, 0 < a ∧ 0 < b ∧ fs = [extraSet a b]

theorem setBytes_append (a b : List FileSet) : setBytes (a ++ b) = setBytes a + setBytes b := by simp [setBytes]
theorem setFiles_append (a b : List FileSet) : setFiles (a ++ b) = setFiles a + setFiles b := by simp [setFiles]

theorem distribute_ok {ts tf : Int} {d : DirSpec} (h : Suits ts tf d) :
    ∃ fs ds, distribute ts tf (d.files.getD []) d.subdirs = .ok (fs, ds) ∧ Shared ts tf d fs ds := by
  rcases h with ⟨hts, htf, hord, hsin, hsz, hct, hin⟩
  generalize hl : d.files.getD [] = l at hord
  generalize hm : d.subdirs = m at hin
  have hS : sizeClaims d = l.map (fun f => ((says f).map (·.1), f.reps)) ++ m.map (fun s => (s.totalsize, s.reps)) := by
    unfold sizeClaims; rw [hl, hm]
  have hF : fileClaims d = l.map (fun f => ((says f).map (·.2), f.reps)) ++ m.map (fun s => (s.totalfiles, s.reps)) := by
    unfold fileClaims; rw [hl, hm]
  obtain ⟨l', hl', hR⟩ := resolve_all hord
  have hlen : l'.length = l.length := (forall₂_length hR).symm
  have hreps : l'.map (·.reps) = l.map (·.reps) := by
    clear hl hord hS hF hl' hlen
    induction hR with
    | nil => rfl
    | cons h _ ih => obtain ⟨it, rfl, _⟩ := h; simp only [List.map_cons, ih]
  obtain ⟨xs, hx1, hx2, hx3, _⟩ := shareOut_ok (dflt := 0) hsz (fun c hc => hsin c (List.mem_append_left _ hc))
  have hcF : claims (fileClaims d) ≤ tf := by
    split at hct
    · omega
    · split at hct <;> omega
  obtain ⟨ys, hy1, hy2, hy3, hy4⟩ := shareOut_ok (dflt := 1) hcF (fun c hc => hsin c (List.mem_append_right _ hc))
  have hxl : xs.length = l.length + m.length := by rw [← forall₂_length hx2, hS]; simp
  have hyl : ys.length = l.length + m.length := by rw [← forall₂_length hy2, hF]; simp
  have hSr : (sizeClaims d).map (·.2) = l.map (·.reps) ++ m.map (·.reps) := by
    rw [hS, List.map_append, List.map_map, List.map_map]; rfl
  have hFr : (fileClaims d).map (·.2) = l.map (·.reps) ++ m.map (·.reps) := by
    rw [hF, List.map_append, List.map_map, List.map_map]; rfl
  have hx2' := hx2
  have hy2' := hy2
  rw [hS] at hx2'
  rw [hF] at hy2'
  obtain ⟨hxa, hxb⟩ := forall₂_app hx2'
  obtain ⟨hya, hyb⟩ := forall₂_app hy2'
  rw [List.length_map] at hxa hxb hya hyb
  rw [← hS] at hxa hxb
  rw [← hF] at hya hyb
  -- the sets
  have hxa' : Forall₂ (fun f x => (∀ a b, says f = some (a, b) → x = a) ∧ (says f = none → 0 ≤ x)) l (xs.take l.length) := by
    refine forall₂_imp (fun f x hfx => ⟨fun a b hab => ?_, fun hn => ?_⟩) (forall₂_of_map hxa)
    · have := hfx.1
      rw [hab] at this
      exact this
    · exact hfx.2 (by rw [hn]; rfl)
  have hya' : Forall₂ (fun f y => (∀ a b, says f = some (a, b) → y = b) ∧ (says f = none → 0 < y)) l (ys.take l.length) := by
    refine forall₂_imp (fun f y hfy => ⟨fun a b hab => ?_, fun hn => ?_⟩) (forall₂_mem (forall₂_of_map hya))
    · have := hfy.2.1
      rw [hab] at this
      exact this
    · have hmS : (none, f.reps) ∈ sizeClaims d := by
        rw [hS]
        exact List.mem_append_left _ (List.mem_map.2 ⟨f, hfy.1, by rw [hn]; rfl⟩)
      have hmF : (none, f.reps) ∈ fileClaims d := by
        rw [hF]
        exact List.mem_append_left _ (List.mem_map.2 ⟨f, hfy.1, by rw [hn]; rfl⟩)
      have hpos : ∀ {l : List (Option Int × Nat)}, (none, f.reps) ∈ l → unclaimed l ≠ 0 := by
        intro l hl h0
        unfold unclaimed at h0
        rw [List.length_eq_zero_iff, List.filter_eq_nil_iff] at h0
        exact h0 _ hl rfl
      have h1 := hpos hmS
      have h2 := hpos hmF
      rw [if_neg (fun h => h1 h.1), if_neg h2] at hct
      have := hfy.2.1
      rw [hn] at this
      exact share_pos (k := unclaimed (fileClaims d)) (by omega) (by omega) this.2
  obtain ⟨fs, hfs, hex, hfb, hff⟩ := give_all hR hxa' hya'
  -- the directories
  obtain ⟨ds, hds, hdd, hdb, hdf⟩ := dirs_all (forall₂_mem (forall₂_of_map hxb)) (forall₂_of_map hyb)
  have hb : setBytes fs + dirBytes ds = inAll xs (sizeClaims d) := by
    unfold inAll
    rw [hfb, hdb, hSr, sum_split _ _ _ (by simpa using hxl)]
    simp
  have hf : setFiles fs + dirFiles ds = inAll ys (fileClaims d) := by
    unfold inAll
    rw [hff, hdf, hFr, sum_split _ _ _ (by simpa using hyl)]
    simp
  have hdirs : Forall₂ (fun s s' => ∃ a b, s' = s.setTotals a b ∧ Suits a b s) m ds := by
    refine forall₂_imp (fun s s' hs => ?_) hdd
    obtain ⟨a, b, h1, h2, h3⟩ := hs
    exact ⟨a, b, h1, hin s h2.1 a b h2.2.1 h3.1⟩
  have hnil : l = [] → fs = [] := by
    intro h0
    subst h0
    cases hR
    rw [← hfs]
    rfl
  refine ⟨if 0 < bytesLeft ts xs (l.map (·.reps) ++ m.map (·.reps)) then
    fs ++ [extraSet (bytesLeft ts xs (l.map (·.reps) ++ m.map (·.reps)))
      (if filesLeft tf ys (fileClaims d) ≤ 0 then 1 else filesLeft tf ys (fileClaims d))] else fs, ds, ?_, ?_⟩
  · unfold distribute
    rw [hl']
    dsimp only
    rw [totals_all hR]
    dsimp only
    rw [hreps, hlen]
    have e1 : ((l.map (fun f => ((says f).map (·.1), (says f).map (·.2)))).map (·.1) ++ m.map (·.totalsize)).zip
        (l.map (·.reps) ++ m.map (·.reps)) = sizeClaims d := by
      rw [List.map_map, zip_maps, hS]; rfl
    have e2 : ((l.map (fun f => ((says f).map (·.1), (says f).map (·.2)))).map (·.2) ++ m.map (·.totalfiles)).zip
        (l.map (·.reps) ++ m.map (·.reps)) = fileClaims d := by
      rw [List.map_map, zip_maps, hF]; rfl
    rw [e1, e2, hx1, hy1]
    dsimp only
    rw [hfs, hds]
  · have hbl : bytesLeft ts xs (l.map (·.reps) ++ m.map (·.reps)) = ts - inAll xs (sizeClaims d) := by
      unfold bytesLeft inAll
      rw [hSr]
    rw [hbl, hx3, hy4]
    rw [hx3] at hb
    rw [hy3] at hf
    by_cases hA : unclaimed (sizeClaims d) = 0 ∧ claims (sizeClaims d) < ts
    · rw [if_pos hA] at hct
      rw [if_pos hct.1, if_pos hA.1, if_pos (by omega), if_neg (by omega)]
      rw [if_pos hA.1] at hb
      rw [if_pos hct.1] at hf
      refine ⟨?_, ?_, ?_, hm ▸ hdirs, ?_⟩
      · intro f hf
        rcases List.mem_append.1 hf with hf | hf
        · exact hex f hf
        · simp only [List.mem_singleton] at hf
          subst hf
          exact ⟨_, _, exact_uniform (by omega) (by omega) rfl rfl rfl⟩
      · rw [setBytes_append]
        have : setBytes [extraSet (ts - claims (sizeClaims d)) (tf - claims (fileClaims d))] = ts - claims (sizeClaims d) := by
          simp [setBytes, extraSet]
        omega
      · rw [setFiles_append]
        have : setFiles [extraSet (ts - claims (sizeClaims d)) (tf - claims (fileClaims d))] = tf - claims (fileClaims d) := by
          simp [setFiles, extraSet]
        omega
      · intro h0
        rw [hl] at h0
        rw [hnil h0]
        exact .inr ⟨_, _, by omega, by omega, rfl⟩
    · rw [if_neg hA] at hct
      have hnb : ¬ 0 < ts - (if unclaimed (sizeClaims d) = 0 then claims (sizeClaims d) else ts) := by
        split
        · rename_i h0
          intro h
          exact hA ⟨h0, by omega⟩
        · omega
      rw [if_neg hnb]
      refine ⟨hex, ?_, ?_, hm ▸ hdirs, ?_⟩
      · rw [hb]
        split
        · rename_i h0
          have : ¬ claims (sizeClaims d) < ts := fun h => hA ⟨h0, h⟩
          omega
        · rfl
      · rw [hf]
        split
        · rename_i h0
          rw [if_pos h0] at hct
          exact hct
        · rfl
      · intro h0
        rw [hl] at h0
        exact .inl (hnil h0)

end Verif
