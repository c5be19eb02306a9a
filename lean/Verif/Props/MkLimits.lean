import Verif.Props.MkPlan
/-!
# C124: plans that ask for more than the totals
-/

namespace Verif
open Spec

namespace Spec

/-- Bytes and files in the inventories of a list. -/
def inventoriesTotal (invs : List (List (Nat × Nat))) : Int × Int :=
  ((invs.map (fun l => (inventoryTotals l).1)).sum, (invs.map (fun l => (inventoryTotals l).2)).sum)

end Spec

/-- The directive for an inventory. -/
def inventorySet (l : List (Nat × Nat)) : FileSet := { kind := .inventory (some l) }

/-- After its totals are known. -/
def inventoryGiven (l : List (Nat × Nat)) : FileSet :=
  { kind := .inventory (some l), totalsize := some ((inventorySizes l).sum : Nat), totalfiles := some ((inventorySizes l).length : Nat),
    iter := some (.inventory l) }

theorem resolve_inventories : ∀ invs : List (List (Nat × Nat)), resolveIters (invs.map inventorySet) =
    .ok (invs.map (fun l => { inventorySet l with iter := some (.inventory l) }))
  | [] => rfl
  | l :: invs => by
    simp only [List.map_cons, resolveIters, resolve_inventories invs]
    rfl

theorem totals_inventories : ∀ invs : List (List (Nat × Nat)),
    allTotals (invs.map (fun l => { inventorySet l with iter := some (.inventory l) })) =
    .ok (invs.map (fun l => (some ((inventorySizes l).sum : Nat), some ((inventorySizes l).length : Nat))))
  | [] => rfl
  | l :: invs => by
    simp only [List.map_cons, allTotals, totals_inventories invs]
    rfl

theorem shareOut_inventories (total dflt : Int) (g : List (Nat × Nat) → Int) (invs : List (List (Nat × Nat))) :
    shareOut total dflt (invs.map (fun l => (some (g l), 1))) = .ok (invs.map g) := by
  unfold shareOut
  rw [if_neg (by simp), List.map_map]
  rfl

theorem distribute_inventories (ts tf : Int) (invs : List (List (Nat × Nat)))
    (hmuch : ts ≤ ((invs.map (fun l => ((inventorySizes l).sum : Int))).sum)) :
    distribute ts tf (invs.map inventorySet) [] = .ok (invs.map inventoryGiven, []) := by
  have hleft : ¬ 0 < bytesLeft ts (invs.map (fun l => ((inventorySizes l).sum : Int)))
      (invs.map (fun _ : List (Nat × Nat) => 1)) := by
    unfold bytesLeft
    rw [List.zip_map', List.map_map]
    have : ((fun c : Int × Nat => c.1 * (c.2 : Int)) ∘ fun l : List (Nat × Nat) => (((inventorySizes l).sum : Int), 1)) =
        fun l => ((inventorySizes l).sum : Int) := by
      funext l
      simp
    rw [this]
    omega
  have e1 : ((invs.map (fun l => ((some (((inventorySizes l).sum : Nat) : Int)), (some (((inventorySizes l).length : Nat) : Int))))).map
      (fun x : Option Int × Option Int => x.1)).zip (invs.map (fun _ : List (Nat × Nat) => 1)) =
      invs.map (fun l => (some (((inventorySizes l).sum : Nat) : Int), 1)) := by
    rw [List.map_map, List.zip_map']; rfl
  have e2 : ((invs.map (fun l => ((some (((inventorySizes l).sum : Nat) : Int)), (some (((inventorySizes l).length : Nat) : Int))))).map
      (fun x : Option Int × Option Int => x.2)).zip (invs.map (fun _ : List (Nat × Nat) => 1)) =
      invs.map (fun l => (some (((inventorySizes l).length : Nat) : Int), 1)) := by
    rw [List.map_map, List.zip_map']; rfl
  have e3 : (invs.map (fun l => { inventorySet l with iter := some (SizeIter.inventory l) })).map (·.reps) =
      invs.map (fun _ : List (Nat × Nat) => 1) := by
    rw [List.map_map]; rfl
  unfold distribute
  simp only [resolve_inventories, totals_inventories]
  simp only [List.map_nil, List.append_nil, e3]
  rw [e1, e2, shareOut_inventories, shareOut_inventories]
  simp only [if_neg hleft, List.zip_nil_left, List.map_nil]
  rw [List.take_of_length_le (by simp), List.take_of_length_le (by simp), List.zip_map', List.zip_map', List.zip_map', List.map_map]
  rfl

/-- What is made of a list of sets: the first of them, up to the one with which a total is passed. -/
theorem fillSets_inventories {lnFloor : Nat → Nat} (hln : LogLike lnFloor) (target : List Str) (ts tf : Int) :
    ∀ (invs : List (List (Nat × Nat))) (c : Nat × Nat), (∀ l ∈ invs, (l.map (·.1)).Nodup) →
    (∀ l ∈ invs, (inventoryTotals l).1 < 2 ^ 98) →
    (fillSets lnFloor target ts tf (invs.map inventoryGiven) c).Ends (fun _ o _ => ∃ k c', k ≤ invs.length ∧ o = .ok c' ∧
      (∀ j, j < k → (c.1 : Int) + (inventoriesTotal (invs.take j)).1 ≤ ts ∧ (c.2 : Int) + (inventoriesTotal (invs.take j)).2 ≤ tf) ∧
      (k = invs.length ∨ ts < c'.1 ∨ tf < c'.2) ∧
      (c'.1 : Int) = c.1 + (inventoriesTotal (invs.take k)).1 ∧ (c'.2 : Int) = c.2 + (inventoriesTotal (invs.take k)).2)
  | [], c, _, _ => by
    intro t draws o t' draws' h
    cases h
    exact ⟨0, c, Nat.le_refl _, rfl, fun j hj => absurd hj (Nat.not_lt_zero j), .inl rfl, by simp [inventoriesTotal], by simp [inventoriesTotal]⟩
  | l :: invs, c, hn, hs => by
    intro t draws o t' draws' h
    rw [List.map_cons] at h
    unfold fillSets at h
    cases hm : tooMuch ts tf c with
    | true =>
      rw [if_pos hm] at h
      cases h
      refine ⟨0, c, Nat.zero_le _, rfl, fun j hj => absurd hj (Nat.not_lt_zero j), .inr ?_, by simp [inventoriesTotal], by simp [inventoriesTotal]⟩
      unfold tooMuch at hm
      simpa using hm
    | false =>
      rw [hm, if_neg (by decide)] at h
      obtain ⟨q1, q2⟩ := inventory_totals (hn l (List.mem_cons_self ..))
      have hl := hs l (List.mem_cons_self ..)
      unfold tooMuch at hm
      simp only [Bool.or_eq_false_iff, decide_eq_false_iff_not] at hm
      have hone : ∀ (c : Nat × Nat) (t : Dataset) draws o t' draws', fillSet lnFloor target (inventoryGiven l) 1 c (t, draws) = some (o, t', draws') →
          o = .ok (c.1 + (inventorySizes l).sum, c.2 + (inventorySizes l).length) := by
        intro c t draws o t' draws' h
        unfold fillSet at h
        rcases bind_some h with ⟨e, h4, rfl⟩ | ⟨l', u, draws₁, h4, h5⟩
        · cases h4
        · cases h4
          have hf := fillFiles_exact hln target ((inventorySizes l).sum : Nat) ((inventorySizes l).length : Nat) (inventorySizes l) (0, 0)
            (by dsimp only; omega) (by dsimp only; omega) (by omega)
          rcases bind_some h5 with ⟨e, h6, rfl⟩ | ⟨c', v, draws₂, h6, h7⟩
          · cases hf _ _ _ _ _ h6
          · cases hf _ _ _ _ _ h6
            cases h7
            simp
      rcases bind_some h with ⟨e, h4, rfl⟩ | ⟨c1, u, draws₁, h4, h5⟩
      · cases hone _ _ _ _ _ _ h4
      · cases hone _ _ _ _ _ _ h4
        obtain ⟨k, c', r1, r2, r3, r4, r5, r6⟩ := fillSets_inventories hln target ts tf invs _ (fun l' hl' => hn l' (List.mem_cons_of_mem _ hl'))
          (fun l' hl' => hs l' (List.mem_cons_of_mem _ hl')) _ _ _ _ _ h5
        have t1 : ∀ j, (inventoriesTotal ((l :: invs).take (j + 1))).1 = (inventoryTotals l).1 + (inventoriesTotal (invs.take j)).1 ∧
            (inventoriesTotal ((l :: invs).take (j + 1))).2 = (inventoryTotals l).2 + (inventoriesTotal (invs.take j)).2 := by
          intro j
          simp [inventoriesTotal]
        dsimp only at r3 r5 r6
        refine ⟨k + 1, c', by simp only [List.length_cons]; omega, r2, ?_, ?_, ?_, ?_⟩
        · intro j hj
          cases j with
          | zero =>
            simp only [inventoriesTotal, List.take_zero, List.map_nil, List.sum_nil, Int.add_zero]
            omega
          | succ j =>
            have := r3 j (by omega)
            rw [(t1 j).1, (t1 j).2]
            omega
        · rcases r4 with r4 | r4
          · exact .inl (by simp only [List.length_cons]; omega)
          · exact .inr r4
        · rw [(t1 k).1]; omega
        · rw [(t1 k).2]; omega

/-- C124, plans that ask for too much: if a plan is a list of inventories that have all the bytes asked for or more, then exactly the
first of them are made, in full, up to the one with which the bytes or the files are more than asked for. -/
theorem C124_inventories (lnFloor : Nat → Nat) (hln : LogLike lnFloor) (totalsize filecount : Int) (h1 : 0 < totalsize) (h2 : 0 < filecount)
    (invs : List (List (Nat × Nat))) (hn : ∀ l ∈ invs, (l.map (·.1)).Nodup) (hsmall : ∀ l ∈ invs, (inventoryTotals l).1 < 2 ^ 98)
    (hmuch : totalsize ≤ (inventoriesTotal invs).1) (t t' : Dataset) (draws rest : List Nat) (o : Except PyErr (Nat × Nat))
    (h : mkdatasetFor lnFloor true totalsize filecount
      (some (.mk none none 1 (some (invs.map (fun l => { kind := .inventory (some l) }))) [] none)) (t, draws) = some (o, t', rest)) :
    ∃ k bytes files, k ≤ invs.length ∧ o = .ok (bytes, files) ∧
      ((bytes : Int), (files : Int)) = inventoriesTotal (invs.take k) ∧
      (∀ j, j < k → (inventoriesTotal (invs.take j)).1 ≤ totalsize ∧ (inventoriesTotal (invs.take j)).2 ≤ filecount) ∧
      (k = invs.length ∨ totalsize < bytes ∨ filecount < files) := by
  have hsum : ∀ invs : List (List (Nat × Nat)), (∀ l ∈ invs, (l.map (·.1)).Nodup) →
      (invs.map (fun l => ((inventorySizes l).sum : Int))).sum = (inventoriesTotal invs).1 := by
    intro invs hn
    unfold inventoriesTotal
    exact congrArg List.sum (List.map_congr_left (fun l hl => (inventory_totals (hn l hl)).1))
  have hd := distribute_inventories totalsize filecount invs (by rw [hsum invs hn]; exact hmuch)
  unfold mkdatasetFor makeDataset at h
  rw [if_neg (by decide)] at h
  have hdep : ∀ fs : List FileSet, (DirSpec.setTotals totalsize filecount (.mk none none 1 (some fs) [] none)).depth = 1 := fun fs => by
    simp [DirSpec.setTotals, DirSpec.depth, DirSpec.depths]
  simp only [Option.getD_some] at h
  rw [hdep] at h
  have h : ((fillDir lnFloor 1 [] totalsize filecount (DirSpec.setTotals totalsize filecount (.mk none none 1 (some (invs.map inventorySet)) [] none))).bind
      (fun r => Making.pure r.1)) (t, draws) = some (o, t', rest) := h
  have hsets := fillSets_inventories hln [] totalsize filecount invs (0, 0) hn hsmall
  have hfill : ∀ t draws o t' rest, fillDir lnFloor 1 [] totalsize filecount
      (DirSpec.setTotals totalsize filecount (.mk none none 1 (some (invs.map inventorySet)) [] none)) (t, draws) = some (o, t', rest) →
      ∃ o', (o = o'.map (fun c => (c, (DirSpec.setTotals totalsize filecount (.mk none none 1 (some (invs.map inventorySet)) [] none)).worked
        (invs.map inventoryGiven) []))) ∧ fillSets lnFloor [] totalsize filecount (invs.map inventoryGiven) (0, 0) (t, draws) = some (o', t', rest) := by
    intro t draws o t' rest h
    unfold fillDir at h
    rw [if_neg (by omega)] at h
    have hd' : distribute totalsize filecount ((DirSpec.setTotals totalsize filecount (.mk none none 1 (some (invs.map inventorySet)) [] none)).files.getD [])
        (DirSpec.setTotals totalsize filecount (.mk none none 1 (some (invs.map inventorySet)) [] none)).subdirs = .ok (invs.map inventoryGiven, []) := hd
    rw [hd'] at h
    rcases bind_some h with ⟨e, h3, rfl⟩ | ⟨a, u, d1, h3, h4⟩
    · cases h3
    · cases h3
      rcases bind_some h4 with ⟨e, h5, rfl⟩ | ⟨c, u, d2, h5, h6⟩
      · exact ⟨.error e, rfl, h5⟩
      · refine ⟨.ok c, ?_, ?_⟩ <;> cases h6
        · rfl
        · exact h5
  rcases bind_some h with ⟨e, h3, rfl⟩ | ⟨r, u, d1, h3, h4⟩
  · obtain ⟨o', ho, hr⟩ := hfill _ _ _ _ _ h3
    obtain ⟨k, c', -, rfl, -⟩ := hsets _ _ _ _ _ hr
    cases ho
  · cases h4
    obtain ⟨o', ho, hr⟩ := hfill _ _ _ _ _ h3
    obtain ⟨k, c', r1, rfl, r3, r4, r5, r6⟩ := hsets _ _ _ _ _ hr
    cases ho
    refine ⟨k, c'.1, c'.2, r1, rfl, ?_, ?_, r4⟩
    · refine Prod.ext ?_ ?_
      · simpa using r5
      · simpa using r6
    · intro j hj
      simpa using r3 j hj

/-- Of three inventories, the first two are made: 60 bytes in 6 files are not more than 60 bytes in 9 files, 80 bytes are. -/
example (t t' : Dataset) (draws rest : List Nat) (o : Except PyErr (Nat × Nat))
    (h : mkdatasetFor Nat.log2 true 60 9 (some (.mk none none 1 (some ([[(10, 6)], [(5, 2), (10, 1)], [(1, 1)]].map
      (fun l => { kind := .inventory (some l) }))) [] none)) (t, draws) = some (o, t', rest)) : o = .ok (80, 9) := by
  obtain ⟨k, bytes, files, r1, r2, r3, r4, r5⟩ := C124_inventories Nat.log2 logLike_log2 60 9 (by decide) (by decide) _ (by decide) (by decide)
    (by decide) t t' draws rest o h
  rw [r2]
  match k, r1, r3, r4, r5 with
  | 0, _, r3, _, r5 =>
    obtain ⟨e1, e2⟩ := Prod.mk.inj (r3.trans (show _ = ((0 : Int), (0 : Int)) by decide))
    rcases r5 with r5 | r5 | r5
    · cases r5
    · omega
    · omega
  | 1, _, r3, _, r5 =>
    obtain ⟨e1, e2⟩ := Prod.mk.inj (r3.trans (show _ = ((60 : Int), (6 : Int)) by decide))
    rcases r5 with r5 | r5 | r5
    · cases r5
    · omega
    · omega
  | 2, _, r3, _, _ =>
    obtain ⟨e1, e2⟩ := Prod.mk.inj (r3.trans (show _ = ((80 : Int), (9 : Int)) by decide))
    rw [show bytes = 80 by omega, show files = 9 by omega]
  | 3, _, _, r4, _ => exact absurd (r4 2 (by decide)).1 (by decide)

/-- C124, one pass over a set: it makes no more bytes and no more files than the totals of the set, whatever sizes come up. -/
theorem C124_set_limits (lnFloor : Nat → Nat) (hln : LogLike lnFloor) (target : List Str) (maxsize maxfiles : Int) (hsmall : maxsize < 2 ^ 98) :
    ∀ (sizes : List Nat) (c : Nat × Nat), (c.1 : Int) ≤ maxsize → (c.2 : Int) ≤ maxfiles → ∀ (t t' : Dataset) (draws rest : List Nat)
    (o : Except PyErr (Nat × Nat)), fillFiles lnFloor target maxsize maxfiles sizes c (t, draws) = some (o, t', rest) →
    ∃ d, o = .ok d ∧ (d.1 : Int) ≤ maxsize ∧ (d.2 : Int) ≤ maxfiles
  | [], c, h1, h2, _, _, _, _, _, h => by
    cases h
    exact ⟨c, rfl, h1, h2⟩
  | sz :: sizes, c, h1, h2, t, t', draws, rest, o, h => by
    unfold fillFiles at h
    split at h
    · cases h
      exact ⟨c, rfl, h1, h2⟩
    · rename_i hle
      rcases bind_some h with ⟨e, h4, rfl⟩ | ⟨n, u, d1, h4, h5⟩
      · obtain ⟨n, h6, -⟩ := createFile_some hln h4
        cases h6
      · obtain ⟨n', h6, h7, -⟩ := createFile_some hln h4
        cases h6
        have hn := h7 (by omega)
        exact C124_set_limits lnFloor hln target maxsize maxfiles hsmall sizes _ (by dsimp only; omega) (by dsimp only; omega) _ _ _ _ _ h5

/-- Two files of 10 bytes are as much as fits into 25 bytes and four files. -/
example (t t' : Dataset) (draws rest : List Nat) (o : Except PyErr (Nat × Nat))
    (h : fillFiles Nat.log2 [] 25 4 [10, 10, 10, 1, 1] (0, 0) (t, draws) = some (o, t', rest)) : ∃ d, o = .ok d ∧ (d.1 : Int) ≤ 25 ∧ (d.2 : Int) ≤ 4 :=
  C124_set_limits Nat.log2 logLike_log2 [] 25 4 (by decide) _ (0, 0) (by decide) (by decide) _ _ _ _ _ h

example : (fillFiles Nat.log2 [] 25 4 [10, 10, 10, 1, 1] (0, 0) ({}, [1, 2, 3])).map (·.1) = some (.ok (20, 2)) := by kernel_rfl

example : (mkdatasetFor Nat.log2 true 60 9 (some (.mk none none 1 (some ([[(10, 6)], [(5, 2), (10, 1)], [(1, 1)]].map
    (fun l => { kind := .inventory (some l) }))) [] none)) ({}, List.range 20)).map (·.1) = some (.ok (80, 9)) := by kernel_rfl

end Verif
