import Verif.Model.MkData
import Verif.Py.IntLemmas
/-!
# C76: sizes of generated test data
-/

namespace Verif

theorem uniformLoop_length (extra : Int) : ∀ (n : Nat) (sz : Int), (uniformLoop extra n sz).length = n
  | 0, _ => rfl
  | n + 1, sz => by simp [uniformLoop, uniformLoop_length]

theorem uniformLoop_small (extra : Int) : ∀ (n : Nat) (sz : Int), n < extra.natAbs →
    uniformLoop extra n sz = List.replicate n sz
  | 0, _, _ => rfl
  | n + 1, sz, h => by
    have hn : ¬ n + 1 = extra.natAbs := by omega
    unfold uniformLoop
    simp only [if_neg hn]
    rw [uniformLoop_small extra n sz (by omega), List.replicate_succ]

theorem sum_replicate_int (n : Nat) (z : Int) : (List.replicate n z).sum = n * z := by
  induction n with
  | zero => simp
  | succ n ih => rw [List.replicate_succ, List.sum_cons, ih, Int.natCast_succ, Int.add_mul]; omega

theorem sign_natAbs (e : Int) : (e.natAbs : Int) * e.sign = e := by
  rcases Int.lt_trichotomy e 0 with h | h | h
  · rw [Int.sign_eq_neg_one_of_neg h]; omega
  · subst h; rfl
  · rw [Int.sign_eq_one_of_pos h]; omega

theorem uniformLoop_eq (extra : Int) : ∀ (n : Nat) (sz : Int), extra.natAbs ≤ n →
    uniformLoop extra n sz = List.replicate (n - extra.natAbs) sz ++ List.replicate extra.natAbs (sz + extra.sign)
  | 0, sz, h => by
    have : extra.natAbs = 0 := by omega
    rw [this]; rfl
  | n + 1, sz, h => by
    unfold uniformLoop
    by_cases hn : n + 1 = extra.natAbs
    · simp only [if_pos hn]
      rw [uniformLoop_small extra n _ (by omega), ← hn, Nat.sub_self, List.replicate_succ]; rfl
    · simp only [if_neg hn]
      rw [uniformLoop_eq extra n sz (by omega), show n + 1 - extra.natAbs = (n - extra.natAbs) + 1 by omega,
        List.replicate_succ]; rfl

theorem uniformLoop_sum (extra : Int) (n : Nat) (sz : Int) : (uniformLoop extra n sz).sum =
    n * sz + if extra.natAbs ≤ n then extra else 0 := by
  by_cases h : extra.natAbs ≤ n
  · rw [if_pos h, uniformLoop_eq extra n sz h, List.sum_append, sum_replicate_int, sum_replicate_int, Int.mul_add,
      sign_natAbs, Int.ofNat_sub h, Int.sub_mul]
    omega
  · rw [if_neg h, uniformLoop_small extra n sz (by omega), sum_replicate_int]; omega

/-- The rounded quotient is at most half off. -/
theorem nearest_near (S N : Nat) (hN : 0 < N) :
    2 * ((S : Int) - nearest S N * N) < N ∧ -(N : Int) ≤ 2 * ((S : Int) - nearest S N * N) ∧ 0 ≤ nearest S N := by
  unfold nearest
  have h1 := Nat.div_add_mod (2 * S + N) (2 * N)
  have h2 := Nat.mod_lt (2 * S + N) (show 0 < 2 * N by omega)
  generalize (2 * S + N) / (2 * N) = q at *
  have h3 : 2 * N * q = 2 * (q * N) := by rw [Nat.mul_assoc, Nat.mul_comm N q]
  rw [h3] at h1
  have h4 : ((q * N : Nat) : Int) = (q : Int) * N := Int.natCast_mul q N
  rw [← h4]
  omega

/-- C76, sizes: for a positive number of files, the uniform iterator yields so many sizes, they add up to
the total, and each is less than one byte from the mean. -/
theorem C76_uniform (S N : Nat) (hN : 0 < N) :
    ∃ l, uniformSizes nearest (some S) (some N) = .ok l ∧ l.length = N ∧ l.sum = S ∧
      ∀ s ∈ l, 0 ≤ s ∧ s * N < S + N ∧ S < s * N + N := by
  refine ⟨uniformLoop ((S : Int) - nearest S N * N) N (nearest S N), ?_, uniformLoop_length .., ?_, ?_⟩
  · unfold uniformSizes
    dsimp only
    rw [if_neg (by omega), if_neg (by omega), if_neg (by omega)]
    rfl
  · obtain ⟨h1, h2, _⟩ := nearest_near S N hN
    rw [uniformLoop_sum, if_pos (by omega), Int.mul_comm]; omega
  · intro s hs
    obtain ⟨h1, h2, h3⟩ := nearest_near S N hN
    generalize hq : nearest S N = q at *
    rw [uniformLoop_eq _ _ _ (by omega)] at hs
    generalize hz : q * (N : Int) = z at *
    rcases List.mem_append.mp hs with h | h
    · rw [(List.mem_replicate.mp h).2]
      refine ⟨h3, ?_, ?_⟩ <;> rw [hz] <;> omega
    · obtain ⟨h0, he⟩ := List.mem_replicate.mp h
      rw [he, Int.add_mul, hz]
      rcases Int.lt_trichotomy ((S : Int) - z) 0 with hlt | heq | hgt
      · rw [Int.sign_eq_neg_one_of_neg hlt]
        have hq1 : q ≠ 0 := by
          intro h0; rw [h0, Int.zero_mul] at hz; omega
        omega
      · rw [heq] at h0; exact absurd rfl h0
      · rw [Int.sign_eq_one_of_pos hgt]; omega

/-- C76, whatever the quotient that is computed in floating point: the sizes add up to the total exactly
when it is at most one off. -/
theorem C76_uniform_rounded (quot : Nat → Nat → Int) (S N : Nat) (hN : 0 < N) :
    ∃ l, uniformSizes quot (some S) (some N) = .ok l ∧ l.length = N ∧
      (l.sum = S ↔ quot S N * N ≤ S + N ∧ S ≤ quot S N * N + N) := by
  refine ⟨uniformLoop ((S : Int) - quot S N * N) N (quot S N), ?_, uniformLoop_length .., ?_⟩
  · unfold uniformSizes
    dsimp only
    rw [if_neg (by omega), if_neg (by omega), if_neg (by omega)]
    rfl
  · rw [uniformLoop_sum, Int.mul_comm]
    generalize quot S N * (N : Int) = z
    split <;> omega

/-- C76: without totals there are no sizes. -/
theorem C76_uniform_raises (quot : Nat → Nat → Int) (tz nf : Option Int) :
    (∃ e, uniformSizes quot tz nf = .error e) ↔ ∀ S N : Nat, tz = some (S : Int) → nf = some (N : Int) → N = 0 := by
  unfold uniformSizes
  cases tz with
  | none => exact ⟨fun _ _ _ h => (by cases h), fun _ => ⟨_, rfl⟩⟩
  | some tz =>
    dsimp only
    by_cases h1 : tz < 0
    · rw [if_pos h1]
      exact ⟨fun _ S _ h => by cases h; omega, fun _ => ⟨_, rfl⟩⟩
    · rw [if_neg h1]
      cases nf with
      | none => exact ⟨fun _ _ _ _ h => (by cases h), fun _ => ⟨_, rfl⟩⟩
      | some nf =>
        dsimp only
        by_cases h2 : nf < 0
        · rw [if_pos h2]
          exact ⟨fun _ _ N _ h => by cases h; omega, fun _ => ⟨_, rfl⟩⟩
        · rw [if_neg h2]
          by_cases h3 : nf = 0
          · rw [if_pos h3]
            exact ⟨fun _ _ N _ h => by cases h; omega, fun _ => ⟨_, rfl⟩⟩
          · rw [if_neg h3]
            refine ⟨fun h => (by obtain ⟨e, h⟩ := h; cases h), fun h => ?_⟩
            have := h tz.toNat nf.toNat (by congr 1; omega) (by congr 1; omega)
            omega

example : uniformSizes nearest (some 11) (some 4) = .ok [3, 3, 3, 2] := by decide
example : uniformSizes nearest (some 9) (some 4) = .ok [2, 2, 2, 3] := by decide
example : uniformSizes nearest (some 1) (some 2) = .ok [1, 0] := by decide

/-! ## The inventory iterator -/

theorem mem_insertDown (n m : Nat) : ∀ l, m ∈ insertDown n l ↔ m = n ∨ m ∈ l
  | [] => by simp [insertDown]
  | k :: l => by
    unfold insertDown
    split
    · simp
    · simp only [List.mem_cons, mem_insertDown n m l]
      exact ⟨fun h => by rcases h with h | h | h <;> simp [h], fun h => by rcases h with h | h | h <;> simp [h]⟩

theorem insertDown_perm (n : Nat) : ∀ l, (insertDown n l).Perm (n :: l)
  | [] => .refl _
  | k :: l => by
    unfold insertDown
    split
    · exact .refl _
    · exact ((insertDown_perm n l).cons k).trans (.swap ..)

theorem sortDown_perm : ∀ l, (sortDown l).Perm l
  | [] => .refl _
  | n :: l => (insertDown_perm n _).trans ((sortDown_perm l).cons n)

theorem insertDown_sorted (n : Nat) : ∀ l, l.Pairwise (· ≥ ·) → (insertDown n l).Pairwise (· ≥ ·)
  | [], _ => by simp [insertDown]
  | k :: l, h => by
    unfold insertDown
    obtain ⟨h1, h2⟩ := List.pairwise_cons.mp h
    split
    · rename_i hk
      refine List.pairwise_cons.mpr ⟨fun m hm => ?_, h⟩
      rcases List.mem_cons.mp hm with e | hm
      · rw [e]; exact hk
      · exact Nat.le_trans (h1 m hm) hk
    · rename_i hk
      refine List.pairwise_cons.mpr ⟨fun m hm => ?_, insertDown_sorted n l h2⟩
      rcases (mem_insertDown n m l).mp hm with e | hm
      · rw [e]; exact Nat.le_of_lt (Nat.lt_of_not_le hk)
      · exact h1 m hm

theorem sortDown_sorted : ∀ l, (sortDown l).Pairwise (· ≥ ·)
  | [] => .nil
  | n :: l => insertDown_sorted n _ (sortDown_sorted l)

theorem count_flatMap_replicate (sizes : List (Nat × Nat)) (s : Nat) : ∀ ks : List Nat, ks.Nodup →
    (ks.flatMap (fun sz => List.replicate ((dget sizes sz).getD 0) sz)).count s =
      if s ∈ ks then (dget sizes s).getD 0 else 0
  | [], _ => by simp
  | k :: ks, h => by
    obtain ⟨h1, h2⟩ := List.nodup_cons.mp h
    rw [List.flatMap_cons, List.count_append, count_flatMap_replicate sizes s ks h2, List.count_replicate]
    by_cases hk : k = s
    · subst hk
      simp [h1]
    · have hk' : ¬ s = k := fun e => hk e.symm
      simp [hk, hk']

/-- C76, inventory: of each size as many files as asked for, the largest first. -/
theorem C76_inventory (sizes : List (Nat × Nat)) (hnd : (dkeys sizes).Nodup) :
    (inventorySizes sizes).Pairwise (· ≥ ·) ∧
      ∀ s, (inventorySizes sizes).count s = (dget sizes s).getD 0 := by
  constructor
  · unfold inventorySizes
    have h := sortDown_sorted (sizes.map Prod.fst)
    generalize sortDown (sizes.map Prod.fst) = ks at h
    induction ks with
    | nil => exact .nil
    | cons k ks ih =>
      obtain ⟨h1, h2⟩ := List.pairwise_cons.mp h
      rw [List.flatMap_cons, List.pairwise_append]
      refine ⟨List.pairwise_replicate.mpr (Or.inr (Nat.le_refl _)), ih h2, fun a ha b hb => ?_⟩
      obtain ⟨c, hc, hb⟩ := List.mem_flatMap.mp hb
      rw [(List.mem_replicate.mp ha).2, (List.mem_replicate.mp hb).2]
      exact h1 c hc
  · intro s
    unfold inventorySizes
    have hp := sortDown_perm (sizes.map Prod.fst)
    rw [count_flatMap_replicate _ _ _ (hp.nodup_iff.mpr hnd)]
    by_cases h : s ∈ dkeys sizes
    · rw [if_pos (hp.mem_iff.mpr h)]
    · rw [if_neg (fun h' => h (hp.mem_iff.mp h'))]
      have := (dget_eq_none_iff (d := sizes) (k := s)).mpr h
      rw [this]; rfl

example : inventorySizes [(5, 2), (20, 1), (0, 3)] = [20, 5, 5, 0, 0, 0] := by decide

/-! ## Files -/

/-- What is used of the natural logarithm, rounded down: with `k` its value, `n` lies between `2 ^ k` and
`10 ^ (k + 1)` (as it does between `e ^ k` and `e ^ (k + 1)`). -/
def LogLike (lnFloor : Nat → Nat) : Prop := ∀ n, 0 < n → 2 ^ lnFloor n ≤ n ∧ n < 10 ^ (lnFloor n + 1)

theorem numbered_length {nwd i : Nat} (h0 : 0 < nwd) (h : i < 10 ^ nwd) : (numbered nwd i).length = nwd + 1 := by
  have : (natStr i).length ≤ nwd := (Nat.length_toDigits_le_iff (by decide) h0).mpr h
  unfold numbered
  simp only [List.length_append, List.length_replicate, List.length_cons, List.length_nil]
  omega

theorem fullLines_length {nwd : Nat} (h0 : 0 < nwd) (h98 : nwd ≤ 98) : ∀ n, n < 10 ^ nwd →
    ((List.range n).flatMap (fullLine nwd)).length = 100 * n
  | 0, _ => rfl
  | n + 1, h => by
    rw [List.range_succ, List.flatMap_append, List.length_append, fullLines_length h0 h98 n (by omega)]
    simp only [List.flatMap_cons, List.flatMap_nil, List.append_nil, fullLine, List.length_append,
      List.length_replicate, List.length_cons, List.length_nil]
    rw [numbered_length h0 (by omega)]
    omega

theorem lastLine_length {nwd fl left : Nat} (h0 : 0 < nwd) (h : fl < 10 ^ nwd) : (lastLine nwd fl left).length = left := by
  unfold lastLine
  have hn := numbered_length h0 h
  dsimp only
  by_cases h1 : nwd < left
  · simp only [if_pos h1]
    by_cases h2 : 1 < left - (nwd + 1)
    · simp only [if_pos h2, Nat.lt_add_one, if_true, List.length_append, hn, List.length_replicate, List.length_cons,
        List.length_nil, Nat.zero_lt_one]
      omega
    · simp only [if_neg h2]
      split
      · simp only [List.length_append, hn, List.length_cons, List.length_nil]; omega
      · rw [hn]; omega
  · simp only [if_neg h1]
    by_cases h2 : 1 < left
    · simp only [if_pos h2, if_true, List.length_append, List.length_replicate, List.length_cons, List.length_nil,
        Nat.zero_lt_one]
      omega
    · simp only [if_neg h2]
      split
      · simp only [List.length_append, List.length_cons, List.length_nil]; omega
      · simp only [List.length_nil]; omega

/-- C76, files: a file is created with the size asked for, be it any below `2 ^ 98` bytes. -/
theorem C76_create_file (lnFloor : Nat → Nat) (hln : LogLike lnFloor) (size : Nat) (hs : size < 2 ^ 98) :
    (fileText lnFloor size).length = size := by
  obtain ⟨h1, h2⟩ := hln (size / 100 + 1) (by omega)
  have h98 : lnFloor (size / 100 + 1) + 1 ≤ 98 := by
    have hlt : 2 ^ lnFloor (size / 100 + 1) < 2 ^ 98 := Nat.lt_of_le_of_lt h1 (by omega)
    have := (Nat.pow_lt_pow_iff_right (a := 2) (by decide)).mp hlt
    omega
  unfold fileText
  dsimp only
  rw [List.length_append, fullLines_length (by omega) h98 _ (by omega), lastLine_length (by omega) (by omega)]
  omega

/-- Some function is as supposed. -/
theorem logLike_log2 : LogLike Nat.log2 := by
  intro n hn
  refine ⟨Nat.log2_self_le (by omega), ?_⟩
  have h := Nat.lt_log2_self (n := n)
  exact Nat.lt_of_lt_of_le h (Nat.pow_le_pow_left (by decide) _)

example : (fileText Nat.log2 1234).length = 1234 := C76_create_file _ logLike_log2 _ (by decide)

/-! ## Datasets -/

theorem freshName_fresh {files : List (Str × Str)} {size : Nat} : ∀ {draws : List Nat} {name : Str} {rest : List Nat},
    freshName files size draws = some (name, rest) → dmem files name = false
  | [], _, _, h => by cases h
  | r :: draws, name, rest, h => by
    unfold freshName at h
    dsimp only at h
    by_cases hm : dmem files (hex3 r ++ '_' :: natStr size) = true
    · rw [if_pos hm] at h; exact freshName_fresh h
    · rw [if_neg hm] at h
      cases h
      exact eq_false_of_ne_true hm

theorem dset_fresh : ∀ {files : List (Str × Str)} {name text : Str}, dmem files name = false →
    dset files name text = files ++ [(name, text)]
  | [], _, _, _ => rfl
  | (k, v) :: files, name, text, h => by
    unfold dmem dget at h
    unfold dset
    by_cases hk : k = name
    · rw [if_pos hk] at h; cases h
    · rw [if_neg hk] at h ⊢
      rw [dset_fresh (files := files) h]; rfl

/-- Which files `_fill_with_files` creates: for an initial part of the sizes, and for all of them if they fit. -/
theorem fill_created (lnFloor : Nat → Nat) (hln : LogLike lnFloor) (maxsize maxfiles : Nat) (hmax : maxsize < 2 ^ 98) :
    ∀ (sizes draws : List Nat) (files : List (Str × Str)) (nb nf : Nat) (files' : List (Str × Str)) (nb' nf' : Nat),
    (dkeys files).Nodup →
    fillWithFiles lnFloor maxsize maxfiles sizes draws files nb nf = some (files', nb', nf') →
    ∃ new rest, files' = files ++ new ∧ (dkeys files').Nodup ∧ sizes = new.map (fun f => f.2.length) ++ rest ∧
      nb' = nb + (new.map (fun f => f.2.length)).sum ∧ nf' = nf + new.length ∧
      (new = [] ∨ nb' ≤ maxsize ∧ nf' ≤ maxfiles) ∧
      (nb + sizes.sum ≤ maxsize → nf + sizes.length ≤ maxfiles → rest = [])
  | [], draws, files, nb, nf, files', nb', nf', hnd, h => by
    cases h
    exact ⟨[], [], by simp, hnd, rfl, rfl, rfl, Or.inl rfl, fun _ _ => rfl⟩
  | sz :: sizes, draws, files, nb, nf, files', nb', nf', hnd, h => by
    unfold fillWithFiles at h
    by_cases hb : maxsize < nb + sz ∨ maxfiles ≤ nf
    · rw [if_pos hb] at h
      cases h
      refine ⟨[], sz :: sizes, by simp, hnd, rfl, rfl, rfl, Or.inl rfl, fun h1 h2 => ?_⟩
      rw [List.sum_cons] at h1
      rw [List.length_cons] at h2
      omega
    · rw [if_neg hb] at h
      cases hf : freshName files sz draws with
      | none => rw [hf] at h; cases h
      | some p =>
        obtain ⟨name, draws'⟩ := p
        rw [hf] at h
        dsimp only at h
        have hlen := C76_create_file lnFloor hln sz (by omega)
        obtain ⟨new, rest, h1, h2, h3, h4, h5, h6, h7⟩ := fill_created lnFloor hln maxsize maxfiles hmax sizes draws' _ _ _ _ _ _
          (nodup_dset hnd _ _) h
        rw [dset_fresh (freshName_fresh hf)] at h1
        refine ⟨(name, fileText lnFloor sz) :: new, rest, by rw [h1, List.append_assoc]; rfl, h2, ?_, ?_, ?_, Or.inr ?_, ?_⟩
        · rw [List.map_cons, hlen, List.cons_append, ← h3]
        · rw [List.map_cons, List.sum_cons, hlen, h4, hlen]; omega
        · rw [List.length_cons, h5]; omega
        · rcases h6 with h6 | h6
          · subst h6
            rw [h4, h5, hlen]
            simp only [List.map_nil, List.sum_nil, List.length_nil]
            omega
          · exact h6
        · intro ha hb'
          rw [List.sum_cons] at ha
          rw [List.length_cons] at hb'
          exact h7 (by rw [hlen]; omega) (by omega)

/-- C76: a set of files never gets beyond its limits, whatever the sizes asked for. -/
theorem C76_fill_limits (lnFloor : Nat → Nat) (hln : LogLike lnFloor) (maxsize maxfiles : Nat) (hmax : maxsize < 2 ^ 98)
    (sizes draws : List Nat) (files files' : List (Str × Str)) (nb nf : Nat) (hnd : (dkeys files).Nodup)
    (h : fillWithFiles lnFloor maxsize maxfiles sizes draws files 0 0 = some (files', nb, nf)) :
    ∃ new, files' = files ++ new ∧ (new.map (fun f => f.2.length)).sum = nb ∧ new.length = nf ∧
      nb ≤ maxsize ∧ nf ≤ maxfiles ∧ ∃ rest, sizes = new.map (fun f => f.2.length) ++ rest := by
  obtain ⟨new, rest, h1, _, h3, h4, h5, h6, _⟩ := fill_created lnFloor hln maxsize maxfiles hmax _ _ _ _ _ _ _ _ hnd h
  refine ⟨new, h1, by omega, by omega, ?_, ?_, rest, h3⟩ <;>
  · rcases h6 with h6 | h6
    · subst h6; simp at h4 h5; omega
    · omega

theorem sum_toNat : ∀ l : List Int, (∀ s ∈ l, 0 ≤ s) → ((l.map Int.toNat).sum : Int) = l.sum
  | [], _ => rfl
  | s :: l, h => by
    have := sum_toNat l (fun s hs => h s (List.mem_cons_of_mem _ hs))
    have := h s (List.mem_cons_self ..)
    simp only [List.map_cons, List.sum_cons]
    omega

/-- C76, datasets: when `mkdataset` is done, there are as many new files as asked for, under names of their
own, with the total size asked for, each less than one byte from the mean; files already there are kept. -/
theorem C76_dataset (lnFloor : Nat → Nat) (hln : LogLike lnFloor) (S N : Nat) (hS : 0 < S) (hS' : S < 2 ^ 98) (hN : 0 < N)
    (draws : List Nat) (files files' : List (Str × Str)) (hnd : (dkeys files).Nodup)
    (h : mkdataset lnFloor S N draws files = .ok (some files')) :
    ∃ new, files' = files ++ new ∧ (dkeys files').Nodup ∧ new.length = N ∧ (new.map (fun f => f.2.length)).sum = S ∧
      ∀ f ∈ new, f.2.length * N < S + N ∧ S < f.2.length * N + N := by
  obtain ⟨l, hl, hlen, hsum, hmean⟩ := C76_uniform S N hN
  unfold mkdataset at h
  rw [if_neg (by omega)] at h
  have hl' : uniformSizes nearest (some (S : Int)) (some (N : Int)) = .ok l := hl
  rw [hl'] at h
  dsimp only at h
  cases hf : fillWithFiles lnFloor S N (l.map Int.toNat) draws files 0 0 with
  | none => rw [hf] at h; cases h
  | some p =>
    obtain ⟨f', nb, nf⟩ := p
    rw [hf] at h
    cases h
    have hs := sum_toNat l (fun s hs => (hmean s hs).1)
    rw [hsum] at hs
    obtain ⟨new, rest, h1, h2, h3, h4, h5, h6, h7⟩ := fill_created lnFloor hln S N hS' _ _ _ _ _ _ _ _ hnd hf
    have hr := h7 (by omega) (by rw [List.length_map, hlen]; omega)
    rw [hr, List.append_nil] at h3
    refine ⟨new, h1, h2, ?_, by rw [← h3]; omega, ?_⟩
    · have := congrArg List.length h3
      simp only [List.length_map] at this
      omega
    · intro f hf'
      have hm : f.2.length ∈ l.map Int.toNat := h3 ▸ List.mem_map_of_mem hf'
      obtain ⟨s, hs', he⟩ := List.mem_map.mp hm
      obtain ⟨g0, g1, g2⟩ := hmean s hs'
      have : s = (f.2.length : Int) := by omega
      rw [this, ← Int.natCast_mul] at g1 g2
      generalize f.2.length * N = z at *
      omega

/-- A run. -/
example : ∃ files, mkdataset Nat.log2 250 3 [7, 7, 20, 20, 31] [] = .ok (some files) ∧
    dkeys files = [py!"007_83", py!"014_83", py!"014_84"] := by
  refine ⟨_, rfl, ?_⟩
  decide +kernel

/-- C76, datasets: no request fails, and one for no bytes or no files creates nothing. -/
theorem C76_dataset_total (lnFloor : Nat → Nat) (S N : Nat) (draws : List Nat) (files : List (Str × Str)) :
    (∃ o, mkdataset lnFloor S N draws files = .ok o) ∧
      (S = 0 ∨ N = 0 → mkdataset lnFloor S N draws files = .ok (some files)) := by
  by_cases h0 : S = 0 ∨ N = 0
  · have : mkdataset lnFloor S N draws files = .ok (some files) := by unfold mkdataset; rw [if_pos h0]
    exact ⟨⟨_, this⟩, fun _ => this⟩
  · refine ⟨?_, fun h => absurd h h0⟩
    obtain ⟨l, hl, _⟩ := C76_uniform S N (by omega)
    unfold mkdataset
    rw [if_neg h0, hl]
    exact ⟨_, rfl⟩

example : mkdataset Nat.log2 250 0 [] [(py!"a", py!"b")] = .ok (some [(py!"a", py!"b")]) :=
  (C76_dataset_total Nat.log2 250 0 [] _).2 (.inr rfl)

end Verif
