import Verif.Lemmas.SharedPlay
/-!
# A call that has a turn again and again comes to its end
-/

namespace Verif

/-! ## How many operations a split makes -/

section
variable {τ α β : Type} {μ : τ → Nat}

/-- `F` takes `B` operations at most, by the count `μ`. -/
def Takes (μ : τ → Nat) (B : Nat) (F : τ → Except PyErr α × τ) : Prop := ∀ d, μ (F d).2 ≤ μ d + B

theorem takes_ret (r : Except PyErr α) (B : Nat) : Takes μ B (fun d => (r, d)) := fun _ => Nat.le_add_right _ _

theorem takes_then {F : τ → Except PyErr α × τ} {k : α → τ → Except PyErr β × τ} {B C : Nat} (h : Takes μ B F) (hk : ∀ a, Takes μ C (k a)) :
    Takes μ (B + C) (andThen F k) := by
  intro d
  have h1 := h d
  unfold andThen
  cases hF : F d with
  | mk r x =>
    rw [hF] at h1
    simp only at h1
    cases r with
    | error e => exact Nat.le_trans h1 (by omega)
    | ok a =>
      have h2 := hk a x
      simp only
      omega

theorem takes_ask {q : τ → α} {K : α → τ → Except PyErr β × τ} {B : Nat} (hk : ∀ a, Takes μ B (K a)) : Takes μ B (asking q K) :=
  fun d => hk _ d

theorem takes_ite (b : Prop) [Decidable b] {F G : τ → Except PyErr α × τ} {B : Nat} (h1 : Takes μ B F) (h2 : Takes μ B G) :
    Takes μ B (if b then F else G) := by
  split
  · exact h1
  · exact h2

theorem takes_more {F : τ → Except PyErr α × τ} {B C : Nat} (h : Takes μ B F) (hBC : B ≤ C) : Takes μ C F :=
  fun d => Nat.le_trans (h d) (by omega)

end

/-- How many operations it has made. -/
def SharedSplit.count (s : SharedSplit) : Nat := s.log.length

theorem takes_single {f : SharedSplit → Except PyErr SharedSplit} (h : ∀ d x, f d = .ok x → x.log.length ≤ d.log.length + 1) :
    Takes SharedSplit.count 1 (single f) := by
  intro d
  unfold single
  cases hf : f d with
  | error e => exact Nat.le_add_right _ _
  | ok x => exact h d x hf

theorem did_length {s x : SharedSplit} {t : Tree} {r : Except PyErr SplitDisk} (hx : s.did t r = .ok x) : x.log.length ≤ s.log.length + 1 := by
  unfold SharedSplit.did at hx
  split at hx
  · cases hx
  · cases hx
    simp

section
variable {found : SharedSplit → Tree}

theorem takes_recordHashes (f : Str) (hs : List (Str × Str)) : Takes SharedSplit.count hs.length (recordHashesRun (sharedFS found) f hs) := by
  induction hs with
  | nil => exact takes_ret _ _
  | cons ah hs ih =>
    obtain ⟨a, h⟩ := ah
    rw [recordHashes_then, List.length_cons, Nat.add_comm]
    exact takes_then (takes_single fun _ _ hx => did_length hx) fun _ => ih

theorem takes_emptyManifests (algs : List Str) : Takes SharedSplit.count algs.length (emptyManifestsRun (sharedFS found) algs) := by
  induction algs with
  | nil => exact takes_ret _ _
  | cons a algs ih =>
    rw [emptyManifests_then, List.length_cons, Nat.add_comm]
    exact takes_then (takes_single fun _ _ hx => did_length hx) fun _ => ih

theorem takes_ensureDir (p : Path) : Takes SharedSplit.count 1 (single fun d => ensureDir (sharedFS found) d p) := by
  rw [ensureDir_then]
  exact takes_ask fun b => takes_ite _ (takes_ret _ _) (takes_single fun _ _ hx => did_length hx)

theorem takes_startBag (S : Source) (n : Str) : Takes SharedSplit.count (1 + (1 + (S.algs.length + 1))) (startBagRun (sharedFS found) S n) := by
  rw [startBag_then]
  exact takes_then (takes_single fun _ _ hx => did_length hx) fun _ => takes_then (takes_single fun _ _ hx => did_length hx) fun _ =>
    takes_then (takes_emptyManifests _) fun _ => takes_ite _ (takes_single fun _ _ hx => did_length hx) (takes_ret _ _)

theorem takes_writeHeadFiles (S : Source) (members : List Str) (dest : List (Str × Str)) :
    Takes SharedSplit.count (1 + (1 + (1 + (1 + 0)))) (writeHeadFilesRun (sharedFS found) S members dest) := by
  rw [writeHeadFiles_then]
  exact takes_then (takes_ask fun b => takes_ite _ (takes_ret _ _) (takes_single fun _ _ hx => did_length hx)) fun _ =>
    takes_then (takes_single fun _ _ hx => did_length hx) fun _ => takes_then (takes_single fun _ _ hx => did_length hx) fun _ =>
      takes_then (takes_ask fun _ => takes_single fun _ _ hx => did_length hx) fun _ => takes_ask fun _ =>
        takes_ite _ (takes_ret _ _) (takes_ret _ _)

/-- The count of the split that is being counted with. -/
def stateCount (s : PState SharedSplit) : Nat := s.disk.count

theorem takes_onDisk {α : Type} {F : SharedSplit → Outcome α SharedSplit} {B : Nat} (h : Takes SharedSplit.count B F) :
    Takes stateCount B (onDisk F) := fun s => h s.disk

theorem takes_putEntry (S : Source) (blen : Str → Nat) (n f : Str) :
    Takes stateCount (1 + (1 + ((S.hashes f).length + 0))) (fun s => putEntryRun (sharedFS found) S blen n s f) := by
  rw [putEntry_then]
  refine takes_ite _ (takes_ret _ _) (takes_ite _ (takes_more (takes_onDisk (takes_ensureDir _)) (by omega)) ?_)
  refine takes_then (takes_onDisk (takes_ensureDir _)) fun _ => takes_then (takes_onDisk (takes_single fun _ _ hx => did_length hx)) fun _ =>
    takes_ask fun b => takes_ite _ (takes_ret _ _) (takes_ask fun c => takes_then (takes_onDisk (takes_recordHashes _ _)) fun _ => ?_)
  intro s
  exact Nat.le_refl _

theorem takes_putEntries (S : Source) (es : List Str) :
    ∃ B, ∀ (found : SharedSplit → Tree) blen n, Takes stateCount B (putEntriesRun (sharedFS found) S blen n es) := by
  induction es with
  | nil => exact ⟨0, fun _ _ _ => takes_ret _ _⟩
  | cons f es ih =>
    obtain ⟨B, h⟩ := ih
    refine ⟨1 + (1 + ((S.hashes f).length + 0)) + B, fun found blen n => ?_⟩
    rw [putEntries_then]
    exact takes_then (takes_putEntry _ _ _ _) fun _ => h found blen n

theorem takes_fromDisk {α : Type} {F : PState SharedSplit → Except PyErr α × PState SharedSplit} {B : Nat} (h : Takes stateCount B F)
    (dest : List (Str × Str)) : Takes SharedSplit.count B (fromDisk F dest) := by
  intro d
  have h1 := h { disk := d, dest := dest }
  unfold fromDisk
  cases hF : F { disk := d, dest := dest } with
  | mk r s =>
    rw [hF] at h1
    cases r <;> exact h1

theorem takes_writeBag (S : Source) (contents : List Str) :
    ∃ B, ∀ (found : SharedSplit → Tree) blen o n ishead members dest,
      Takes SharedSplit.count B (writeBagRun (sharedFS found) S blen o n contents ishead members dest) := by
  obtain ⟨B, h⟩ := takes_putEntries S contents
  refine ⟨1 + (1 + (S.algs.length + 1)) + (B + (0 + (1 + (1 + (1 + (1 + (1 + 0))) + 0)))), fun found blen o n ishead members dest => ?_⟩
  rw [writeBag_then]
  refine takes_then (takes_startBag _ _) fun _ => takes_then (takes_fromDisk (h found blen n) _) fun x => takes_then (takes_ret _ _) fun fields =>
    takes_then (takes_single fun _ _ hx => did_length hx) fun _ => takes_then (takes_ite _ (takes_writeHeadFiles _ _ _) (takes_ret _ _)) fun _ => ?_
  intro s
  exact Nat.le_refl _

theorem takes_applyLoop (S : Source) (plan : List Manifest) :
    ∃ B, ∀ (found : SharedSplit → Tree) blen o names members dest,
      Takes SharedSplit.count B (applyLoopRun (sharedFS found) S blen o plan names members dest) := by
  induction plan with
  | nil => exact ⟨0, fun _ _ _ _ _ _ => takes_ret _ _⟩
  | cons m rest ih =>
    obtain ⟨B, h⟩ := ih
    obtain ⟨C, h'⟩ := takes_writeBag S m.contents
    refine ⟨C + B, fun found blen o names members dest => ?_⟩
    rw [applyLoop_then]
    cases names.head?.or m.name with
    | none => exact takes_ret _ _
    | some n => exact takes_then (h' _ _ _ _ _ _ _) fun _ => h _ _ _ _ _ _

end

/-- The number of operations of a split is bounded, whatever it finds. -/
theorem steps_bounded (j : SplitJob) : ∃ B, ∀ seen, (j.steps seen).length ≤ B := by
  obtain ⟨B, h⟩ := takes_applyLoop j.source j.plan
  refine ⟨B + 1, fun seen => ?_⟩
  have hr : (j.run seen).2.log.length ≤ B := by
    unfold SplitJob.run applyRun
    cases initialIndex j.source with
    | error e => exact Nat.zero_le _
    | ok x =>
      have := h (fun s => seen s.log.length) j.blen j.opts j.names x.1 x.2 { src := j.src, outdir := j.outdir }
      simpa [SharedSplit.count] using this
  unfold SplitJob.steps
  rw [List.length_append, List.length_singleton]
  omega

/-- A split that has ended does not depend on what it would find later. -/
theorem steps_all (j : SplitJob) {seen seen' : Nat → Tree} (h : ∀ k < (j.steps seen).length, seen k = seen' k) : j.steps seen' = j.steps seen := by
  have hl : (j.steps seen).length = (j.run seen).2.log.length + 1 := by
    unfold SplitJob.steps
    rw [List.length_append, List.length_singleton]
  rw [hl] at h
  rcases ((splice_applyRun (shared_spliced h) j.source j.blen j.opts j.plan j.names) { src := j.src, outdir := j.outdir }).1 with e | ⟨c, h1, _⟩
  · have e' : j.run seen = j.run seen' := e
    unfold SplitJob.steps
    rw [← e', h _ (Nat.lt_succ_self _)]
  · have h1' : Began ((j.run seen).2.log.length + 1) c (j.run seen).2 := h1
    exact absurd h1'.1 (by omega)

/-! ## Fair orders -/

section
variable {ι κ : Type} [DecidableEq ι] [DecidableEq κ] {W : Tree} {splits : ι → SplitJob} {restores : κ → RestoreJob}

theorem play_append (a b : List (ι ⊕ κ)) {L : List ((ι ⊕ κ) × Tree × Tree)} (h : Chained W L) :
    playAll splits restores (a ++ b) (lastDisk W L) L =
      playAll splits restores b (lastDisk W (playAll splits restores a (lastDisk W L) L)) (playAll splits restores a (lastDisk W L) L) := by
  induction a generalizing L with
  | nil => rfl
  | cons x a ih =>
    cases x with
    | inl i =>
      simp only [List.cons_append, playAll]
      split
      · exact ih h
      · rename_i s hs
        obtain ⟨h1, h2⟩ := chained_snoc h (.inl i) s.2
        have := ih h1
        rw [h2] at this
        exact this
    | inr k =>
      simp only [List.cons_append, playAll]
      obtain ⟨h1, h2⟩ := chained_snoc h (.inr k) ((restoreNow restores L k).turn (lastDisk W L)).2
      have := ih h1
      rw [h2] at this
      exact this

theorem history_ran (sched : Nat → ι ⊕ κ) (n : Nat) : RanAll W splits restores (historyOf W splits restores sched n) :=
  ranAll_play (W := W) _ (L := []) ranAll_nil

theorem history_succ (sched : Nat → ι ⊕ κ) (n : Nat) : historyOf W splits restores sched (n + 1) =
    playAll splits restores [sched n] (lastDisk W (historyOf W splits restores sched n)) (historyOf W splits restores sched n) := by
  unfold historyOf
  rw [List.range_succ, List.map_append]
  exact play_append (W := W) _ _ (L := []) trivial

/-- What a split has found so far, and then what is there now. -/
def soFar (W : Tree) (L : List ((ι ⊕ κ) × Tree × Tree)) (i : ι) (k : Nat) : Tree :=
  (((opsOf L (.inl i)).map (·.1))[k]?).getD (lastDisk W L)

theorem soFar_found (L : List ((ι ⊕ κ) × Tree × Tree)) (i : ι) {k : Nat} (hk : k < (opsOf L (.inl i)).length) :
    foundBy W L (.inl i) k = soFar W L i k := by
  rw [foundBy_at W L _ hk]
  unfold soFar
  rw [List.getElem?_map, List.getElem?_eq_getElem hk]
  rfl

theorem ended_soFar {L : List ((ι ⊕ κ) × Tree × Tree)} {i : ι} (h : SplitEnded W splits L i) :
    (splits i).steps (soFar W L i) = opsOf L (.inl i) := by
  unfold SplitEnded at h
  rw [steps_all (splits i) (seen := foundBy W L (.inl i)) (fun k hk => soFar_found L i (by rw [h]; exact hk)), ← h]

theorem turn_split {L : List ((ι ⊕ κ) × Tree × Tree)} {i : ι} (h : RanAll W splits restores L) :
    (SplitEnded W splits L i ∧ playAll splits restores [.inl i] (lastDisk W L) L = L) ∨
      (opsOf (playAll splits restores [.inl i] (lastDisk W L) L) (.inl i)).length = (opsOf L (.inl i)).length + 1 := by
  simp only [playAll]
  split
  · rename_i hn
    refine .inl ⟨?_, rfl⟩
    have hn : ((splits i).steps (soFar W L i))[((opsOf L (.inl i)).map (·.1)).length]? = none := hn
    rw [List.length_map] at hn
    have hn := List.getElem?_eq_none_iff.1 hn
    have h1 := steps_all (splits i) (seen := soFar W L i) (seen' := foundBy W L (.inl i))
      (fun k hk => (soFar_found L i (Nat.lt_of_lt_of_le hk hn)).symm)
    unfold SplitEnded
    have h2 := h.split i
    rw [h1] at h2 ⊢
    exact h2.eq_of_length_le hn
  · refine .inr ?_
    rw [opsOf_snoc, if_pos rfl, List.length_append]
    rfl

theorem turn_other {L : List ((ι ⊕ κ) × Tree × Tree)} {x y : ι ⊕ κ} (hne : x ≠ y) :
    opsOf (playAll splits restores [x] (lastDisk W L) L) y = opsOf L y := by
  cases x with
  | inl i =>
    simp only [playAll]
    split
    · rfl
    · rw [opsOf_snoc, if_neg hne]
  | inr k =>
    simp only [playAll]
    rw [opsOf_snoc, if_neg hne]

theorem ended_other {L L' : List ((ι ⊕ κ) × Tree × Tree)} {i : ι} (e : opsOf L' (.inl i) = opsOf L (.inl i)) (h : SplitEnded W splits L i) :
    SplitEnded W splits L' i := by
  unfold SplitEnded foundBy at *
  rw [e]
  exact h

theorem ended_turn {L : List ((ι ⊕ κ) × Tree × Tree)} {i : ι} (h : SplitEnded W splits L i) (x : ι ⊕ κ) :
    SplitEnded W splits (playAll splits restores [x] (lastDisk W L) L) i := by
  by_cases e : x = .inl i
  · subst e
    simp only [playAll]
    split
    · exact h
    · rename_i s hs
      have hs : ((splits i).steps (soFar W L i))[((opsOf L (.inl i)).map (·.1)).length]? = some s := hs
      rw [ended_soFar h, List.length_map, List.getElem?_eq_none (Nat.le_refl _)] at hs
      cases hs
  · exact ended_other (turn_other e) h

theorem split_ends (sched : Nat → ι ⊕ κ) (i : ι) (hf : ∀ n, ∃ k, n ≤ k ∧ sched k = .inl i) :
    ∃ n, ∀ m, n ≤ m → SplitEnded W splits (historyOf W splits restores sched m) i := by
  have stay : ∀ n, SplitEnded W splits (historyOf W splits restores sched n) i → ∀ m, n ≤ m → SplitEnded W splits (historyOf W splits restores sched m) i := by
    intro n h m hm
    induction hm with
    | refl => exact h
    | step _ ih =>
      rw [history_succ]
      exact ended_turn ih _
  by_cases hex : ∃ n, SplitEnded W splits (historyOf W splits restores sched n) i
  · obtain ⟨n, h⟩ := hex
    exact ⟨n, stay n h⟩
  · exfalso
    have mono : ∀ n m, n ≤ m → (opsOf (historyOf W splits restores sched n) (.inl i)).length ≤ (opsOf (historyOf W splits restores sched m) (.inl i)).length := by
      intro n m hm
      induction hm with
      | refl => exact Nat.le_refl _
      | @step m _ ih =>
        refine Nat.le_trans ih ?_
        rw [history_succ]
        by_cases e : sched m = .inl i
        · rw [e]
          rcases turn_split (i := i) (history_ran (W := W) (splits := splits) (restores := restores) sched m) with ⟨h, _⟩ | h
          · exact absurd ⟨m, h⟩ hex
          · rw [h]
            exact Nat.le_succ _
        · rw [turn_other e]
          exact Nat.le_refl _
    have grows : ∀ b, ∃ n, b ≤ (opsOf (historyOf W splits restores sched n) (.inl i)).length := by
      intro b
      induction b with
      | zero => exact ⟨0, Nat.zero_le _⟩
      | succ b ih =>
        obtain ⟨n, hn⟩ := ih
        obtain ⟨k, hk, e⟩ := hf n
        refine ⟨k + 1, ?_⟩
        rw [history_succ, e]
        rcases turn_split (i := i) (history_ran (W := W) (splits := splits) (restores := restores) sched k) with ⟨h, _⟩ | h
        · exact absurd ⟨k, h⟩ hex
        · rw [h]
          have := mono n k hk
          omega
    obtain ⟨B, hB⟩ := steps_bounded (splits i)
    obtain ⟨n, hn⟩ := grows (B + 1)
    have h1 := ((history_ran (W := W) (splits := splits) (restores := restores) sched n).split i).length_le
    have h2 := hB (foundBy W (historyOf W splits restores sched n) (.inl i))
    omega

/-! ## Restores -/

theorem after_snoc {α : Type} (m : Doing α) (l : List Tree) (t : Tree) : m.after (l ++ [t]) = ((m.after l).turn t).1 := by
  induction l generalizing m with
  | nil => rfl
  | cons a l ih => exact ih _

theorem now_turn (L : List ((ι ⊕ κ) × Tree × Tree)) (k : κ) :
    restoreNow restores (playAll splits restores [.inr k] (lastDisk W L) L) k = ((restoreNow restores L k).turn (lastDisk W L)).1 := by
  simp only [playAll]
  show (restores k).doing.after _ = _
  rw [opsOf_snoc, if_pos rfl, List.map_append, List.map_singleton, after_snoc]
  rfl

theorem now_other (L : List ((ι ⊕ κ) × Tree × Tree)) {k : κ} {x : ι ⊕ κ} (hx : x ≠ .inr k) :
    restoreNow restores (playAll splits restores [x] (lastDisk W L) L) k = restoreNow restores L k := by
  unfold restoreNow
  rw [turn_other hx]

theorem doing_ends {α : Type} {P : Nat → Prop} (hf : ∀ n, ∃ k, n ≤ k ∧ P k) {s : Nat → Doing α} {t : Nat → Tree}
    (h1 : ∀ n, P n → s (n + 1) = ((s n).turn (t n)).1) (h2 : ∀ n, ¬ P n → s (n + 1) = s n) (m : Doing α) :
    ∀ a, s a = m → ∃ n r, s n = .done r := by
  induction m with
  | done r => exact fun a h => ⟨a, r, h⟩
  | next op k ih =>
    intro a ha
    obtain ⟨b, hb, hP⟩ := hf a
    have go : ∀ d a, s a = .next op k → b = a + d → ∃ n r, s n = .done r := by
      intro d
      induction d with
      | zero =>
        intro a ha e
        have e : b = a := e
        subst e
        have hn := h1 b hP
        rw [ha, Doing.turn] at hn
        split at hn
        · exact ⟨_, _, hn⟩
        · exact ih _ _ hn
      | succ d ihd =>
        intro a ha e
        by_cases hPa : P a
        · have hn := h1 a hPa
          rw [ha, Doing.turn] at hn
          split at hn
          · exact ⟨_, _, hn⟩
          · exact ih _ _ hn
        · exact ihd (a + 1) ((h2 a hPa).trans ha) (by omega)
    exact go (b - a) a ha (by omega)

theorem restore_ends (sched : Nat → ι ⊕ κ) (k : κ) (hf : ∀ n, ∃ m, n ≤ m ∧ sched m = .inr k) :
    ∃ n r, ∀ m, n ≤ m → restoreNow restores (historyOf W splits restores sched m) k = .done r := by
  obtain ⟨n, r, h⟩ := doing_ends hf (s := fun n => restoreNow restores (historyOf W splits restores sched n) k)
    (t := fun n => lastDisk W (historyOf W splits restores sched n))
    (fun n hn => by
      show restoreNow restores (historyOf W splits restores sched (n + 1)) k = _
      rw [history_succ, hn, now_turn])
    (fun n hn => by
      show restoreNow restores (historyOf W splits restores sched (n + 1)) k = _
      rw [history_succ, now_other _ hn]) _ 0 rfl
  refine ⟨n, r, fun m hm => ?_⟩
  induction hm with
  | refl => exact h
  | @step m _ ih =>
    show restoreNow restores (historyOf W splits restores sched (m + 1)) k = _
    rw [history_succ]
    by_cases e : sched m = .inr k
    · rw [e, now_turn, ih]
      rfl
    · rw [now_other _ e, ih]

end

end Verif
