import Verif.Model.SplitRun
import Verif.Lemmas.Link
import Verif.Lemmas.Restorer
/-!
# Runs of a split, whatever their outcome
-/

namespace Verif
open Spec

variable {σ : Type}

/-- What a call returns or raises. -/
def Outcome.result (x : Except PyErr Unit × σ) : Except PyErr σ :=
  match x with
  | (.error e, _) => .error e
  | (.ok _, d) => .ok d

theorem recordHashes_run (fs : OutFS σ) (f : Str) (hs : List (Str × Str)) (d : σ) :
    recordHashes fs f hs d = Outcome.result (recordHashesRun fs f hs d) := by
  induction hs generalizing d with
  | nil => rfl
  | cons ah hs ih =>
    simp only [recordHashes, recordHashesRun]
    cases fs.append d (manPath (manType f) ah.1) (hashLine ah.2 f) with
    | error e => rfl
    | ok x => exact ih x

theorem putEntry_run (fs : OutFS σ) (S : Source) (blen : Str → Nat) (n : Str) (s : PState σ) (f : Str) :
    putEntry fs S blen n s f = Outcome.result (putEntryRun fs S blen n s f) := by
  simp only [putEntry, putEntryRun]
  split
  · rfl
  · split
    · cases ensureDir fs s.disk (comps f) <;> rfl
    · cases ensureDir fs s.disk (comps f).dropLast with
      | error e => rfl
      | ok d =>
        simp only
        cases fs.replicate d (comps f) with
        | error e => rfl
        | ok d =>
          simp only
          split
          · rfl
          · rw [recordHashes_run]
            cases h : recordHashesRun fs f (S.hashes f) d with
            | mk r d' => cases r <;> rfl

theorem putEntries_run (fs : OutFS σ) (S : Source) (blen : Str → Nat) (n : Str) (es : List Str) (s : PState σ) :
    putEntries fs S blen n es s = Outcome.result (putEntriesRun fs S blen n es s) := by
  induction es generalizing s with
  | nil => rfl
  | cons f es ih =>
    simp only [putEntries, putEntriesRun]
    rw [putEntry_run]
    cases h : putEntryRun fs S blen n s f with
    | mk r s' =>
      cases r with
      | error e => rfl
      | ok u => exact ih s'

theorem emptyManifests_run (fs : OutFS σ) (algs : List Str) (d : σ) :
    emptyManifests fs algs d = Outcome.result (emptyManifestsRun fs algs d) := by
  induction algs generalizing d with
  | nil => rfl
  | cons a algs ih =>
    simp only [emptyManifests, emptyManifestsRun]
    cases fs.write d (manPath py!"manifest" a) [] with
    | error e => rfl
    | ok x => exact ih x

theorem startBag_run (fs : OutFS σ) (S : Source) (n : Str) (d : σ) :
    startBag fs S n d = Outcome.result (startBagRun fs S n d) := by
  simp only [startBag, startBagRun]
  cases fs.newBag d n with
  | error e => rfl
  | ok d =>
    simp only
    cases fs.mkdir d [py!"data"] with
    | error e => rfl
    | ok d =>
      simp only
      rw [emptyManifests_run]
      cases h : emptyManifestsRun fs S.algs d with
      | mk r d' =>
        cases r with
        | error e => rfl
        | ok u =>
          simp only [Outcome.result]
          split
          · cases fs.replicate d' [py!"bagit.txt"] <;> rfl
          · rfl

theorem writeHeadFiles_run (fs : OutFS σ) (S : Source) (members : List Str) (dest : List (Str × Str)) (d : σ) :
    writeHeadFiles fs S members dest d = Outcome.result (writeHeadFilesRun fs S members dest d) := by
  simp only [writeHeadFiles, writeHeadFilesRun]
  cases (if fs.isdir d [py!"multibag"] = true then Except.ok d else fs.mkdir d [py!"multibag"]) with
  | error e => rfl
  | ok d =>
    simp only
    cases fs.write d [py!"multibag", py!"member-bags.tsv"] (members.map (· ++ ['\n'])).flatten with
    | error e => rfl
    | ok d =>
      simp only
      cases fs.write d [py!"multibag", py!"file-lookup.tsv"] (lookupText dest) with
      | error e => rfl
      | ok d =>
        simp only
        cases fs.write d [py!"multibag", py!"aggregation-info.txt"]
            (copiedText S.mode ((fs.srcRead d [py!"bag-info.txt"]).getD [])) with
        | error e => rfl
        | ok d => simp only; split <;> rfl

theorem writeBag_run (fs : OutFS σ) (S : Source) (blen : Str → Nat) (o : ApplyOpts) (n : Str)
    (contents : List Str) (ishead : Bool) (members : List Str) (dest : List (Str × Str)) (d : σ) :
    writeBag fs S blen o n contents ishead members dest d =
      (match writeBagRun fs S blen o n contents ishead members dest d with
        | (.error e, _) => .error e
        | (.ok dest, d) => .ok (d, dest)) := by
  simp only [writeBag, writeBagRun]
  rw [startBag_run]
  cases h : startBagRun fs S n d with
  | mk r d' =>
    cases r with
    | error e => rfl
    | ok u =>
      simp only [Outcome.result]
      rw [putEntries_run]
      cases h2 : putEntriesRun fs S blen n contents { disk := d', dest := dest } with
      | mk r s =>
        cases r with
        | error e => rfl
        | ok u =>
          simp only [Outcome.result]
          cases bagInfoFields S o n ishead s.size s.count with
          | error e => rfl
          | ok fields =>
            simp only
            cases fs.write s.disk [py!"bag-info.txt"] (fieldsText fields) with
            | error e => rfl
            | ok d =>
              simp only
              cases ishead with
              | false => rfl
              | true =>
                simp only [if_true]
                rw [writeHeadFiles_run]
                cases h3 : writeHeadFilesRun fs S members s.dest d with
                | mk r d' => cases r <;> rfl

theorem applyLoop_run (fs : OutFS σ) (S : Source) (blen : Str → Nat) (o : ApplyOpts) (plan : List Manifest)
    (names members : List Str) (dest : List (Str × Str)) (d : σ) :
    applyLoop fs S blen o plan names members dest d =
      Outcome.result (applyLoopRun fs S blen o plan names members dest d) := by
  induction plan generalizing names members dest d with
  | nil => rfl
  | cons m rest ih =>
    simp only [applyLoop, applyLoopRun]
    cases names.head?.or m.name with
    | none => rfl
    | some n =>
      simp only
      rw [writeBag_run]
      cases h : writeBagRun fs S blen o n m.contents rest.isEmpty (moveToEnd members n) dest d with
      | mk r d' =>
        cases r with
        | error e => rfl
        | ok dest' => exact ih ..

/-- A run ends as the program of `Verif.Model.Apply` says. -/
theorem applyPlan_run (fs : OutFS σ) (S : Source) (blen : Str → Nat) (o : ApplyOpts) (plan : List Manifest)
    (names : List Str) (d : σ) :
    applyPlan fs S blen o plan names d = Outcome.result (applyRun fs S blen o plan names d) := by
  simp only [applyPlan, applyRun]
  cases initialIndex S with
  | error e => rfl
  | ok x => exact applyLoop_run ..

/-! ## What every run keeps -/

/-- `B` holds between bags and `I` while one is written, for names in `N` and paths in `A`. -/
structure Keeps (fs : OutFS σ) (B I : σ → Prop) (N : Str → Prop) (A : Path → Prop) : Prop where
  weaken : ∀ {d}, I d → B d
  newBag : ∀ {d n x}, B d → N n → fs.newBag d n = .ok x → I x
  finish : ∀ {d n}, I d → B (fs.finish d n)
  mkdir : ∀ {d p x}, A p → I d → fs.mkdir d p = .ok x → I x
  makedirs : ∀ {d p x}, A p → I d → fs.makedirs d p = .ok x → I x
  write : ∀ {d p c x}, A p → I d → fs.write d p c = .ok x → I x
  append : ∀ {d p c x}, A p → I d → fs.append d p c = .ok x → I x
  replicate : ∀ {d p x}, A p → I d → fs.replicate d p = .ok x → I x

variable {fs : OutFS σ} {B I : σ → Prop} {N : Str → Prop} {A : Path → Prop}

theorem keeps_recordHashes (K : Keeps fs B I N A) {f : Str} {hs : List (Str × Str)}
    (hA : ∀ ah ∈ hs, A (manPath (manType f) ah.1)) {d : σ} (h : I d) : I (recordHashesRun fs f hs d).2 := by
  induction hs generalizing d with
  | nil => exact h
  | cons ah hs ih =>
    simp only [recordHashesRun]
    cases ha : fs.append d (manPath (manType f) ah.1) (hashLine ah.2 f) with
    | error e => exact h
    | ok x => exact ih (fun x hx => hA x (List.mem_cons_of_mem _ hx)) (K.append (hA _ (List.mem_cons_self ..)) h ha)

theorem keeps_ensureDir (K : Keeps fs B I N A) {p : Path} (hA : A p) {d x : σ} (h : I d) (he : ensureDir fs d p = .ok x) : I x := by
  unfold ensureDir at he
  split at he
  · cases he; exact h
  · exact K.makedirs hA h he

theorem keeps_putEntry (K : Keeps fs B I N A) {S : Source} {blen : Str → Nat} {n f : Str}
    (hA : A (comps f) ∧ A (comps f).dropLast) (hh : ∀ ah ∈ S.hashes f, A (manPath (manType f) ah.1)) {s : PState σ}
    (h : I s.disk) : I (putEntryRun fs S blen n s f).2.disk := by
  simp only [putEntryRun]
  split
  · exact h
  · split
    · cases he : ensureDir fs s.disk (comps f) with
      | error e => exact h
      | ok x => exact keeps_ensureDir K hA.1 h he
    · cases he : ensureDir fs s.disk (comps f).dropLast with
      | error e => exact h
      | ok d =>
        have h1 := keeps_ensureDir K hA.2 h he
        simp only
        cases hr : fs.replicate d (comps f) with
        | error e => exact h1
        | ok d2 =>
          have h2 := K.replicate hA.1 h1 hr
          simp only
          split
          · exact h2
          · have h3 := keeps_recordHashes K hh h2
            cases hq : recordHashesRun fs f (S.hashes f) d2 with
            | mk r d3 =>
              rw [hq] at h3
              cases r <;> exact h3

theorem keeps_putEntries (K : Keeps fs B I N A) {S : Source} {blen : Str → Nat} {n : Str} {es : List Str}
    (hA : ∀ f ∈ es, A (comps f) ∧ A (comps f).dropLast) (hh : ∀ f ∈ es, ∀ ah ∈ S.hashes f, A (manPath (manType f) ah.1))
    {s : PState σ} (h : I s.disk) : I (putEntriesRun fs S blen n es s).2.disk := by
  induction es generalizing s with
  | nil => exact h
  | cons f es ih =>
    simp only [putEntriesRun]
    have h1 := keeps_putEntry K (blen := blen) (n := n) (hA f (List.mem_cons_self ..)) (hh f (List.mem_cons_self ..)) h
    cases hq : putEntryRun fs S blen n s f with
    | mk r s1 =>
      rw [hq] at h1
      cases r with
      | error e => exact h1
      | ok u => exact ih (fun g hg => hA g (List.mem_cons_of_mem _ hg)) (fun g hg => hh g (List.mem_cons_of_mem _ hg)) h1

theorem keeps_emptyManifests (K : Keeps fs B I N A) {algs : List Str} (hA : ∀ a ∈ algs, A (manPath py!"manifest" a)) {d : σ}
    (h : I d) : I (emptyManifestsRun fs algs d).2 := by
  induction algs generalizing d with
  | nil => exact h
  | cons a algs ih =>
    simp only [emptyManifestsRun]
    cases ha : fs.write d (manPath py!"manifest" a) [] with
    | error e => exact h
    | ok x => exact ih (fun x hx => hA x (List.mem_cons_of_mem _ hx)) (K.write (hA _ (List.mem_cons_self ..)) h ha)

theorem keeps_startBag (K : Keeps fs B I N A) {S : Source} {n : Str} (hn : N n) {contents : List Str} (u : Uses A S contents)
    {d : σ} (h : B d) : B (startBagRun fs S n d).2 ∧ ((startBagRun fs S n d).1 = .ok () → I (startBagRun fs S n d).2) := by
  simp only [startBagRun]
  cases h1 : fs.newBag d n with
  | error e => exact ⟨h, by intro h; cases h⟩
  | ok d1 =>
    have i1 := K.newBag h hn h1
    simp only
    cases h2 : fs.mkdir d1 [py!"data"] with
    | error e => exact ⟨K.weaken i1, by intro h; cases h⟩
    | ok d2 =>
      have i2 := K.mkdir u.fixed.1 i1 h2
      have i3 := keeps_emptyManifests K u.empty i2
      simp only
      cases h3 : emptyManifestsRun fs S.algs d2 with
      | mk r d3 =>
        rw [h3] at i3
        cases r with
        | error e => exact ⟨K.weaken i3, by intro h; cases h⟩
        | ok _ =>
          simp only
          split
          · cases h4 : fs.replicate d3 [py!"bagit.txt"] with
            | error e => exact ⟨K.weaken i3, by intro h; cases h⟩
            | ok d4 =>
              have i4 := K.replicate u.fixed.2.1 i3 h4
              exact ⟨K.weaken i4, fun _ => i4⟩
          · exact ⟨K.weaken i3, by intro h; cases h⟩

theorem keeps_writeHeadFiles (K : Keeps fs B I N A) {S : Source} {members : List Str} {dest : List (Str × Str)}
    {contents : List Str} (u : Uses A S contents) {d : σ} (h : I d) : I (writeHeadFilesRun fs S members dest d).2 := by
  simp only [writeHeadFilesRun]
  cases h1 : (if fs.isdir d [py!"multibag"] = true then Except.ok d else fs.mkdir d [py!"multibag"]) with
  | error e => exact h
  | ok d1 =>
    have i1 : I d1 := by
      split at h1
      · cases h1; exact h
      · exact K.mkdir u.fixed.2.2.2 h h1
    simp only
    cases h2 : fs.write d1 [py!"multibag", py!"member-bags.tsv"] (members.map (· ++ ['\n'])).flatten with
    | error e => exact i1
    | ok d2 =>
      have i2 := K.write (u.head _ (.inl rfl)) i1 h2
      simp only
      cases h3 : fs.write d2 [py!"multibag", py!"file-lookup.tsv"] (lookupText dest) with
      | error e => exact i2
      | ok d3 =>
        have i3 := K.write (u.head _ (.inr (.inl rfl))) i2 h3
        simp only
        cases h4 : fs.write d3 [py!"multibag", py!"aggregation-info.txt"]
            (copiedText S.mode ((fs.srcRead d3 [py!"bag-info.txt"]).getD [])) with
        | error e => exact i3
        | ok d4 =>
          have i4 := K.write (u.head _ (.inr (.inr rfl))) i3 h4
          simp only
          split <;> exact i4

theorem keeps_writeBag (K : Keeps fs B I N A) {S : Source} {blen : Str → Nat} {o : ApplyOpts} {n : Str} (hn : N n)
    {contents : List Str} (u : Uses A S contents) {ishead : Bool} {members : List Str} {dest : List (Str × Str)} {d : σ} (h : B d) :
    B (writeBagRun fs S blen o n contents ishead members dest d).2 := by
  simp only [writeBagRun]
  have h1 := keeps_startBag K hn u h
  cases hs : startBagRun fs S n d with
  | mk r d1 =>
    rw [hs] at h1
    cases r with
    | error e => exact h1.1
    | ok _ =>
      have i1 : I d1 := h1.2 rfl
      simp only
      have i2 := keeps_putEntries K (blen := blen) (n := n) (s := { disk := d1, dest := dest }) u.entry u.hash i1
      cases hp : putEntriesRun fs S blen n contents { disk := d1, dest := dest } with
      | mk r s =>
        rw [hp] at i2
        cases r with
        | error e => exact K.weaken i2
        | ok _ =>
          simp only
          cases bagInfoFields S o n ishead s.size s.count with
          | error e => exact K.weaken i2
          | ok fields =>
            simp only
            cases hw : fs.write s.disk [py!"bag-info.txt"] (fieldsText fields) with
            | error e => exact K.weaken i2
            | ok d3 =>
              have i3 := K.write u.fixed.2.2.1 i2 hw
              simp only
              cases ishead with
              | false => exact K.finish i3
              | true =>
                have i4 := keeps_writeHeadFiles K (members := members) (dest := s.dest) u i3
                simp only [if_true]
                cases hh : writeHeadFilesRun fs S members s.dest d3 with
                | mk r d4 =>
                  rw [hh] at i4
                  cases r with
                  | error e => exact K.weaken i4
                  | ok _ => exact K.finish i4

theorem keeps_applyLoop (K : Keeps fs B I N A) {S : Source} {blen : Str → Nat} {o : ApplyOpts} {plan : List Manifest}
    (u : ∀ m ∈ plan, Uses A S m.contents) {names members : List Str} (hN : ∀ n, some n ∈ chosenNames plan names → N n)
    {dest : List (Str × Str)} {d : σ} (h : B d) : B (applyLoopRun fs S blen o plan names members dest d).2 := by
  induction plan generalizing names members dest d with
  | nil => exact h
  | cons m rest ih =>
    simp only [applyLoopRun]
    cases hn : names.head?.or m.name with
    | none => exact h
    | some n =>
      have h1 := keeps_writeBag K (S := S) (blen := blen) (o := o) (n := n)
        (hN n (by rw [chosenNames, hn]; exact List.mem_cons_self ..)) (u m (List.mem_cons_self ..)) (ishead := rest.isEmpty)
        (members := moveToEnd members n) (dest := dest) h
      simp only
      cases hw : writeBagRun fs S blen o n m.contents rest.isEmpty (moveToEnd members n) dest d with
      | mk r d1 =>
        rw [hw] at h1
        cases r with
        | error e => exact h1
        | ok dest' =>
          exact ih (fun m' hm' => u m' (List.mem_cons_of_mem _ hm'))
            (fun n' hn' => hN n' (by rw [chosenNames]; exact List.mem_cons_of_mem _ hn')) h1

theorem keeps_applyRun (K : Keeps fs B I N A) {S : Source} {blen : Str → Nat} {o : ApplyOpts} {plan : List Manifest}
    (u : ∀ m ∈ plan, Uses A S m.contents) {names : List Str} (hN : ∀ n, some n ∈ chosenNames plan names → N n)
    {d : σ} (h : B d) : B (applyRun fs S blen o plan names d).2 := by
  simp only [applyRun]
  cases initialIndex S with
  | error e => exact h
  | ok x => exact keeps_applyLoop K u hN h

end Verif
