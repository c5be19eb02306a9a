import Verif.Lemmas.SplitShared
/-!
# Two runs of a split that agree up to some operation

`Splice M F G`: from the same state, `F` and `G` end in the same way or both in states that have the same mark, and they
keep the marks.  With the first `n` operations for a mark, two splits that find the same for their first `n` operations
make the same first `n` operations.
-/

namespace Verif

section
variable {γ τ σ α β : Type}

/-- See above. -/
def Splice (M : γ → τ → Prop) (F G : τ → Except PyErr α × τ) : Prop :=
  ∀ d, (F d = G d ∨ ∃ c, M c (F d).2 ∧ M c (G d).2) ∧ ∀ c, M c d → M c (F d).2 ∧ M c (G d).2

/-- One thing, and then another one unless the first has failed. -/
def andThen (F : τ → Except PyErr α × τ) (k : α → τ → Except PyErr β × τ) (d : τ) : Except PyErr β × τ :=
  match F d with
  | (.error e, d) => (.error e, d)
  | (.ok a, d) => k a d

/-- An operation that changes nothing when it fails. -/
def single (f : τ → Except PyErr τ) (d : τ) : Except PyErr Unit × τ :=
  match f d with
  | .error e => (.error e, d)
  | .ok d => (.ok (), d)

/-- A question, and what is done depending on the answer. -/
def asking (q : τ → α) (K : α → τ → Except PyErr β × τ) (d : τ) : Except PyErr β × τ := K (q d) d

variable {M : γ → τ → Prop}

theorem splice_same {F : τ → Except PyErr α × τ} (h : ∀ c d, M c d → M c (F d).2) : Splice M F F :=
  fun d => ⟨.inl rfl, fun c hc => ⟨h c d hc, h c d hc⟩⟩

theorem splice_ret (r : Except PyErr α) : Splice M (fun d => (r, d)) (fun d => (r, d)) := splice_same fun _ _ h => h

theorem splice_then {F G : τ → Except PyErr α × τ} {k l : α → τ → Except PyErr β × τ} (h : Splice M F G)
    (hk : ∀ a, Splice M (k a) (l a)) : Splice M (andThen F k) (andThen G l) := by
  have kf : ∀ c d, M c (F d).2 → M c (andThen F k d).2 := by
    intro c d hc
    unfold andThen
    cases hF : F d with
    | mk r x =>
      rw [hF] at hc
      cases r with
      | error e => exact hc
      | ok a => exact ((hk a x).2 c hc).1
  have kg : ∀ c d, M c (G d).2 → M c (andThen G l d).2 := by
    intro c d hc
    unfold andThen
    cases hG : G d with
    | mk r x =>
      rw [hG] at hc
      cases r with
      | error e => exact hc
      | ok a => exact ((hk a x).2 c hc).2
  intro d
  refine ⟨?_, fun c hc => ⟨kf c d ((h d).2 c hc).1, kg c d ((h d).2 c hc).2⟩⟩
  rcases (h d).1 with he | ⟨c, h1, h2⟩
  · unfold andThen
    rw [he]
    cases G d with
    | mk r x =>
      cases r with
      | error e => exact .inl rfl
      | ok a => exact (hk a x).1
  · exact .inr ⟨c, kf c d h1, kg c d h2⟩

theorem splice_ask {q r : τ → α} {K L : α → τ → Except PyErr β × τ} (h : ∀ d, (∀ c, ¬ M c d) → q d = r d)
    (hk : ∀ a, Splice M (K a) (L a)) : Splice M (asking q K) (asking r L) := by
  intro d
  have h2 : ∀ c, M c d → M c (K (q d) d).2 ∧ M c (L (r d) d).2 := fun c hc => ⟨((hk _ d).2 c hc).1, ((hk _ d).2 c hc).2⟩
  refine ⟨?_, h2⟩
  by_cases hm : ∃ c, M c d
  · obtain ⟨c, hc⟩ := hm
    exact .inr ⟨c, h2 c hc⟩
  · unfold asking
    rw [h d (fun c hc => hm ⟨c, hc⟩)]
    exact (hk _ d).1

theorem splice_single {f g : τ → Except PyErr τ} (h : ∀ d, (∀ c, ¬ M c d) → f d = g d)
    (kf : ∀ c d x, M c d → f d = .ok x → M c x) (kg : ∀ c d x, M c d → g d = .ok x → M c x) : Splice M (single f) (single g) := by
  intro d
  have h2 : ∀ c, M c d → M c (single f d).2 ∧ M c (single g d).2 := by
    intro c hc
    constructor
    · unfold single
      cases hf : f d with
      | error e => exact hc
      | ok x => exact kf c d x hc hf
    · unfold single
      cases hg : g d with
      | error e => exact hc
      | ok x => exact kg c d x hc hg
  refine ⟨?_, h2⟩
  by_cases hm : ∃ c, M c d
  · obtain ⟨c, hc⟩ := hm
    exact .inr ⟨c, h2 c hc⟩
  · refine .inl ?_
    unfold single
    rw [h d (fun c hc => hm ⟨c, hc⟩)]

theorem splice_ite (b : Prop) [Decidable b] {F G F' G' : τ → Except PyErr α × τ} (h1 : b → Splice M F G) (h2 : ¬ b → Splice M F' G') :
    Splice M (if b then F else F') (if b then G else G') := by
  split
  · exact h1 ‹_›
  · exact h2 ‹_›

end

section
variable {γ σ : Type}

/-- Two ways of doing the file operations that differ only in marked states, and keep the marks. -/
structure Spliced (M : γ → σ → Prop) (fs gs : OutFS σ) : Prop where
  finish : fs.finish = gs.finish ∧ ∀ c d n, M c d → M c (fs.finish d n)
  newBag : ∀ n, Splice M (single fun d => fs.newBag d n) (single fun d => gs.newBag d n)
  mkdir : ∀ p, Splice M (single fun d => fs.mkdir d p) (single fun d => gs.mkdir d p)
  makedirs : ∀ p, Splice M (single fun d => fs.makedirs d p) (single fun d => gs.makedirs d p)
  write : ∀ p c, Splice M (single fun d => fs.write d p c) (single fun d => gs.write d p c)
  append : ∀ p c, Splice M (single fun d => fs.append d p c) (single fun d => gs.append d p c)
  replicate : ∀ p, Splice M (single fun d => fs.replicate d p) (single fun d => gs.replicate d p)
  exists_ : ∀ p d, (∀ c, ¬ M c d) → fs.exists_ d p = gs.exists_ d p
  isdir : ∀ p d, (∀ c, ¬ M c d) → fs.isdir d p = gs.isdir d p
  isfile : ∀ p d, (∀ c, ¬ M c d) → fs.isfile d p = gs.isfile d p
  read : ∀ p d, (∀ c, ¬ M c d) → fs.read d p = gs.read d p
  srcRead : ∀ p d, (∀ c, ¬ M c d) → fs.srcRead d p = gs.srcRead d p

variable {M : γ → σ → Prop} {fs gs : OutFS σ}

theorem recordHashes_then (fs : OutFS σ) (f : Str) (alg h : Str) (rest : List (Str × Str)) :
    recordHashesRun fs f ((alg, h) :: rest) =
      andThen (single fun d => fs.append d (manPath (manType f) alg) (hashLine h f)) fun _ => recordHashesRun fs f rest := by
  funext d
  simp only [recordHashesRun, andThen, single]
  cases fs.append d (manPath (manType f) alg) (hashLine h f) <;> rfl

theorem splice_recordHashes (A : Spliced M fs gs) (f : Str) (hs : List (Str × Str)) :
    Splice M (recordHashesRun fs f hs) (recordHashesRun gs f hs) := by
  induction hs with
  | nil => exact splice_ret _
  | cons ah hs ih =>
    obtain ⟨a, h⟩ := ah
    rw [recordHashes_then, recordHashes_then]
    exact splice_then (A.append _ _) fun _ => ih

theorem emptyManifests_then (fs : OutFS σ) (a : Str) (rest : List Str) :
    emptyManifestsRun fs (a :: rest) = andThen (single fun d => fs.write d (manPath py!"manifest" a) []) fun _ => emptyManifestsRun fs rest := by
  funext d
  simp only [emptyManifestsRun, andThen, single]
  cases fs.write d (manPath py!"manifest" a) [] <;> rfl

theorem splice_emptyManifests (A : Spliced M fs gs) (algs : List Str) : Splice M (emptyManifestsRun fs algs) (emptyManifestsRun gs algs) := by
  induction algs with
  | nil => exact splice_ret _
  | cons a algs ih =>
    rw [emptyManifests_then, emptyManifests_then]
    exact splice_then (A.write _ _) fun _ => ih

theorem ensureDir_then (fs : OutFS σ) (p : Path) :
    (single fun d => ensureDir fs d p) =
      asking (fun d => fs.exists_ d p) fun b => if b = true then fun d => ((.ok (), d) : Outcome Unit σ) else single fun d => fs.makedirs d p := by
  funext d
  simp only [single, ensureDir, asking]
  by_cases h : fs.exists_ d p = true <;> simp [h, single]

theorem splice_ensureDir (A : Spliced M fs gs) (p : Path) :
    Splice M (single fun d => ensureDir fs d p) (single fun d => ensureDir gs d p) := by
  rw [ensureDir_then, ensureDir_then]
  exact splice_ask (A.exists_ p) fun b => splice_ite _ (fun _ => splice_ret _) fun _ => A.makedirs p

theorem startBag_then (fs : OutFS σ) (S : Source) (n : Str) :
    startBagRun fs S n = andThen (single fun d => fs.newBag d n) fun _ => andThen (single fun d => fs.mkdir d [py!"data"]) fun _ =>
      andThen (emptyManifestsRun fs S.algs) fun _ =>
        if S.tree.exists [py!"bagit.txt"] = true then single fun d => fs.replicate d [py!"bagit.txt"] else fun d => (.error .valueError, d) := by
  funext d
  simp only [startBagRun, andThen, single]
  cases fs.newBag d n with
  | error e => rfl
  | ok d1 =>
    simp only
    cases fs.mkdir d1 [py!"data"] with
    | error e => rfl
    | ok d2 =>
      simp only
      cases emptyManifestsRun fs S.algs d2 with
      | mk r d3 =>
        cases r with
        | error e => rfl
        | ok u =>
          simp only
          split
          · simp only [single]
            cases fs.replicate d3 [py!"bagit.txt"] <;> rfl
          · rfl

theorem splice_startBag (A : Spliced M fs gs) (S : Source) (n : Str) : Splice M (startBagRun fs S n) (startBagRun gs S n) := by
  rw [startBag_then, startBag_then]
  exact splice_then (A.newBag n) fun _ => splice_then (A.mkdir _) fun _ => splice_then (splice_emptyManifests A _) fun _ =>
    splice_ite _ (fun _ => A.replicate _) fun _ => splice_ret _

theorem writeHeadFiles_then (fs : OutFS σ) (S : Source) (members : List Str) (dest : List (Str × Str)) :
    writeHeadFilesRun fs S members dest =
      andThen (asking (fun d => fs.isdir d [py!"multibag"]) fun b =>
          if b = true then fun d => ((.ok (), d) : Outcome Unit σ) else single fun d => fs.mkdir d [py!"multibag"]) fun _ =>
        andThen (single fun d => fs.write d [py!"multibag", py!"member-bags.tsv"] (members.map (· ++ ['\n'])).flatten) fun _ =>
          andThen (single fun d => fs.write d [py!"multibag", py!"file-lookup.tsv"] (lookupText dest)) fun _ =>
            andThen (asking (fun d => fs.srcRead d [py!"bag-info.txt"]) fun c => single fun d => fs.write d [py!"multibag", py!"aggregation-info.txt"]
                (copiedText S.mode (c.getD []))) fun _ =>
              asking (fun d => fs.srcRead d [py!"bag-info.txt"]) fun c =>
                if c.isSome = true then fun d => ((.ok (), d) : Outcome Unit σ) else fun d => (.error .osError, d) := by
  funext d
  simp only [writeHeadFilesRun, andThen, asking]
  have e1 : (if fs.isdir d [py!"multibag"] = true then (fun d => ((.ok (), d) : Outcome Unit σ)) else single fun d => fs.mkdir d [py!"multibag"]) d =
      match (if fs.isdir d [py!"multibag"] = true then .ok d else fs.mkdir d [py!"multibag"]) with
      | .error e => (.error e, d)
      | .ok d => (.ok (), d) := by
    split <;> simp [single]
  rw [e1]
  cases (if fs.isdir d [py!"multibag"] = true then Except.ok d else fs.mkdir d [py!"multibag"]) with
  | error e => rfl
  | ok d1 =>
    simp only [single]
    cases fs.write d1 [py!"multibag", py!"member-bags.tsv"] (members.map (· ++ ['\n'])).flatten with
    | error e => rfl
    | ok d2 =>
      simp only
      cases fs.write d2 [py!"multibag", py!"file-lookup.tsv"] (lookupText dest) with
      | error e => rfl
      | ok d3 =>
        simp only
        cases fs.write d3 [py!"multibag", py!"aggregation-info.txt"] (copiedText S.mode ((fs.srcRead d3 [py!"bag-info.txt"]).getD [])) with
        | error e => rfl
        | ok d4 =>
          simp only
          split <;> rfl

theorem splice_writeHeadFiles (A : Spliced M fs gs) (S : Source) (members : List Str) (dest : List (Str × Str)) :
    Splice M (writeHeadFilesRun fs S members dest) (writeHeadFilesRun gs S members dest) := by
  rw [writeHeadFiles_then, writeHeadFiles_then]
  refine splice_then (splice_ask (A.isdir _) fun b => splice_ite _ (fun _ => splice_ret _) fun _ => A.mkdir _) fun _ =>
    splice_then (A.write _ _) fun _ => splice_then (A.write _ _) fun _ =>
      splice_then (splice_ask (A.srcRead _) fun c => A.write _ _) fun _ => splice_ask (A.srcRead _) fun c =>
        splice_ite _ (fun _ => splice_ret _) fun _ => splice_ret _

/-! ## With the counts -/

/-- The mark of the file system. -/
def OfDisk (M : γ → σ → Prop) (c : γ) (s : PState σ) : Prop := M c s.disk

/-- Something done to the file system. -/
def onDisk {α : Type} (F : σ → Outcome α σ) (s : PState σ) : Except PyErr α × PState σ := ((F s.disk).1, { s with disk := (F s.disk).2 })

theorem splice_onDisk {α : Type} {F G : σ → Outcome α σ} (h : Splice M F G) : Splice (OfDisk M) (onDisk F) (onDisk G) := by
  intro s
  refine ⟨?_, fun c hc => (h s.disk).2 c hc⟩
  rcases (h s.disk).1 with he | ⟨c, h1, h2⟩
  · refine .inl ?_
    unfold onDisk
    rw [he]
  · exact .inr ⟨c, h1, h2⟩

/-- The counts and the lookup after a file has been put into the bag. -/
def counted (blen : Str → Nat) (n f : Str) (c : Option Str) (s : PState σ) : Except PyErr Unit × PState σ :=
  (.ok (), { disk := s.disk
             count := if startsWith py!"data/" f then s.count + 1 else s.count
             size := if startsWith py!"data/" f then s.size + blen (c.getD []) else s.size
             dest := dset s.dest f n })

theorem putEntry_then (fs : OutFS σ) (S : Source) (blen : Str → Nat) (n f : Str) :
    (fun s => putEntryRun fs S blen n s f) =
      if S.tree.exists (comps f) = false then fun s => (.ok (), s)
      else if S.tree.isdir (comps f) = true then onDisk (single fun d => ensureDir fs d (comps f))
      else andThen (onDisk (single fun d => ensureDir fs d (comps f).dropLast)) fun _ =>
        andThen (onDisk (single fun d => fs.replicate d (comps f))) fun _ =>
          asking (fun s => fs.isfile s.disk (comps f)) fun b => if b = false then fun s => (.error .runtimeError, s)
            else asking (fun s => fs.read s.disk (comps f)) fun c =>
              andThen (onDisk (recordHashesRun fs f (S.hashes f))) fun _ => counted blen n f c := by
  funext s
  simp only [putEntryRun]
  split
  · rfl
  · split
    · simp only [onDisk, single]
      cases ensureDir fs s.disk (comps f) <;> rfl
    · simp only [andThen, onDisk, single, asking]
      cases ensureDir fs s.disk (comps f).dropLast with
      | error e => rfl
      | ok d =>
        simp only
        cases fs.replicate d (comps f) with
        | error e => rfl
        | ok d2 =>
          simp only
          split
          · rfl
          · simp only [onDisk, asking, andThen]
            cases recordHashesRun fs f (S.hashes f) d2 with
            | mk r d3 => cases r <;> rfl

theorem splice_putEntry (A : Spliced M fs gs) (S : Source) (blen : Str → Nat) (n f : Str) :
    Splice (OfDisk M) (fun s => putEntryRun fs S blen n s f) (fun s => putEntryRun gs S blen n s f) := by
  rw [putEntry_then, putEntry_then]
  refine splice_ite _ (fun _ => splice_ret _) fun _ => splice_ite _ (fun _ => splice_onDisk (splice_ensureDir A _)) fun _ =>
    splice_then (splice_onDisk (splice_ensureDir A _)) fun _ => splice_then (splice_onDisk (A.replicate _)) fun _ =>
      splice_ask (fun s h => A.isfile _ _ h) fun b => splice_ite _ (fun _ => splice_ret _) fun _ =>
        splice_ask (fun s h => A.read _ _ h) fun c => splice_then (splice_onDisk (splice_recordHashes A _ _)) fun _ =>
          splice_same (F := counted blen n f c) fun c d h => h

theorem putEntries_then (fs : OutFS σ) (S : Source) (blen : Str → Nat) (n f : Str) (rest : List Str) :
    putEntriesRun fs S blen n (f :: rest) = andThen (fun s => putEntryRun fs S blen n s f) fun _ => putEntriesRun fs S blen n rest := by
  funext s
  simp only [putEntriesRun, andThen]
  cases putEntryRun fs S blen n s f with
  | mk r s1 => cases r <;> rfl

theorem splice_putEntries (A : Spliced M fs gs) (S : Source) (blen : Str → Nat) (n : Str) (es : List Str) :
    Splice (OfDisk M) (putEntriesRun fs S blen n es) (putEntriesRun gs S blen n es) := by
  induction es with
  | nil => exact splice_ret _
  | cons f es ih =>
    rw [putEntries_then, putEntries_then]
    exact splice_then (splice_putEntry A _ _ _ _) fun _ => ih

/-- Something done with counts that start anew. -/
def fromDisk {α : Type} (F : PState σ → Except PyErr α × PState σ) (dest : List (Str × Str)) (d : σ) :
    Outcome (α × Nat × Nat × List (Str × Str)) σ :=
  match F { disk := d, dest := dest } with
  | (.error e, s) => (.error e, s.disk)
  | (.ok a, s) => (.ok (a, s.size, s.count, s.dest), s.disk)

theorem splice_fromDisk {α : Type} {F G : PState σ → Except PyErr α × PState σ} (h : Splice (OfDisk M) F G) (dest : List (Str × Str)) :
    Splice M (fromDisk F dest) (fromDisk G dest) := by
  have e : ∀ (F : PState σ → Except PyErr α × PState σ) d, (fromDisk F dest d).2 = (F { disk := d, dest := dest }).2.disk := by
    intro F d
    unfold fromDisk
    cases F { disk := d, dest := dest } with
    | mk r s => cases r <;> rfl
  intro d
  rw [e, e]
  refine ⟨?_, fun c hc => (h { disk := d, dest := dest }).2 c hc⟩
  rcases (h { disk := d, dest := dest }).1 with he | ⟨c, h1, h2⟩
  · refine .inl ?_
    unfold fromDisk
    rw [he]
  · exact .inr ⟨c, h1, h2⟩

theorem writeBag_then (fs : OutFS σ) (S : Source) (blen : Str → Nat) (o : ApplyOpts) (n : Str) (contents : List Str) (ishead : Bool)
    (members : List Str) (dest : List (Str × Str)) :
    writeBagRun fs S blen o n contents ishead members dest =
      andThen (startBagRun fs S n) fun _ => andThen (fromDisk (putEntriesRun fs S blen n contents) dest) fun x =>
        andThen (fun d => (bagInfoFields S o n ishead x.2.1 x.2.2.1, d)) fun fields =>
          andThen (single fun d => fs.write d [py!"bag-info.txt"] (fieldsText fields)) fun _ =>
            andThen (if ishead = true then writeHeadFilesRun fs S members x.2.2.2 else fun d => (.ok (), d)) fun _ =>
              fun d => (.ok x.2.2.2, fs.finish d n) := by
  funext d
  simp only [writeBagRun, andThen, fromDisk]
  cases startBagRun fs S n d with
  | mk r d1 =>
    cases r with
    | error e => rfl
    | ok u =>
      simp only
      cases putEntriesRun fs S blen n contents { disk := d1, dest := dest } with
      | mk r s =>
        cases r with
        | error e => rfl
        | ok u =>
          simp only
          cases bagInfoFields S o n ishead s.size s.count with
          | error e => rfl
          | ok fields =>
            simp only [single]
            cases fs.write s.disk [py!"bag-info.txt"] (fieldsText fields) with
            | error e => rfl
            | ok x =>
              cases ishead with
              | false => rfl
              | true =>
                simp only [if_true]
                cases writeHeadFilesRun fs S members s.dest x with
                | mk r d4 => cases r <;> rfl

theorem splice_writeBag (A : Spliced M fs gs) (S : Source) (blen : Str → Nat) (o : ApplyOpts) (n : Str) (contents : List Str) (ishead : Bool)
    (members : List Str) (dest : List (Str × Str)) :
    Splice M (writeBagRun fs S blen o n contents ishead members dest) (writeBagRun gs S blen o n contents ishead members dest) := by
  rw [writeBag_then, writeBag_then]
  refine splice_then (splice_startBag A _ _) fun _ => splice_then (splice_fromDisk (splice_putEntries A _ _ _ _) _) fun x =>
    splice_then (splice_ret _) fun fields => splice_then (A.write _ _) fun _ =>
      splice_then (splice_ite _ (fun _ => splice_writeHeadFiles A _ _ _) fun _ => splice_ret _) fun _ => ?_
  rw [← A.finish.1]
  exact splice_same fun c d h => A.finish.2 c d n h

theorem applyLoop_then (fs : OutFS σ) (S : Source) (blen : Str → Nat) (o : ApplyOpts) (m : Manifest) (rest : List Manifest)
    (names members : List Str) (dest : List (Str × Str)) : applyLoopRun fs S blen o (m :: rest) names members dest =
      match names.head?.or m.name with
      | none => fun d => (.error .typeError, d)
      | some n => andThen (writeBagRun fs S blen o n m.contents rest.isEmpty (moveToEnd members n) dest) fun dest =>
          applyLoopRun fs S blen o rest names.tail (moveToEnd members n) dest := by
  funext d
  simp only [applyLoopRun]
  cases names.head?.or m.name with
  | none => rfl
  | some n =>
    simp only [andThen]
    cases writeBagRun fs S blen o n m.contents rest.isEmpty (moveToEnd members n) dest d with
    | mk r x => cases r <;> rfl

theorem splice_applyLoop (A : Spliced M fs gs) (S : Source) (blen : Str → Nat) (o : ApplyOpts) (plan : List Manifest)
    (names members : List Str) (dest : List (Str × Str)) :
    Splice M (applyLoopRun fs S blen o plan names members dest) (applyLoopRun gs S blen o plan names members dest) := by
  induction plan generalizing names members dest with
  | nil => exact splice_ret _
  | cons m rest ih =>
    rw [applyLoop_then, applyLoop_then]
    cases names.head?.or m.name with
    | none => exact splice_ret _
    | some n => exact splice_then (splice_writeBag A _ _ _ _ _ _ _ _) fun _ => ih _ _ _

theorem splice_applyRun (A : Spliced M fs gs) (S : Source) (blen : Str → Nat) (o : ApplyOpts) (plan : List Manifest) (names : List Str) :
    Splice M (applyRun fs S blen o plan names) (applyRun gs S blen o plan names) := by
  have e : ∀ fs : OutFS σ, applyRun fs S blen o plan names =
      match initialIndex S with
      | .error e => fun d => (.error e, d)
      | .ok x => applyLoopRun fs S blen o plan names x.1 x.2 := by
    intro fs
    funext d
    simp only [applyRun]
    cases initialIndex S <;> rfl
  rw [e, e]
  cases initialIndex S with
  | error e => exact splice_ret _
  | ok x => exact splice_applyLoop A _ _ _ _ _ _ _

end

end Verif
