import Verif.Lemmas.SplitRun
/-!
# Two implementations of the file operations that agree until something bad happens
-/

namespace Verif

variable {σ : Type}

/-- `gs` does what `fs` does in every state that is not bad, and what is bad stays bad. -/
structure Agrees (fs gs : OutFS σ) (Bad : σ → Prop) : Prop where
  keeps : Keeps fs Bad Bad (fun _ => True) (fun _ => True)
  newBag : ∀ {d}, ¬ Bad d → ∀ n, gs.newBag d n = fs.newBag d n
  finish : ∀ d n, gs.finish d n = fs.finish d n
  exists_ : ∀ {d}, ¬ Bad d → ∀ p, gs.exists_ d p = fs.exists_ d p
  isdir : ∀ {d}, ¬ Bad d → ∀ p, gs.isdir d p = fs.isdir d p
  isfile : ∀ {d}, ¬ Bad d → ∀ p, gs.isfile d p = fs.isfile d p
  mkdir : ∀ {d}, ¬ Bad d → ∀ p, gs.mkdir d p = fs.mkdir d p
  makedirs : ∀ {d}, ¬ Bad d → ∀ p, gs.makedirs d p = fs.makedirs d p
  write : ∀ {d}, ¬ Bad d → ∀ p c, gs.write d p c = fs.write d p c
  append : ∀ {d}, ¬ Bad d → ∀ p c, gs.append d p c = fs.append d p c
  replicate : ∀ {d}, ¬ Bad d → ∀ p, gs.replicate d p = fs.replicate d p
  read : ∀ {d}, ¬ Bad d → ∀ p, gs.read d p = fs.read d p
  srcRead : ∀ {d}, ¬ Bad d → ∀ p, gs.srcRead d p = fs.srcRead d p

variable {fs gs : OutFS σ} {Bad : σ → Prop}

theorem uses_any (S : Source) (contents : List Str) : Uses (fun _ => True) S contents :=
  ⟨⟨trivial, trivial, trivial, trivial⟩, fun _ _ => trivial, fun _ _ => trivial, fun _ _ _ _ => trivial, fun _ _ => ⟨trivial, trivial⟩⟩

theorem agree_recordHashes (A : Agrees fs gs Bad) (f : Str) (hs : List (Str × Str)) (d : σ)
    (hb : ¬ Bad (recordHashesRun fs f hs d).2) : recordHashesRun gs f hs d = recordHashesRun fs f hs d := by
  induction hs generalizing d with
  | nil => rfl
  | cons ah hs ih =>
    have hd : ¬ Bad d := fun h => hb (keeps_recordHashes A.keeps (fun _ _ => trivial) h)
    simp only [recordHashesRun] at hb ⊢
    rw [A.append hd]
    cases ha : fs.append d (manPath (manType f) ah.1) (hashLine ah.2 f) with
    | error e => rfl
    | ok x =>
      rw [ha] at hb
      exact ih x hb

theorem agree_ensureDir (A : Agrees fs gs Bad) {d : σ} (hd : ¬ Bad d) (p : Path) : ensureDir gs d p = ensureDir fs d p := by
  unfold ensureDir
  rw [A.exists_ hd, A.makedirs hd]

theorem agree_putEntry (A : Agrees fs gs Bad) (S : Source) (blen : Str → Nat) (n f : Str) (s : PState σ)
    (hb : ¬ Bad (putEntryRun fs S blen n s f).2.disk) : putEntryRun gs S blen n s f = putEntryRun fs S blen n s f := by
  have hd : ¬ Bad s.disk := fun h => hb (keeps_putEntry A.keeps ⟨trivial, trivial⟩ (fun _ _ => trivial) h)
  simp only [putEntryRun] at hb ⊢
  rw [agree_ensureDir A hd, agree_ensureDir A hd]
  split
  · rfl
  · rename_i h1
    rw [if_neg h1] at hb
    split
    · rfl
    · rename_i h2
      rw [if_neg h2] at hb
      cases he : ensureDir fs s.disk (comps f).dropLast with
      | error e => rfl
      | ok d =>
        rw [he] at hb
        simp only at hb ⊢
        have k2 : Bad d → ∀ {x}, fs.replicate d (comps f) = .ok x → Bad x := fun h _ hx => A.keeps.replicate trivial h hx
        have k3 : ∀ {x}, Bad x → Bad (recordHashesRun fs f (S.hashes f) x).2 :=
          fun h => keeps_recordHashes A.keeps (fun _ _ => trivial) h
        by_cases hbd : Bad d
        · exfalso
          refine hb ?_
          cases hr : fs.replicate d (comps f) with
          | error e => exact hbd
          | ok d2 =>
            simp only
            split
            · exact k2 hbd hr
            · have := k3 (k2 hbd hr)
              cases hq : recordHashesRun fs f (S.hashes f) d2 with
              | mk r d3 =>
                rw [hq] at this
                cases r <;> exact this
        · rw [A.replicate hbd]
          cases hr : fs.replicate d (comps f) with
          | error e => rfl
          | ok d2 =>
            rw [hr] at hb
            simp only at hb ⊢
            by_cases hb2 : Bad d2
            · exfalso
              refine hb ?_
              split
              · exact hb2
              · have := k3 hb2
                cases hq : recordHashesRun fs f (S.hashes f) d2 with
                | mk r d3 =>
                  rw [hq] at this
                  cases r <;> exact this
            · rw [A.isfile hb2]
              split
              · rfl
              · rename_i h3
                rw [if_neg h3] at hb
                rw [A.read hb2, agree_recordHashes A]
                intro h4
                refine hb ?_
                cases hq : recordHashesRun fs f (S.hashes f) d2 with
                | mk r d3 =>
                  rw [hq] at h4
                  cases r <;> exact h4

theorem agree_putEntries (A : Agrees fs gs Bad) (S : Source) (blen : Str → Nat) (n : Str) (es : List Str) (s : PState σ)
    (hb : ¬ Bad (putEntriesRun fs S blen n es s).2.disk) : putEntriesRun gs S blen n es s = putEntriesRun fs S blen n es s := by
  induction es generalizing s with
  | nil => rfl
  | cons f es ih =>
    have h1 : ¬ Bad (putEntryRun fs S blen n s f).2.disk := by
      intro h
      refine hb ?_
      simp only [putEntriesRun]
      cases hq : putEntryRun fs S blen n s f with
      | mk r s1 =>
        rw [hq] at h
        cases r with
        | error e => exact h
        | ok u => exact keeps_putEntries A.keeps (fun _ _ => ⟨trivial, trivial⟩) (fun _ _ _ _ => trivial) h
    simp only [putEntriesRun] at hb ⊢
    rw [agree_putEntry A _ _ _ _ _ h1]
    cases hq : putEntryRun fs S blen n s f with
    | mk r s1 =>
      rw [hq] at hb
      cases r with
      | error e => rfl
      | ok u => exact ih s1 hb

theorem agree_emptyManifests (A : Agrees fs gs Bad) (algs : List Str) (d : σ) (hb : ¬ Bad (emptyManifestsRun fs algs d).2) :
    emptyManifestsRun gs algs d = emptyManifestsRun fs algs d := by
  induction algs generalizing d with
  | nil => rfl
  | cons a algs ih =>
    have hd : ¬ Bad d := fun h => hb (keeps_emptyManifests A.keeps (fun _ _ => trivial) h)
    simp only [emptyManifestsRun] at hb ⊢
    rw [A.write hd]
    cases ha : fs.write d (manPath py!"manifest" a) [] with
    | error e => rfl
    | ok x =>
      rw [ha] at hb
      exact ih x hb

theorem agree_startBag (A : Agrees fs gs Bad) (S : Source) (n : Str) (d : σ) (hb : ¬ Bad (startBagRun fs S n d).2) :
    startBagRun gs S n d = startBagRun fs S n d := by
  have hd : ¬ Bad d := fun h => hb (keeps_startBag A.keeps trivial (uses_any S []) h).1
  simp only [startBagRun] at hb ⊢
  rw [A.newBag hd]
  cases h1 : fs.newBag d n with
  | error e => rfl
  | ok d1 =>
    rw [h1] at hb
    simp only at hb ⊢
    have last : ∀ {d3}, Bad d3 → Bad (if S.tree.exists [py!"bagit.txt"] = true then
        match fs.replicate d3 [py!"bagit.txt"] with
        | .error e => ((.error e, d3) : Outcome Unit σ)
        | .ok d => (.ok (), d)
      else (.error .valueError, d3)).2 := by
      intro d3 h
      split
      · cases h4 : fs.replicate d3 [py!"bagit.txt"] with
        | error e => exact h
        | ok d4 => exact A.keeps.replicate trivial h h4
      · exact h
    have mid : ∀ {d2}, Bad d2 → Bad (match emptyManifestsRun fs S.algs d2 with
        | (.error e, d) => ((.error e, d) : Outcome Unit σ)
        | (.ok _, d) => if S.tree.exists [py!"bagit.txt"] = true then
            match fs.replicate d [py!"bagit.txt"] with
            | .error e => (.error e, d)
            | .ok d => (.ok (), d)
          else (.error .valueError, d)).2 := by
      intro d2 h
      have := keeps_emptyManifests A.keeps (algs := S.algs) (fun _ _ => trivial) h
      cases h3 : emptyManifestsRun fs S.algs d2 with
      | mk r d3 =>
        rw [h3] at this
        cases r with
        | error e => exact this
        | ok u => exact last this
    have hd1 : ¬ Bad d1 := by
      intro h
      refine hb ?_
      cases h2 : fs.mkdir d1 [py!"data"] with
      | error e => exact h
      | ok d2 => exact mid (A.keeps.mkdir trivial h h2)
    rw [A.mkdir hd1]
    cases h2 : fs.mkdir d1 [py!"data"] with
    | error e => rfl
    | ok d2 =>
      rw [h2] at hb
      simp only at hb ⊢
      have hm : ¬ Bad (emptyManifestsRun fs S.algs d2).2 := by
        intro h
        refine hb ?_
        cases h3 : emptyManifestsRun fs S.algs d2 with
        | mk r d3 =>
          rw [h3] at h
          cases r with
          | error e => exact h
          | ok u => exact last h
      rw [agree_emptyManifests A _ _ hm]
      cases h3 : emptyManifestsRun fs S.algs d2 with
      | mk r d3 =>
        rw [h3] at hm
        cases r with
        | error e => rfl
        | ok u =>
          simp only
          split
          · rw [A.replicate hm]
          · rfl

theorem agree_writeHeadFiles (A : Agrees fs gs Bad) (S : Source) (members : List Str) (dest : List (Str × Str)) (d : σ)
    (hb : ¬ Bad (writeHeadFilesRun fs S members dest d).2) :
    writeHeadFilesRun gs S members dest d = writeHeadFilesRun fs S members dest d := by
  have hd : ¬ Bad d := fun h => hb (keeps_writeHeadFiles A.keeps (uses_any S []) h)
  simp only [writeHeadFilesRun] at hb ⊢
  rw [A.isdir hd, A.mkdir hd]
  cases h1 : (if fs.isdir d [py!"multibag"] = true then Except.ok d else fs.mkdir d [py!"multibag"]) with
  | error e => rfl
  | ok d1 =>
    rw [h1] at hb
    simp only at hb ⊢
    have e4 : ∀ {d4}, Bad d4 → Bad (if (fs.srcRead d4 [py!"bag-info.txt"]).isSome = true then ((.ok (), d4) : Outcome Unit σ)
        else (.error .osError, d4)).2 := by
      intro d4 h
      split <;> exact h
    have e3 : ∀ {d3}, Bad d3 → Bad (match fs.write d3 [py!"multibag", py!"aggregation-info.txt"]
            (copiedText S.mode ((fs.srcRead d3 [py!"bag-info.txt"]).getD [])) with
        | .error e => ((.error e, d3) : Outcome Unit σ)
        | .ok d => if (fs.srcRead d [py!"bag-info.txt"]).isSome then (.ok (), d) else (.error .osError, d)).2 := by
      intro d3 h
      cases h4 : fs.write d3 [py!"multibag", py!"aggregation-info.txt"]
          (copiedText S.mode ((fs.srcRead d3 [py!"bag-info.txt"]).getD [])) with
      | error e => exact h
      | ok d4 => exact e4 (A.keeps.write trivial h h4)
    have e2 : ∀ {d2}, Bad d2 → Bad (match fs.write d2 [py!"multibag", py!"file-lookup.tsv"] (lookupText dest) with
        | .error e => ((.error e, d2) : Outcome Unit σ)
        | .ok d => match fs.write d [py!"multibag", py!"aggregation-info.txt"]
              (copiedText S.mode ((fs.srcRead d [py!"bag-info.txt"]).getD [])) with
            | .error e => (.error e, d)
            | .ok d => if (fs.srcRead d [py!"bag-info.txt"]).isSome then (.ok (), d) else (.error .osError, d)).2 := by
      intro d2 h
      cases h3 : fs.write d2 [py!"multibag", py!"file-lookup.tsv"] (lookupText dest) with
      | error e => exact h
      | ok d3 => exact e3 (A.keeps.write trivial h h3)
    have hd1 : ¬ Bad d1 := by
      intro h
      refine hb ?_
      cases h2 : fs.write d1 [py!"multibag", py!"member-bags.tsv"] (members.map (· ++ ['\n'])).flatten with
      | error e => exact h
      | ok d2 => exact e2 (A.keeps.write trivial h h2)
    rw [A.write hd1]
    cases h2 : fs.write d1 [py!"multibag", py!"member-bags.tsv"] (members.map (· ++ ['\n'])).flatten with
    | error e => rfl
    | ok d2 =>
      rw [h2] at hb
      simp only at hb ⊢
      have hd2 : ¬ Bad d2 := fun h => hb (e2 h)
      rw [A.write hd2]
      cases h3 : fs.write d2 [py!"multibag", py!"file-lookup.tsv"] (lookupText dest) with
      | error e => rfl
      | ok d3 =>
        rw [h3] at hb
        simp only at hb ⊢
        have hd3 : ¬ Bad d3 := fun h => hb (e3 h)
        rw [A.srcRead hd3, A.write hd3]
        cases h4 : fs.write d3 [py!"multibag", py!"aggregation-info.txt"]
            (copiedText S.mode ((fs.srcRead d3 [py!"bag-info.txt"]).getD [])) with
        | error e => rfl
        | ok d4 =>
          rw [h4] at hb
          simp only at hb ⊢
          rw [A.srcRead (fun h => hb (e4 h))]

theorem agree_writeBag (A : Agrees fs gs Bad) (S : Source) (blen : Str → Nat) (o : ApplyOpts) (n : Str) (contents : List Str)
    (ishead : Bool) (members : List Str) (dest : List (Str × Str)) (d : σ)
    (hb : ¬ Bad (writeBagRun fs S blen o n contents ishead members dest d).2) :
    writeBagRun gs S blen o n contents ishead members dest d = writeBagRun fs S blen o n contents ishead members dest d := by
  simp only [writeBagRun] at hb ⊢
  have e3 : ∀ {x : σ} {dst : List (Str × Str)}, Bad x →
      Bad (match (if ishead then writeHeadFilesRun fs S members dst x else ((.ok (), x) : Outcome Unit σ)) with
        | (.error e, d) => ((.error e, d) : Outcome (List (Str × Str)) σ)
        | (.ok _, d) => (.ok dst, fs.finish d n)).2 := by
    intro x dst h
    cases ishead with
    | false => exact A.keeps.finish h
    | true =>
      simp only [if_true]
      have := keeps_writeHeadFiles A.keeps (S := S) (members := members) (dest := dst) (uses_any S []) h
      cases hh : writeHeadFilesRun fs S members dst x with
      | mk r d4 =>
        rw [hh] at this
        cases r with
        | error e => exact this
        | ok _ => exact A.keeps.finish this
  have e2 : ∀ {s : PState σ}, Bad s.disk → Bad (match bagInfoFields S o n ishead s.size s.count with
      | .error e => ((.error e, s.disk) : Outcome (List (Str × Str)) σ)
      | .ok fields =>
        match fs.write s.disk [py!"bag-info.txt"] (fieldsText fields) with
        | .error e => (.error e, s.disk)
        | .ok d =>
          match (if ishead then writeHeadFilesRun fs S members s.dest d else (.ok (), d)) with
          | (.error e, d) => (.error e, d)
          | (.ok _, d) => (.ok s.dest, fs.finish d n)).2 := by
    intro s h
    cases bagInfoFields S o n ishead s.size s.count with
    | error e => exact h
    | ok fields =>
      simp only
      cases hw : fs.write s.disk [py!"bag-info.txt"] (fieldsText fields) with
      | error e => exact h
      | ok x => exact e3 (A.keeps.write trivial h hw)
  have e1 : ∀ {x : σ}, Bad x → Bad (match putEntriesRun fs S blen n contents { disk := x, dest := dest } with
      | (.error e, s) => ((.error e, s.disk) : Outcome (List (Str × Str)) σ)
      | (.ok _, s) =>
        match bagInfoFields S o n ishead s.size s.count with
        | .error e => (.error e, s.disk)
        | .ok fields =>
          match fs.write s.disk [py!"bag-info.txt"] (fieldsText fields) with
          | .error e => (.error e, s.disk)
          | .ok d =>
            match (if ishead then writeHeadFilesRun fs S members s.dest d else (.ok (), d)) with
            | (.error e, d) => (.error e, d)
            | (.ok _, d) => (.ok s.dest, fs.finish d n)).2 := by
    intro x h
    have := keeps_putEntries A.keeps (S := S) (blen := blen) (n := n) (es := contents) (s := { disk := x, dest := dest })
      (fun _ _ => ⟨trivial, trivial⟩) (fun _ _ _ _ => trivial) h
    cases hp : putEntriesRun fs S blen n contents { disk := x, dest := dest } with
    | mk r s =>
      rw [hp] at this
      cases r with
      | error e => exact this
      | ok u => exact e2 this
  have h1 : ¬ Bad (startBagRun fs S n d).2 := by
    intro h
    refine hb ?_
    cases hs : startBagRun fs S n d with
    | mk r d1 =>
      rw [hs] at h
      cases r with
      | error e => exact h
      | ok u => exact e1 h
  rw [agree_startBag A _ _ _ h1]
  cases hs : startBagRun fs S n d with
  | mk r d1 =>
    rw [hs] at hb h1
    cases r with
    | error e => rfl
    | ok u =>
      simp only at hb ⊢
      have h2 : ¬ Bad (putEntriesRun fs S blen n contents { disk := d1, dest := dest }).2.disk := by
        intro h
        refine hb ?_
        cases hp : putEntriesRun fs S blen n contents { disk := d1, dest := dest } with
        | mk r s =>
          rw [hp] at h
          cases r with
          | error e => exact h
          | ok u => exact e2 h
      rw [agree_putEntries A _ _ _ _ _ h2]
      cases hp : putEntriesRun fs S blen n contents { disk := d1, dest := dest } with
      | mk r s =>
        rw [hp] at hb h2
        cases r with
        | error e => rfl
        | ok u =>
          simp only at hb ⊢
          cases hf : bagInfoFields S o n ishead s.size s.count with
          | error e => rfl
          | ok fields =>
            rw [hf] at hb
            simp only at hb ⊢
            rw [A.write h2]
            cases hw : fs.write s.disk [py!"bag-info.txt"] (fieldsText fields) with
            | error e => rfl
            | ok x =>
              rw [hw] at hb
              simp only at hb ⊢
              cases ishead with
              | false => simp [A.finish]
              | true =>
                simp only [if_true] at hb ⊢
                have h3 : ¬ Bad (writeHeadFilesRun fs S members s.dest x).2 := by
                  intro h
                  refine hb ?_
                  cases hh : writeHeadFilesRun fs S members s.dest x with
                  | mk r d4 =>
                    rw [hh] at h
                    cases r with
                    | error e => exact h
                    | ok _ => exact A.keeps.finish h
                rw [agree_writeHeadFiles A _ _ _ _ h3]
                cases hh : writeHeadFilesRun fs S members s.dest x with
                | mk r d4 =>
                  cases r with
                  | error e => rfl
                  | ok _ => simp [A.finish]

theorem agree_applyLoop (A : Agrees fs gs Bad) (S : Source) (blen : Str → Nat) (o : ApplyOpts) (plan : List Manifest)
    (names members : List Str) (dest : List (Str × Str)) (d : σ)
    (hb : ¬ Bad (applyLoopRun fs S blen o plan names members dest d).2) :
    applyLoopRun gs S blen o plan names members dest d = applyLoopRun fs S blen o plan names members dest d := by
  induction plan generalizing names members dest d with
  | nil => rfl
  | cons m rest ih =>
    simp only [applyLoopRun] at hb ⊢
    cases hn : names.head?.or m.name with
    | none => rfl
    | some n =>
      rw [hn] at hb
      simp only at hb ⊢
      have h1 : ¬ Bad (writeBagRun fs S blen o n m.contents rest.isEmpty (moveToEnd members n) dest d).2 := by
        intro h
        refine hb ?_
        cases hw : writeBagRun fs S blen o n m.contents rest.isEmpty (moveToEnd members n) dest d with
        | mk r d1 =>
          rw [hw] at h
          cases r with
          | error e => exact h
          | ok dest' => exact keeps_applyLoop A.keeps (fun _ _ => uses_any ..) (fun _ _ => trivial) h
      rw [agree_writeBag A _ _ _ _ _ _ _ _ _ h1]
      cases hw : writeBagRun fs S blen o n m.contents rest.isEmpty (moveToEnd members n) dest d with
      | mk r d1 =>
        rw [hw] at hb
        cases r with
        | error e => rfl
        | ok dest' => exact ih _ _ _ _ hb

theorem agree_applyRun (A : Agrees fs gs Bad) (S : Source) (blen : Str → Nat) (o : ApplyOpts) (plan : List Manifest)
    (names : List Str) (d : σ) (hb : ¬ Bad (applyRun fs S blen o plan names d).2) :
    applyRun gs S blen o plan names d = applyRun fs S blen o plan names d := by
  simp only [applyRun] at hb ⊢
  cases hi : initialIndex S with
  | error e => rfl
  | ok x =>
    rw [hi] at hb
    exact agree_applyLoop A _ _ _ _ _ _ _ _ hb

end Verif
