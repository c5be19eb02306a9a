import Verif.Lemmas.MkExact
import Verif.Lemmas.MkEnds
import Verif.Py.KernelRfl
/-!
# C124: datasets made from plans
-/

namespace Verif

open Spec

/-- C124, what is made: whatever the plan, what is drawn, and whatever it comes to, `mkdataset` only adds files and directories:
nothing that is in the destination is changed or replaced, everything new is in the destination or in a new directory, and the name
of a file ends in its size.  If there is no exception, the result is the number of bytes and of files that were made. -/
theorem C124_adds (lnFloor : Nat → Nat) (hln : LogLike lnFloor) (parent : Bool) (totalsize filecount : Int) (plan : Option DirSpec)
    (t t' : Dataset) (draws rest : List Nat) (o : Except PyErr (Nat × Nat))
    (h : mkdatasetFor lnFloor parent totalsize filecount plan (t, draws) = some (o, t', rest)) :
    ∃ new newDirs, Added [] t t' new newDirs ∧ ∀ c, o = .ok c → c = (bytesOf new, new.length) := by
  obtain ⟨c, ⟨new, newDirs, ha, rfl⟩, hc⟩ := adds_makeDataset hln parent _ _ _ _ _ _ h
  refine ⟨new, newDirs, ha, fun c hc' => ?_⟩
  have := hc c hc'
  simpa using this

/-- C124, exactness: if the plan suits what is asked for (`Spec.Suits`), then `mkdataset` does not fail, and it makes exactly
`totalsize` bytes in exactly `filecount` files, and as many directories as the plan asks for.

Missing: plans that do not suit; for those the claim is false (`C124_negation_more` and the theorems after it).  Sizes are below
`2 ^ 98`, and the quotient of line 380 is taken to be exact. -/
theorem C124_exact_partial (lnFloor : Nat → Nat) (hln : LogLike lnFloor) (totalsize filecount : Int) (plan : DirSpec)
    (hs : Suits totalsize filecount plan) (hsmall : totalsize < 2 ^ 98) (t t' : Dataset) (draws rest : List Nat)
    (o : Except PyErr (Nat × Nat)) (h : mkdatasetFor lnFloor true totalsize filecount (some plan) (t, draws) = some (o, t', rest)) :
    ∃ new newDirs, Added [] t t' new newDirs ∧ (bytesOf new : Int) = totalsize ∧ (new.length : Int) = filecount ∧
      newDirs.length = dirsOf plan ∧ o = .ok (bytesOf new, new.length) := by
  obtain ⟨new, newDirs, ha, hc⟩ := C124_adds lnFloor hln true totalsize filecount (some plan) t t' draws rest o h
  unfold mkdatasetFor makeDataset at h
  have e : ((some plan).getD (defaultPlan totalsize filecount)).setTotals totalsize filecount = plan.setTotals totalsize filecount := rfl
  rw [e, if_neg (by decide), (setTotals_fields plan _ _).1, (setTotals_fields plan _ _).2.1] at h
  dsimp only [Option.getD_some] at h
  have hex := fillDir_exact hln (plan.setTotals totalsize filecount).depth [] totalsize filecount
    (plan.setTotals totalsize filecount) (suits_setTotals hs) hsmall
  rcases bind_some h with ⟨e, h4, rfl⟩ | ⟨⟨c, d'⟩, u, draws₁, h4, h5⟩
  · obtain ⟨_, _, h6, _⟩ := hex _ _ _ _ _ h4
    cases h6
  · obtain ⟨_, _, h6, q1, q2, _, _, q3⟩ := hex _ _ _ _ _ h4
    cases h6
    cases h5
    have := hc c rfl
    subst this
    refine ⟨new, newDirs, ha, q1, q2, ?_, rfl⟩
    rw [ha.dirs, List.length_append, dirsOf_setTotals] at q3
    omega

/-- The plan that is used when there is none suits. -/
theorem suits_default {ts tf : Int} (h1 : 0 < ts) (h2 : 0 < tf) : Suits ts tf (defaultPlan ts tf) := by
  have hsays : says { totalsize := some ts, totalfiles := some tf } = some (ts, tf) := by
    show uniformTotals (some ts) (some tf) = _
    unfold uniformTotals
    dsimp only
    rw [if_pos (by omega)]
  have hS : sizeClaims (defaultPlan ts tf) = [(some ts, 1)] := by
    show [(Option.map _ (says { totalsize := some ts, totalfiles := some tf }), 1)] = _
    rw [hsays]
    rfl
  have hF : fileClaims (defaultPlan ts tf) = [(some tf, 1)] := by
    show [(Option.map _ (says { totalsize := some ts, totalfiles := some tf }), 1)] = _
    rw [hsays]
    rfl
  refine ⟨h1, h2, ?_, ?_, ?_, ?_, ?_⟩
  · intro f hf
    have : f = { totalsize := some ts, totalfiles := some tf } := by simpa [defaultPlan, DirSpec.files] using hf
    subst this
    show ∀ a, says { totalsize := some ts, totalfiles := some tf } ≠ some (a, 0)
    rw [hsays]
    intro a ha
    cases ha
    omega
  · rw [hS, hF]
    intro c hc h0
    simp only [List.cons_append, List.nil_append, List.mem_cons, List.not_mem_nil, or_false] at hc
    rcases hc with rfl | rfl <;> cases h0
  · rw [hS]
    simp [claims]
  · rw [hS, hF, if_neg (by simp [claims]), if_pos (show unclaimed [(some tf, 1)] = 0 from rfl)]
    simp [claims]
  · intro s hs
    cases hs

/-- C124, no plan: `mkdataset` without a plan, or with an empty one, makes exactly what is asked for, in the destination itself. -/
theorem C124_default (lnFloor : Nat → Nat) (hln : LogLike lnFloor) (totalsize filecount : Int) (h1 : 0 < totalsize) (h2 : 0 < filecount)
    (hsmall : totalsize < 2 ^ 98) (t t' : Dataset) (draws rest : List Nat) (o : Except PyErr (Nat × Nat))
    (h : mkdatasetFor lnFloor true totalsize filecount none (t, draws) = some (o, t', rest)) :
    ∃ new, Added [] t t' new [] ∧ (bytesOf new : Int) = totalsize ∧ (new.length : Int) = filecount ∧
      o = .ok (bytesOf new, new.length) := by
  obtain ⟨new, newDirs, a1, a2, a3, a4, a5⟩ := C124_exact_partial lnFloor hln totalsize filecount _ (suits_default h1 h2) hsmall t t'
    draws rest o h
  have : newDirs = [] := List.length_eq_zero_iff.1 (by rw [a4]; simp [defaultPlan, dirsOf, dirsOfAll])
  subst this
  exact ⟨new, a1, a2, a3, a5⟩

/-- Sets of files that claim nothing. -/
def plainSets (k : Nat) : List FileSet := List.replicate k {}

theorem suits_plain {k n : Nat} {ts tf : Int} (hpos : 0 < k + n) (h1 : (k + n : Nat) ≤ ts) (h2 : (k + n : Nat) ≤ tf) :
    Suits ts tf (.mk none none 1 (some (plainSets k)) [] (some n)) := by
  have hS : sizeClaims (.mk none none 1 (some (plainSets k)) [] (some n)) = List.replicate (k + n) (none, 1) := by
    show (plainSets k).map _ ++ (List.replicate n DirSpec.empty).map _ = _
    rw [plainSets, List.map_replicate, List.map_replicate]
    exact List.replicate_append_replicate
  have hF : fileClaims (.mk none none 1 (some (plainSets k)) [] (some n)) = List.replicate (k + n) (none, 1) := by
    show (plainSets k).map _ ++ (List.replicate n DirSpec.empty).map _ = _
    rw [plainSets, List.map_replicate, List.map_replicate]
    exact List.replicate_append_replicate
  have hc : ∀ m : Nat, claims (List.replicate m (none, 1)) = 0 := by
    intro m
    induction m with
    | zero => rfl
    | succ m ih => rw [List.replicate_succ]; exact ih
  have hu : ∀ m : Nat, unclaimed (List.replicate m (none, 1)) = m := by
    intro m
    induction m with
    | zero => rfl
    | succ m ih =>
      rw [List.replicate_succ]
      show unclaimed (List.replicate m (none, 1)) + 1 = m + 1
      rw [ih]
  refine ⟨by omega, by omega, ?_, ?_, ?_, ?_, ?_⟩
  · intro f hf
    have hf' : f ∈ plainSets k := hf
    rw [(List.mem_replicate.1 hf').2]
    intro a ha
    cases ha
  · rw [hS, hF]
    intro c hc _
    rcases List.mem_append.1 hc with hc | hc <;> rw [(List.mem_replicate.1 hc).2]
  · rw [hS, hc]
    omega
  · rw [hS, hF, hc, hu, if_neg (by omega), if_neg (by omega)]
    omega
  · intro s hs a b ha hb
    have hs' : s ∈ List.replicate n DirSpec.empty := hs
    rw [(List.mem_replicate.1 hs').2] at ha hb ⊢
    rw [hS] at ha
    rw [hF] at hb
    have ha' := ha.2
    have hb' := hb.2
    rw [hc, hu] at ha' hb'
    exact suits_empty (share_pos (k := ((k + n : Nat) : Int)) (by omega) (by omega) ha')
      (share_pos (k := ((k + n : Nat) : Int)) (by omega) (by omega) hb')

/-- C124, plain plans: with `k` sets of files and `n` directories about which the plan says nothing else, exactly what is asked for
is made, if there are at least as many bytes and files as sets and directories. -/
theorem C124_plain (lnFloor : Nat → Nat) (hln : LogLike lnFloor) (k n : Nat) (hpos : 0 < k + n) (totalsize filecount : Int)
    (h1 : (k + n : Nat) ≤ totalsize) (h2 : (k + n : Nat) ≤ filecount) (hsmall : totalsize < 2 ^ 98)
    (t t' : Dataset) (draws rest : List Nat) (o : Except PyErr (Nat × Nat))
    (h : mkdatasetFor lnFloor true totalsize filecount (some (.mk none none 1 (some (plainSets k)) [] (some n))) (t, draws) =
      some (o, t', rest)) :
    ∃ new newDirs, Added [] t t' new newDirs ∧ (bytesOf new : Int) = totalsize ∧ (new.length : Int) = filecount ∧
      newDirs.length = n ∧ o = .ok (bytesOf new, new.length) := by
  have := C124_exact_partial lnFloor hln totalsize filecount _ (suits_plain hpos h1 h2) hsmall t t' draws rest o h
  simpa [dirsOf] using this

/-- C124, nothing asked for: with no bytes or no files, nothing is made, and there is no exception. -/
theorem C124_nothing (lnFloor : Nat → Nat) (totalsize filecount : Int) (h0 : totalsize ≤ 0 ∨ filecount ≤ 0) (plan : Option DirSpec)
    (t : Dataset) (draws : List Nat) :
    mkdatasetFor lnFloor true totalsize filecount plan (t, draws) = some (.ok (0, 0), t, draws) := by
  unfold mkdatasetFor makeDataset
  rw [if_neg (by decide), (setTotals_fields _ _ _).1, (setTotals_fields _ _ _).2.1]
  dsimp only [Option.getD_some]
  have hd := depth_subdirs ((plan.getD (defaultPlan totalsize filecount)).setTotals totalsize filecount)
  obtain ⟨n, hn⟩ : ∃ n, ((plan.getD (defaultPlan totalsize filecount)).setTotals totalsize filecount).depth = n + 1 :=
    ⟨_, (Nat.sub_add_cancel (show 1 ≤ _ by omega)).symm⟩
  rw [hn]
  unfold fillDir
  rw [if_pos h0]
  rfl

/-- C124, refusals: `OSError` if the directory above the destination is missing, `ValueError` if a plan given to `DatasetMaker` has
no total size; nothing is made. -/
theorem C124_refused (lnFloor : Nat → Nat) (t : Dataset) (draws : List Nat) :
    (∀ plan, makeDataset lnFloor false plan (t, draws) = some (.error .osError, t, draws)) ∧
    ∀ plan, plan.totalsize = none → makeDataset lnFloor true plan (t, draws) = some (.error .valueError, t, draws) := by
  constructor
  · intro plan
    rfl
  · intro plan h
    unfold makeDataset
    rw [if_neg (by decide), h]
    rfl

/-- C124, types: the first set of files in a plan with an unknown type is a `ValueError`, and the first inventory without sizes a
`TypeError`; nothing is made. -/
theorem C124_types (lnFloor : Nat → Nat) (totalsize filecount : Int) (h1 : 0 < totalsize) (h2 : 0 < filecount) (plan : DirSpec)
    (before after : List FileSet) (fs : FileSet) (hp : plan.files = some (before ++ fs :: after)) (hi : fs.iter = none)
    (hb : ∀ f ∈ before, f.iter.isSome = true ∨ f.kind = .uniform ∨ ∃ sizes, f.kind = .inventory (some sizes))
    (t : Dataset) (draws : List Nat) :
    (fs.kind = .other →
      mkdatasetFor lnFloor true totalsize filecount (some plan) (t, draws) = some (.error .valueError, t, draws)) ∧
    (fs.kind = .inventory none →
      mkdatasetFor lnFloor true totalsize filecount (some plan) (t, draws) = some (.error .typeError, t, draws)) := by
  have key : ∀ e, iterFor fs = .error e → resolveIters (before ++ fs :: after) = .error e := by
    intro e he
    clear hp
    induction before with
    | nil =>
      show resolveIters (fs :: after) = _
      unfold resolveIters FileSet.iterOf
      rw [hi]
      simp only [he]
    | cons f before ih =>
      rw [List.cons_append]
      unfold resolveIters
      obtain ⟨it, hit⟩ : ∃ it, f.iterOf = .ok it := by
        unfold FileSet.iterOf
        cases hf : f.iter with
        | some it => exact ⟨it, rfl⟩
        | none =>
          unfold iterFor
          rcases hb f (by simp) with h | h | ⟨s, h⟩
          · rw [hf] at h; cases h
          · rw [h]; exact ⟨_, rfl⟩
          · rw [h]; exact ⟨_, rfl⟩
      rw [hit]
      simp only [ih (fun f hf => hb f (by simp [hf]))]
  have main : ∀ e, iterFor fs = .error e →
      mkdatasetFor lnFloor true totalsize filecount (some plan) (t, draws) = some (.error e, t, draws) := by
    intro e he
    unfold mkdatasetFor makeDataset
    rw [if_neg (by decide), (setTotals_fields _ _ _).1, (setTotals_fields _ _ _).2.1]
    dsimp only [Option.getD_some]
    have hd := depth_subdirs (plan.setTotals totalsize filecount)
    obtain ⟨n, hn⟩ : ∃ n, (plan.setTotals totalsize filecount).depth = n + 1 :=
      ⟨_, (Nat.sub_add_cancel (show 1 ≤ _ by omega)).symm⟩
    have hfiles : (plan.setTotals totalsize filecount).files = plan.files := by cases plan; rfl
    rw [hn]
    unfold fillDir
    rw [if_neg (by omega), hfiles, hp]
    unfold distribute
    rw [Option.getD_some, key e he]
    rfl
  exact ⟨fun h => main _ (by unfold iterFor; rw [h]), fun h => main _ (by unfold iterFor; rw [h])⟩

/-- A set of an unknown type after two others. -/
example (lnFloor : Nat → Nat) :
    mkdatasetFor lnFloor true 10 2 (some (.mk none none 1 (some [{}, { kind := .inventory (some [(3, 2)]) }, { kind := .other }]) [] none))
      ({ files := [], dirs := [] }, []) = some (.error .valueError, { files := [], dirs := [] }, []) :=
  (C124_types lnFloor 10 2 (by decide) (by decide) _ [{}, { kind := .inventory (some [(3, 2)]) }] [] { kind := .other } rfl rfl
    (by simp) _ _).1 rfl

/-- C124, repetition: two runs with the same arguments make files with the same contents in the same order, as many directories, and
end alike, whatever was drawn and whatever was in the destinations; only names differ. -/
theorem C124_repeatable (lnFloor : Nat → Nat) (parent : Bool) (totalsize filecount : Int) (plan : Option DirSpec)
    (t₁ t₁' t₂ t₂' : Dataset) (draws₁ rest₁ draws₂ rest₂ : List Nat) (o₁ o₂ : Except PyErr (Nat × Nat))
    (h₁ : mkdatasetFor lnFloor parent totalsize filecount plan (t₁, draws₁) = some (o₁, t₁', rest₁))
    (h₂ : mkdatasetFor lnFloor parent totalsize filecount plan (t₂, draws₂) = some (o₂, t₂', rest₂)) :
    o₁ = o₂ ∧ ∃ new₁ new₂ dirs₁ dirs₂, t₁'.files = t₁.files ++ new₁ ∧ t₂'.files = t₂.files ++ new₂ ∧ new₁.map (·.2) = new₂.map (·.2) ∧
      t₁'.dirs.length = t₁.dirs.length + dirs₁ ∧ t₂'.dirs.length = t₂.dirs.length + dirs₂ ∧ dirs₁ = dirs₂ := by
  obtain ⟨h3, ⟨n₁, n₂, h4, h5, h6⟩, k, h7, h8⟩ := alike_makeDataset lnFloor parent _ _ _ _ _ _ _ _ _ _ _ h₁ h₂
  refine ⟨?_, n₁, n₂, k, k, h4, h5, h6, h7, h8, rfl⟩
  rcases o₁ with e | a <;> rcases o₂ with e' | b
  · exact congrArg _ h3
  · exact h3.elim
  · exact h3.elim
  · exact congrArg _ h3

/-- C124, the end: names are looked for at random among those of the numbers below `10 * filecount`.  If with some run no more than
that is in the destination, then every run ends in which each of these numbers is drawn again and again. -/
theorem C124_ends (lnFloor : Nat → Nat) (totalsize filecount : Int) (plan : Option DirSpec) (t t₁ t₁' : Dataset)
    (draws₁ rest₁ : List Nat) (o₁ : Except PyErr (Nat × Nat))
    (h₁ : mkdatasetFor lnFloor true totalsize filecount plan (t₁, draws₁) = some (o₁, t₁', rest₁))
    (hroom : (t.files.length + t.dirs.length + ((t₁'.files.length - t₁.files.length) + (t₁'.dirs.length - t₁.dirs.length)) : Nat) ≤
      10 * filecount) (numbers : Nat → Nat) (hfair : Fair (10 * filecount).toNat numbers) :
    ∃ n o t', mkdatasetFor lnFloor true totalsize filecount plan (t, (List.range n).map numbers) = some (o, t', []) := by
  refine (goesOn_makeDataset lnFloor true _).ends (10 * filecount).toNat t ?_ numbers hfair
  intro draws o t' rest h
  obtain ⟨_, n₁, n₂, d₁, d₂, a1, a2, a3, a4, a5, rfl⟩ := C124_repeatable lnFloor true totalsize filecount plan _ _ _ _ _ _ _ _ _ _ h h₁
  have a6 := congrArg List.length a3
  rw [List.length_map, List.length_map] at a6
  have a7 := congrArg List.length a1
  have a8 := congrArg List.length a2
  rw [List.length_append] at a7 a8
  unfold Dataset.size
  omega

/-- C124, the end for plans that suit: with no more than nine directories and other things in the destination for each file, every run
ends in which each number below `10 * filecount` is drawn again and again, and makes what is asked for.

Missing: plans that do not suit, see `C124_negation_ends`, and those with more directories. -/
theorem C124_ends_partial (lnFloor : Nat → Nat) (hln : LogLike lnFloor) (totalsize filecount : Int) (plan : DirSpec)
    (hs : Suits totalsize filecount plan) (hsmall : totalsize < 2 ^ 98) (t : Dataset)
    (hroom : (t.files.length + t.dirs.length + dirsOf plan : Nat) ≤ 9 * filecount)
    (numbers : Nat → Nat) (hfair : Fair (10 * filecount).toNat numbers) :
    ∃ n new newDirs t', mkdatasetFor lnFloor true totalsize filecount (some plan) (t, (List.range n).map numbers) =
      some (.ok (bytesOf new, new.length), t', []) ∧ Added [] t t' new newDirs ∧ (bytesOf new : Int) = totalsize ∧
      (new.length : Int) = filecount ∧ newDirs.length = dirsOf plan := by
  obtain ⟨draws, o, t₁, h₁⟩ := (goesOn_makeDataset lnFloor true
    (((some plan).getD (defaultPlan totalsize filecount)).setTotals totalsize filecount)).can t
  obtain ⟨new, newDirs, ha, _, h2, h3, _⟩ := C124_exact_partial lnFloor hln totalsize filecount plan hs hsmall t t₁ draws [] o h₁
  have e1 := congrArg List.length ha.files
  have e2 := congrArg List.length ha.dirs
  rw [List.length_append] at e1 e2
  obtain ⟨n, o', t', h4⟩ := C124_ends lnFloor totalsize filecount (some plan) t t t₁ draws [] o h₁ (by omega) numbers hfair
  obtain ⟨new', newDirs', a1, a2, a3, a4, rfl⟩ := C124_exact_partial lnFloor hln totalsize filecount plan hs hsmall t t' _ [] o' h4
  exact ⟨n, new', newDirs', t', h4, a1, a2, a3, a4⟩

/-! ## Plans that do not suit -/

/-- What is used of the logarithm below a hundred lines of a file. -/
theorem logLike_one {lnFloor : Nat → Nat} (h : LogLike lnFloor) : lnFloor = fun n => if n = 1 then 0 else lnFloor n := by
  funext n
  split
  · rename_i hn
    subst hn
    have := (h 1 (by decide)).1
    rcases Nat.eq_zero_or_pos (lnFloor 1) with h0 | h0
    · exact h0
    · have := Nat.pow_le_pow_right (show 0 < 2 by decide) h0
      omega
  · rfl

/-- A run that ends in a certain way shows how all end. -/
theorem all_runs {lnFloor : Nat → Nat} {totalsize filecount : Int} {plan : Option DirSpec} {o : Except PyErr (Nat × Nat)}
    {draws : List Nat} (h : (mkdatasetFor lnFloor true totalsize filecount plan ({}, draws)).map (·.1) = some o)
    (t t' : Dataset) (draws' rest : List Nat) (o' : Except PyErr (Nat × Nat))
    (h' : mkdatasetFor lnFloor true totalsize filecount plan (t, draws') = some (o', t', rest)) : o' = o := by
  rcases hr : mkdatasetFor lnFloor true totalsize filecount plan ({}, draws) with _ | ⟨o₁, t₁, rest₁⟩
  · rw [hr] at h
    cases h
  · rw [hr] at h
    injection h with h
    subst h
    exact (C124_repeatable lnFloor true totalsize filecount plan _ _ _ _ _ _ _ _ _ _ h' hr).1

namespace Sample

/-- `{'files': [{'totalsize': 90, 'totalfiles': 3}]}`. -/
def claimsMore : DirSpec := .mk none none 1 (some [{ totalsize := some 90, totalfiles := some 3 }]) [] none
/-- `{'files': [{'totalsize': 90, 'totalfiles': 3}, {}]}`. -/
def claimsMoreTwo : DirSpec := .mk none none 1 (some [{ totalsize := some 90, totalfiles := some 3 }, {}]) [] none
/-- `{'files': [{}, {}]}`. -/
def twoSets : DirSpec := .mk none none 1 (some [{}, {}]) [] none
/-- `{'dirs': 2}`. -/
def twoDirs : DirSpec := .mk none none 1 none [] (some 2)
/-- `{'files': [{'totalfiles': 3}, {}]}`. -/
def threeFiles : DirSpec := .mk none none 1 (some [{ totalfiles := some 3 }, {}]) [] none
/-- `{'files': [{'reps': 3}, {}]}`. -/
def threeTimes : DirSpec := .mk none none 1 (some [{ reps := 3 }, {}]) [] none
/-- `{'files': [{'type': 'inventory', 'sizes': {size: count}}]}`. -/
def inventory (size count : Nat) : DirSpec := .mk none none 1 (some [{ kind := .inventory (some [(size, count)]) }]) [] none
/-- `{'files': [{'type': 'inventory', 'sizes': {2: 2, 3: 1}}], 'dirs': [{'dirs': 2}, {'files': [{}], 'totalsize': 4, 'totalfiles': 2,
'reps': 2}]}`. -/
def nested : DirSpec :=
  .mk none none 1 (some [{ kind := .inventory (some [(2, 2), (3, 1)]) }])
    [.mk none none 1 none [] (some 2), .mk (some 4) (some 2) 2 (some [{}]) [] none] none

end Sample

/-- C124, finding: a plan whose sets claim more than the total is carried out as it is: 90 bytes in 3 files are made when 10 bytes in
2 files are asked for. -/
theorem C124_negation_more (lnFloor : Nat → Nat) (hln : LogLike lnFloor) (t t' : Dataset) (draws rest : List Nat)
    (o : Except PyErr (Nat × Nat)) (h : mkdatasetFor lnFloor true 10 2 (some Sample.claimsMore) (t, draws) = some (o, t', rest)) :
    o = .ok (90, 3) := by
  rw [logLike_one hln] at h
  exact all_runs (draws := [0, 1, 2]) (by kernel_rfl) _ _ _ _ _ h

/-- C124, finding: but if there is another set that claims nothing, `RuntimeError` is raised. -/
theorem C124_negation_runtimeError (lnFloor : Nat → Nat) (hln : LogLike lnFloor) (t t' : Dataset) (draws rest : List Nat)
    (o : Except PyErr (Nat × Nat)) (h : mkdatasetFor lnFloor true 10 2 (some Sample.claimsMoreTwo) (t, draws) = some (o, t', rest)) :
    o = .error .runtimeError := by
  rw [logLike_one hln] at h
  exact all_runs (draws := []) (by kernel_rfl) _ _ _ _ _ h

/-- C124, finding: with more sets than files, `ZeroDivisionError` is raised after the first files were made. -/
theorem C124_negation_zeroDivision (lnFloor : Nat → Nat) (hln : LogLike lnFloor) (t t' : Dataset) (draws rest : List Nat)
    (o : Except PyErr (Nat × Nat)) (h : mkdatasetFor lnFloor true 90 1 (some Sample.twoSets) (t, draws) = some (o, t', rest)) :
    o = .error .zeroDivisionError ∧ t'.files.length = t.files.length + 1 := by
  rw [logLike_one hln] at h
  refine ⟨all_runs (draws := [0]) (by kernel_rfl) _ _ _ _ _ h, ?_⟩
  have hrun : (mkdatasetFor (fun n => if n = 1 then 0 else lnFloor n) true 90 1 (some Sample.twoSets) ({}, [0])).map
      (fun r => r.2.1.files.length) = some 1 := by kernel_rfl
  rcases hr : mkdatasetFor (fun n => if n = 1 then 0 else lnFloor n) true 90 1 (some Sample.twoSets) ({}, [0]) with _ | ⟨o', s, rest'⟩
  · rw [hr] at hrun
    cases hrun
  rw [hr] at hrun
  injection hrun with hs
  dsimp only at hs
  obtain ⟨_, n₁, n₂, _, _, h1, h2, h3, _⟩ := C124_repeatable _ true 90 1 _ _ _ _ _ _ _ _ _ _ _ h hr
  have h4 := congrArg List.length h3
  rw [List.length_map, List.length_map] at h4
  rw [h2] at hs
  rw [h1, List.length_append, h4]
  simpa using hs

/-- C124, finding: with more directories than files, the bytes of the directories that get no file are missing: one file of 45 bytes
when 90 bytes are asked for. -/
theorem C124_negation_less (lnFloor : Nat → Nat) (hln : LogLike lnFloor) (t t' : Dataset) (draws rest : List Nat)
    (o : Except PyErr (Nat × Nat)) (h : mkdatasetFor lnFloor true 90 1 (some Sample.twoDirs) (t, draws) = some (o, t', rest)) :
    o = .ok (45, 1) := by
  rw [logLike_one hln] at h
  exact all_runs (draws := [0, 1, 2]) (by kernel_rfl) _ _ _ _ _ h

/-- C124, finding: what is repeated and claims nothing gets its share each time: 8 bytes are made when 7 are asked for. -/
theorem C124_negation_reps (lnFloor : Nat → Nat) (hln : LogLike lnFloor) (t t' : Dataset) (draws rest : List Nat)
    (o : Except PyErr (Nat × Nat)) (h : mkdatasetFor lnFloor true 7 8 (some Sample.threeTimes) (t, draws) = some (o, t', rest)) :
    o = .ok (8, 8) := by
  rw [logLike_one hln] at h
  exact all_runs (draws := [0, 1, 2, 3, 4, 5, 6, 7]) (by kernel_rfl) _ _ _ _ _ h

/-- C124, finding: a set that claims a number of files but no size is given another number: of 7 files with 20 bytes, the set of the
plan that claims 3 gets 4, of sizes that add up to 10. -/
theorem C124_negation_claim (lnFloor : Nat → Nat) (hln : LogLike lnFloor) (t t' : Dataset) (draws rest : List Nat)
    (o : Except PyErr (Nat × Nat)) (h : mkdatasetFor lnFloor true 20 7 (some Sample.threeFiles) (t, draws) = some (o, t', rest)) :
    o = .ok (20, 7) ∧ ∃ new, t'.files = t.files ++ new ∧ new.map (fun f => f.2.length) = [3, 3, 2, 2] ++ [3, 3, 4] := by
  rw [logLike_one hln] at h
  refine ⟨all_runs (draws := [0, 1, 2, 3, 4, 5, 6]) (by kernel_rfl) _ _ _ _ _ h, ?_⟩
  have hrun : (mkdatasetFor (fun n => if n = 1 then 0 else lnFloor n) true 20 7 (some Sample.threeFiles)
      ({}, [0, 1, 2, 3, 4, 5, 6])).map (fun r => r.2.1.files.map (fun f => f.2.length)) = some [3, 3, 2, 2, 3, 3, 4] := by kernel_rfl
  rcases hr : mkdatasetFor (fun n => if n = 1 then 0 else lnFloor n) true 20 7 (some Sample.threeFiles) ({}, [0, 1, 2, 3, 4, 5, 6])
    with _ | ⟨o', s, rest'⟩
  · rw [hr] at hrun
    cases hrun
  rw [hr] at hrun
  injection hrun with hs
  dsimp only at hs
  obtain ⟨_, n₁, n₂, _, _, h1, h2, h3, _⟩ := C124_repeatable _ true 20 7 _ _ _ _ _ _ _ _ _ _ _ h hr
  refine ⟨n₁, h1, ?_⟩
  have h4 := congrArg (List.map List.length) h3
  rw [List.map_map, List.map_map] at h4
  rw [h2] at hs
  exact h4.trans hs

/-- C124, finding: names are drawn from ten times as many as there should be files.  A plan that claims more files of one size than
that never ends: for any numbers that are drawn, the search for a name goes on. -/
theorem C124_negation_ends (lnFloor : Nat → Nat) (hln : LogLike lnFloor) (totalsize filecount : Int) (h1 : 0 < totalsize)
    (h2 : 0 < filecount) (size count : Nat) (hsize : size < 2 ^ 98) (hmany : 10 * filecount < count) (t : Dataset) (draws : List Nat)
    (hdraws : ∀ r ∈ draws, (r : Int) < 10 * filecount) :
    mkdatasetFor lnFloor true totalsize filecount (some (Sample.inventory size count)) (t, draws) = none := by
  rcases h : mkdatasetFor lnFloor true totalsize filecount (some (Sample.inventory size count)) (t, draws) with _ | ⟨o, t', rest⟩
  · rfl
  exfalso
  have hdist : ∃ more, distribute totalsize filecount [{ kind := .inventory (some [(size, count)]) }] [] =
      .ok ({ kind := .inventory (some [(size, count)]), totalsize := some ((count * size : Nat) : Int), totalfiles := some (count : Int),
             iter := some (.inventory [(size, count)]) } :: more, []) := by
    unfold distribute
    simp only [resolveIters, FileSet.iterOf, iterFor, allTotals, fileTotals, SizeIter.iterate, inventory_single, List.sum_replicate_nat,
      List.length_replicate]
    simp only [List.map_cons, List.map_nil, List.cons_append, List.nil_append, List.append_nil, List.zip_cons_cons, List.zip_nil_right,
      shareOut, List.any_cons, List.any_nil, Option.isNone_some, Bool.or_false, Bool.false_eq_true, if_false, Option.getD_some,
      List.length_cons, List.length_nil, List.take, List.drop, FileSet.give, Option.isSome_some, if_true]
    split
    · exact ⟨_, rfl⟩
    · exact ⟨[], rfl⟩
  obtain ⟨more, hdist⟩ := hdist
  unfold mkdatasetFor makeDataset at h
  rw [if_neg (by decide)] at h
  have hd : ((some (Sample.inventory size count)).getD (defaultPlan totalsize filecount)).setTotals totalsize filecount =
    .mk (some totalsize) (some filecount) 1 (some [{ kind := .inventory (some [(size, count)]) }]) [] none := rfl
  rw [hd] at h
  have hdepth : (DirSpec.mk (some totalsize) (some filecount) 1 (some [{ kind := .inventory (some [(size, count)]) }]) [] none).depth = 1 := by
    simp [DirSpec.depth, DirSpec.depths]
  rw [hdepth] at h
  dsimp only [DirSpec.totalsize, DirSpec.totalfiles, Option.getD_some] at h
  unfold fillDir at h
  rw [if_neg (by omega)] at h
  dsimp only [DirSpec.files, DirSpec.subdirs, DirSpec.number, DirSpec.dirs, Option.getD_some] at h
  rw [hdist] at h
  have hfill : ∃ o t' rest, fillFiles lnFloor [] ((count * size : Nat) : Int) count (List.replicate count size) (0, 0) (t, draws) =
      some (o, t', rest) := by
    have hruns : ∀ {α β : Type} {m : Making α} {f : α → Making β} {x}, (m.bind f) (t, draws) = some x → ∃ o t' rest,
        m (t, draws) = some (o, t', rest) := by
      intro α β m f x hx
      rcases bind_some hx with ⟨e, h4, _⟩ | ⟨a, u, draws₁, h4, _⟩
      · exact ⟨_, _, _, h4⟩
      · exact ⟨_, _, _, h4⟩
    obtain ⟨_, _, _, h⟩ := hruns h
    rw [bind_ok (show Making.lift (.ok _) (t, draws) = some (.ok _, t, draws) from rfl)] at h
    obtain ⟨_, _, _, h⟩ := hruns h
    unfold fillSets at h
    rw [if_neg (tooMuch_false (by dsimp only; omega) (by dsimp only; omega))] at h
    obtain ⟨_, _, _, h⟩ := hruns h
    unfold fillSet at h
    dsimp only at h
    rw [bind_ok (show Making.lift (SizeIter.iterate (.inventory [(size, count)])) (t, draws) = some (.ok (List.replicate count size), t, draws)
      from by rw [show SizeIter.iterate (.inventory [(size, count)]) = .ok (inventorySizes [(size, count)]) from rfl, inventory_single]; rfl)]
      at h
    exact hruns h
  obtain ⟨o', u, v, hf⟩ := hfill
  obtain ⟨rs, r1, r2, r3⟩ := fillFiles_numbers hln [] _ _ hsize count (0, 0) t draws o' u v (by dsimp only; omega) (by dsimp only; omega) hf
  have := nodup_length_le r2 (m := List.range (10 * filecount).toNat) (fun r hr => by
    rw [List.mem_range]
    have := hdraws r (r3 r hr).1
    omega)
  rw [List.length_range] at this
  omega

/-! ## Cases -/

theorem suits_nested : Suits 30 12 Sample.nested := by
  have hset : ∀ {a b : Int}, 0 < a → 0 < b → Suits a b (.mk (some 4) (some 2) 2 (some [{}]) [] none) := by
    intro a b ha hb
    refine ⟨ha, hb, ?_, ?_, ?_, ?_, fun s hs => by cases hs⟩
    · intro f hf
      have : f = {} := by simpa [DirSpec.files] using hf
      subst this
      intro a h
      cases h
    · intro c hc h0
      have : c ∈ [(none, 1), (none, 1)] := hc
      simp at this
      rw [this]
    · exact Int.le_of_lt ha
    · rw [if_neg (fun h => absurd h.1 (by decide)), if_neg (by decide)]
      show (0 : Int) + 1 ≤ b
      omega
  have hdirs : ∀ {a b : Int}, 2 ≤ a → 2 ≤ b → Suits a b (.mk none none 1 none [] (some 2)) := by
    intro a b ha hb
    have := suits_plain (k := 0) (n := 2) (ts := a) (tf := b) (by decide) ha hb
    rcases this with ⟨h1, h2, h3, h4, h5, h6, h7⟩
    exact ⟨h1, h2, h3, h4, h5, h6, h7⟩
  refine ⟨by decide, by decide, ?_, ?_, by decide, by decide, ?_⟩
  · intro f hf
    have : f = { kind := .inventory (some [(2, 2), (3, 1)]) } := by simpa [Sample.nested, DirSpec.files] using hf
    subst this
    exact ⟨_, rfl, by decide⟩
  · decide
  · intro s hs a b ha hb
    have hs' : s ∈ [DirSpec.mk none none 1 none [] (some 2), .mk (some 4) (some 2) 2 (some [{}]) [] none] := hs
    simp only [List.mem_cons, List.not_mem_nil, or_false] at hs'
    rcases hs' with rfl | rfl
    · have ha' : a * 1 < 30 - 15 + 1 ∧ (30 : Int) - 15 < a * 1 + 1 := ha
      have hb' : b * 1 < 12 - 7 + 1 ∧ (12 : Int) - 7 < b * 1 + 1 := hb
      exact hdirs (by omega) (by omega)
    · have ha' : a = 4 := ha
      have hb' : b = 2 := hb
      exact hset (by omega) (by omega)

/-- 30 bytes in 12 files: an inventory, two directories in a directory, and a directory that is made twice. -/
example : (mkdatasetFor Nat.log2 true 30 12 (some Sample.nested) ({}, List.range 20)).map (fun r => (r.1, r.2.1.dirs.length)) =
    some (.ok (30, 12), 5) := by kernel_rfl

example : Suits 30 12 Sample.nested ∧ dirsOf Sample.nested = 5 := ⟨suits_nested, by simp [Sample.nested, dirsOf, dirsOfAll, DirSpec.reps]⟩

/-- There is room for 12 files and 5 directories among 120 names, and the numbers 0, 1, … 119, 0, 1, … are fair. -/
example : (dirsOf Sample.nested : Nat) ≤ 9 * (12 : Int) ∧ Fair (10 * (12 : Int)).toNat (fun i => i % 120) := by
  refine ⟨by simp [Sample.nested, dirsOf, dirsOfAll, DirSpec.reps], fun r hr n => ⟨120 * n + r, by omega, ?_⟩⟩
  have : r < 120 := hr
  show (120 * n + r) % 120 = r
  omega

/-- Eleven files when ten numbers can be drawn. -/
example : (0 : Int) < 2 ∧ (0 : Int) < 1 ∧ 10 * (1 : Int) < (11 : Nat) := by decide

/-- The random numbers 7 and 20 are drawn twice. -/
example : (mkdatasetFor Nat.log2 true 250 3 none ({}, [7, 7, 20, 20, 31])).map (fun r => (r.1, r.2.1.files.map (·.1))) =
    some (.ok (250, 3), [[py!"007_83"], [py!"014_83"], [py!"014_84"]]) := by kernel_rfl

/-- Two sets and three directories. -/
example : (mkdatasetFor Nat.log2 true 20 9 (some (.mk none none 1 (some (plainSets 2)) [] (some 3))) ({}, List.range 20)).map (·.1) =
    some (.ok (20, 9)) := by kernel_rfl

example : (mkdatasetFor Nat.log2 true 10 2 (some Sample.claimsMore) ({}, [4, 5, 6])).map (·.1) = some (.ok (90, 3)) := by kernel_rfl
example : (mkdatasetFor Nat.log2 true 10 2 (some Sample.claimsMoreTwo) ({}, [])).map (·.1) = some (.error .runtimeError) := by kernel_rfl
example : (mkdatasetFor Nat.log2 true 90 1 (some Sample.twoSets) ({}, [0])).map (·.1) = some (.error .zeroDivisionError) := by kernel_rfl
example : (mkdatasetFor Nat.log2 true 90 1 (some Sample.twoDirs) ({}, [0, 1, 2])).map (·.1) = some (.ok (45, 1)) := by kernel_rfl
example : (mkdatasetFor Nat.log2 true 7 8 (some Sample.threeTimes) ({}, List.range 8)).map (·.1) = some (.ok (8, 8)) := by kernel_rfl
example : (mkdatasetFor Nat.log2 true 20 7 (some Sample.threeFiles) ({}, List.range 7)).map (·.1) = some (.ok (20, 7)) := by kernel_rfl

end Verif
