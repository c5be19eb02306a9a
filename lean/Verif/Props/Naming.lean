import Verif.Model.Naming
import Verif.Props.SplitDisk
/-!
# C113: naming the bags while they are written
-/

namespace Verif

theorem nameLoop_shift (names : Nat → Option Str) (n : Nat) (ms : List Manifest) :
    (nameLoop (fun i => names (i + 1)) n ms).2 = (nameLoop names (n + 1) ms).2 := by
  induction ms generalizing n with
  | nil => rfl
  | cons m ms ih =>
    unfold nameLoop
    cases names (n + 1) with
    | none => rfl
    | some x => simp only [ih]

theorem nameLoop_nil (n : Nat) (ms : List Manifest) : (nameLoop (fun i => ([] : List Str)[i]?) n ms).2 = ms := by
  cases ms with
  | nil => rfl
  | cons m ms => simp [nameLoop]

section
variable {σ : Type} (fs : OutFS σ) (S : Source) (blen : Str → Nat) (o : ApplyOpts)

theorem applyLoopRun_named (plan : List Manifest) (names : List Str) (members : List Str) (dest : List (Str × Str)) (d : σ) :
    applyLoopRun fs S blen o plan names members dest d =
      applyLoopRun fs S blen o (nameLoop (fun i => names[i]?) 0 plan).2 [] members dest d := by
  induction plan generalizing names members dest d with
  | nil => rfl
  | cons m ms ih =>
    have hlen : ∀ (f : Nat → Option Str) (n : Nat) (l : List Manifest), (nameLoop f n l).2.isEmpty = l.isEmpty := by
      intro f n l
      cases l with
      | nil => rfl
      | cons a l => unfold nameLoop; cases f n <;> rfl
    cases names with
    | nil => rw [nameLoop_nil]
    | cons x xs =>
      have e : (nameLoop (fun i => (x :: xs)[i]?) 0 (m :: ms)).2 =
          { m with name := some x } :: (nameLoop (fun i => xs[i]?) 0 ms).2 := by
        have := nameLoop_shift (fun i => (x :: xs)[i]?) 0 ms
        simp only [List.getElem?_cons_succ] at this
        rw [this]; rfl
      rw [e]
      unfold applyLoopRun
      simp only [List.head?_cons, Option.some_or, List.head?_nil, Option.none_or, List.tail_cons, List.tail_nil, hlen]
      cases writeBagRun fs S blen o x m.contents ms.isEmpty (moveToEnd members x) dest d with
      | mk r d =>
        cases r with
        | error e => rfl
        | ok dest => exact ih xs _ _ _

/-- C113, part: writing the bags of a plan with a naming iterator that has a method `next` does the same, whatever the
outcome, as naming them by that iterator in advance (`name_output_bags`) and writing them without one; also if it has
too few names, when the remaining bags keep the names of the plan.
Missing: iterators without that method (`C113_negation_next`). -/
theorem C113_in_advance_partial (plan : List Manifest) (it : Namer) (hn : it.hasNext = true) (d : σ) :
    applyNamedRun fs S blen o plan (some it) d =
      applyNamedRun fs S blen o (nameOutputBags (fun i => it.names[i]?) false plan).2 none d := by
  simp only [applyNamedRun, hn, if_true, applyRun, nameOutputBags, Bool.false_eq_true, if_false]
  cases initialIndex S with
  | error e => rfl
  | ok x => exact applyLoopRun_named fs S blen o plan it.names _ _ d

/-- C113 is false of iterators without a method `next`, which are all those of Python 3 that do not define one
themselves, such as `iter(["b1", "b2"])` and generators: naming in advance takes them, but writing raises
`AttributeError` and writes nothing, whatever is to be written. -/
theorem C113_negation_next (plan : List Manifest) (hp : plan ≠ []) (it : Namer) (hn : it.hasNext = false) (d : σ)
    {x : List Str × List (Str × Str)} (hS : initialIndex S = .ok x) :
    applyNamedRun fs S blen o plan (some it) d = (.error .attributeError, d) := by
  cases plan with
  | nil => exact absurd rfl hp
  | cons m ms => simp [applyNamedRun, hn, hS]

end

/-- The sample split with a naming iterator for the first bag of two. -/
example : applyNamedRun diskFS Sample.splitSource List.length {} Sample.splitPlan (some ⟨[py!"b1", py!"b2"], true⟩)
      (Sample.splitStart py!"/w/out") =
    applyRun diskFS Sample.splitSource List.length {} Sample.splitPlan [py!"b1", py!"b2"] (Sample.splitStart py!"/w/out") ∧
    (applyNamedRun diskFS Sample.splitSource List.length {} Sample.splitPlan (some ⟨[py!"b1", py!"b2"], true⟩)
      (Sample.splitStart py!"/w/out")).1 = .ok () := by
  refine ⟨rfl, ?_⟩
  decide +kernel

/-- An iterator that has no method `next`, with enough names. -/
example : (applyNamedRun diskFS Sample.splitSource List.length {} Sample.splitPlan (some ⟨[py!"b1", py!"b2"], false⟩)
      (Sample.splitStart py!"/w/out")) = (.error .attributeError, Sample.splitStart py!"/w/out") ∧
    (nameOutputBags (fun i => [py!"b1", py!"b2"][i]?) false Sample.splitPlan).1 = .ok () :=
  ⟨C113_negation_next _ _ _ _ _ (by decide) _ rfl _ (x := ([], [])) (by rfl), by decide⟩

end Verif
