import Verif.Model.Apply
/-!
# A split that is stopped

`SplitPlan.apply_iter` (multibag/split.py:197-414) runs over the file system interface `OutFS`.  Here the
interface is wrapped so that every state of the disk on the way is kept: those are the states in which the disk is
left when the process ends, the disk or the iteration stops, or the caller of the generator takes no more bags.

Simplification: each operation of `OutFS` (making a directory, with those above it; copying or linking a file;
writing a file) happens at once.
-/

namespace Verif

/-- A state of the disk, and those before it, the latest first. -/
structure Traced (σ : Type) where
  now : σ
  past : List σ := []
deriving DecidableEq

/-- All the states. -/
def Traced.states {σ : Type} (d : Traced σ) : List σ := d.now :: d.past

/-- The next state. -/
def Traced.step {σ : Type} (d : Traced σ) (r : Except PyErr σ) : Except PyErr (Traced σ) :=
  match r with
  | .error e => .error e
  | .ok x => .ok ⟨x, d.now :: d.past⟩

/-- The file operations of split.py:274-397 (`os.mkdir`, `os.makedirs`, `open`, `replicate`), each keeping the
state before it. -/
def OutFS.traced {σ : Type} (fs : OutFS σ) : OutFS (Traced σ) where
  newBag d n := d.step (fs.newBag d.now n)
  finish d n := ⟨fs.finish d.now n, d.now :: d.past⟩
  exists_ d p := fs.exists_ d.now p
  isdir d p := fs.isdir d.now p
  isfile d p := fs.isfile d.now p
  mkdir d p := d.step (fs.mkdir d.now p)
  makedirs d p := d.step (fs.makedirs d.now p)
  write d p c := d.step (fs.write d.now p c)
  append d p c := d.step (fs.append d.now p c)
  replicate d p := d.step (fs.replicate d.now p)
  read d p := fs.read d.now p
  srcRead d p := fs.srcRead d.now p

/-- The states of the disk during `apply_iter` (split.py:197-399), the latest first, if it would run to its end;
the states after a `yield` are among them (split.py:399). -/
def applyStates {σ : Type} (fs : OutFS σ) (S : Source) (blen : Str → Nat) (o : ApplyOpts) (plan : List Manifest)
    (names : List Str) (d : σ) : List σ :=
  match applyPlan fs.traced S blen o plan names ⟨d, []⟩ with
  | .error _ => []
  | .ok t => t.states

end Verif
