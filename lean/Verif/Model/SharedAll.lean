import Verif.Model.SplitShared
import Verif.Model.RestoreShared
/-!
# Splits and restores on one file system

`SplitPlan.apply_iter` (multibag/split.py:197-414) and `restore_bag` (multibag/restore.py:330-357) running at the same
time, operation by operation, with the simplifications of `SplitShared` and `RestoreShared`.
-/

namespace Verif

/-- The operations of a process whose turns find the file systems `founds`: those found and those left. -/
def Doing.turns {α : Type} : Doing α → List Tree → List (Tree × Tree)
  | _, [] => []
  | m, t :: rest => (t, (m.turn t).2) :: (m.turn t).1.turns rest

/-- What the process has come to after them. -/
def Doing.after {α : Type} : Doing α → List Tree → Doing α
  | m, [] => m
  | m, t :: rest => (m.turn t).1.after rest

section
variable {ι κ : Type} [DecidableEq ι] [DecidableEq κ]

/-- `L` is what has taken place so far, from the file system `W` on, when the splits `splits` (split.py:197-414) and the
restores `restores` (restore.py:330-357) run at the same time: its operations follow upon each other, and those of each call
are the first that the call makes when it finds what they found. -/
structure RanAll (W : Tree) (splits : ι → SplitJob) (restores : κ → RestoreJob) (L : List ((ι ⊕ κ) × Tree × Tree)) : Prop where
  chained : Chained W L
  split : ∀ i, opsOf L (.inl i) <+: (splits i).steps (foundBy W L (.inl i))
  restore : ∀ k, (restores k).doing.turns ((opsOf L (.inr k)).map (·.1)) = opsOf L (.inr k)

/-- The split has made all its operations. -/
def SplitEnded (W : Tree) (splits : ι → SplitJob) (L : List ((ι ⊕ κ) × Tree × Tree)) (i : ι) : Prop :=
  opsOf L (.inl i) = (splits i).steps (foundBy W L (.inl i))

/-- What the restore has come to. -/
def restoreNow (restores : κ → RestoreJob) (L : List ((ι ⊕ κ) × Tree × Tree)) (k : κ) : Doing RBag :=
  (restores k).doing.after ((opsOf L (.inr k)).map (·.1))

/-- The calls take turns as `order` says: the next operation of a call (split.py:197-414, restore.py:330-357) on the file
system as it is.  A split that has made all its operations passes. -/
def playAll (splits : ι → SplitJob) (restores : κ → RestoreJob) : List (ι ⊕ κ) → Tree → List ((ι ⊕ κ) × Tree × Tree) →
    List ((ι ⊕ κ) × Tree × Tree)
  | [], _, past => past
  | .inl i :: rest, t, past =>
    let found := (opsOf past (.inl i)).map (·.1)
    match ((splits i).steps (fun k => (found[k]?).getD t))[found.length]? with
    | none => playAll splits restores rest t past
    | some s => playAll splits restores rest s.2 (past ++ [(.inl i, t, s.2)])
  | .inr k :: rest, t, past =>
    let t' := ((restoreNow restores past k).turn t).2
    playAll splits restores rest t' (past ++ [(.inr k, t, t')])

/-- What has taken place after the first `n` turns of the order `sched` (split.py:197-414, restore.py:330-357). -/
def historyOf (W : Tree) (splits : ι → SplitJob) (restores : κ → RestoreJob) (sched : Nat → ι ⊕ κ) (n : Nat) : List ((ι ⊕ κ) × Tree × Tree) :=
  playAll splits restores ((List.range n).map sched) W []

end

end Verif
