import Verif.Model.SplitRun
/-!
# Bags handed over while a split goes on

`SplitPlan.apply_iter` (multibag/split.py:197-414) is a generator: each bag is handed to the caller when it is written
(`yield bagdir`, split.py:399), and the next one is begun when the caller asks for it.  "The caller is allowed to modify
the newly written bag between calls to the iterator--e.g. to serialize it or move it to other storage" (split.py:207-208).
-/

namespace Verif

/-- A split in a file system, and the bags handed over so far, each with the file system as it was then. -/
structure HandedSplit where
  now : SplitDisk
  handed : List (Str × Tree) := []

/-- The names of the bags handed over. -/
def HandedSplit.names (h : HandedSplit) : List Str := h.handed.map (·.1)

/-- Runs an operation on the file system. -/
def HandedSplit.lift (h : HandedSplit) (r : Except PyErr SplitDisk) : Except PyErr HandedSplit :=
  match r with
  | .error e => .error e
  | .ok d => .ok { h with now := d }

/-- The operations of split.py:274-397 as in `diskFS`.  When a bag is handed over (split.py:399) the caller changes the
file system by `act`, which depends on the names of the bags handed over, before the generator goes on. -/
def handFS (act : List Str → Tree → Tree) : OutFS HandedSplit where
  newBag h n := h.lift (diskFS.newBag h.now n)
  finish h n :=
    { now := { h.now with disk := act (h.names ++ [n]) h.now.disk }
      handed := h.handed ++ [(n, h.now.disk)] }
  exists_ h p := diskFS.exists_ h.now p
  isdir h p := diskFS.isdir h.now p
  isfile h p := diskFS.isfile h.now p
  mkdir h p := h.lift (diskFS.mkdir h.now p)
  makedirs h p := h.lift (diskFS.makedirs h.now p)
  write h p c := h.lift (diskFS.write h.now p c)
  append h p c := h.lift (diskFS.append h.now p c)
  replicate h p := h.lift (diskFS.replicate h.now p)
  read h p := diskFS.read h.now p
  srcRead h p := diskFS.srcRead h.now p

/-- The same with files that are linked (`linkFS`): the caller may write files of the bag that is handed over. -/
def handLinkFS (act : List Str → LinkDisk → LinkDisk) : OutFS LinkDisk :=
  { linkFS with finish := fun d n => linkFS.finish (act (d.done.map (·.1) ++ [n]) d) n }

end Verif
