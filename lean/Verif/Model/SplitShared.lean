import Verif.Model.SplitRun
/-!
# Splits that run at the same time

`SplitPlan.apply_iter` (multibag/split.py:197-414) on a file system that other processes use as well.  Between any two
of the split's file operations the others may have changed the file system: each operation works on the file system it
finds.  A schedule of several splits is the list of all their operations in the order in which they took place.

Simplifications: each operation of `OutFS` takes place at one moment (`os.makedirs` and the copying of a file are
several system calls); a question such as `os.path.exists` is answered by the file system that the next operation
finds; what the split keeps in memory about its source (the manifests, the bag-info fields) was read before.
-/

namespace Verif

/-- A running split: where its source is, the output directory as given, the bag being written, and the operations so
far, each with the file system it found and the one it left (split.py:260-399). -/
structure SharedSplit where
  src : Path
  outdir : Str
  cur : Path := []
  log : List (Tree × Tree) := []
deriving DecidableEq

/-- The split when it finds a file system. -/
def SharedSplit.on (s : SharedSplit) (t : Tree) : SplitDisk := { disk := t, src := s.src, outdir := s.outdir, cur := s.cur }

/-- An operation of `diskFS` that found `t` is written down. -/
def SharedSplit.did (s : SharedSplit) (t : Tree) (r : Except PyErr SplitDisk) : Except PyErr SharedSplit :=
  match r with
  | .error e => .error e
  | .ok d => .ok { s with cur := d.cur, log := s.log ++ [(t, d.disk)] }

/-- The operations of split.py:274-397 when replication copies (access/extended.py:607-641), where `found` is the file
system that the next operation finds. -/
def sharedFS (found : SharedSplit → Tree) : OutFS SharedSplit where
  newBag s n := s.did (found s) (diskFS.newBag (s.on (found s)) n)
  finish s _ := s
  exists_ s p := diskFS.exists_ (s.on (found s)) p
  isdir s p := diskFS.isdir (s.on (found s)) p
  isfile s p := diskFS.isfile (s.on (found s)) p
  mkdir s p := s.did (found s) (diskFS.mkdir (s.on (found s)) p)
  makedirs s p := s.did (found s) (diskFS.makedirs (s.on (found s)) p)
  write s p c := s.did (found s) (diskFS.write (s.on (found s)) p c)
  append s p c := s.did (found s) (diskFS.append (s.on (found s)) p c)
  replicate s p := s.did (found s) (diskFS.replicate (s.on (found s)) p)
  read s p := diskFS.read (s.on (found s)) p
  srcRead s p := diskFS.srcRead (s.on (found s)) p

/-- A call `SplitPlan.apply_iter` after `name_output_bags` (split.py:145-167, 197-399). -/
structure SplitJob where
  source : Source
  src : Path
  outdir : Str
  blen : Str → Nat
  opts : ApplyOpts
  plan : List Manifest
  names : List Str

/-- The call, when its operation number `k` finds the file system `seen k` (split.py:197-399). -/
def SplitJob.run (j : SplitJob) (seen : Nat → Tree) : Outcome Unit SharedSplit :=
  applyRun (sharedFS fun s => seen s.log.length) j.source j.blen j.opts j.plan j.names { src := j.src, outdir := j.outdir }

/-- Its operations: the file systems found and left.  After the last one it looks at the file system once more (that is
an operation that failed, if there was one, or the last question; it changes nothing). -/
def SplitJob.steps (j : SplitJob) (seen : Nat → Tree) : List (Tree × Tree) :=
  (j.run seen).2.log ++ [(seen (j.run seen).2.log.length, seen (j.run seen).2.log.length)]

section
variable {ι : Type}

/-- Each operation finds the file system that the one before it has left. -/
def Chained : Tree → List (ι × Tree × Tree) → Prop
  | _, [] => True
  | t, s :: rest => s.2.1 = t ∧ Chained s.2.2 rest

/-- The file system after all operations. -/
def lastDisk : Tree → List (ι × Tree × Tree) → Tree
  | t, [] => t
  | _, s :: rest => lastDisk s.2.2 rest

variable [DecidableEq ι]

/-- The operations of one of the calls. -/
def opsOf (L : List (ι × Tree × Tree)) (i : ι) : List (Tree × Tree) := (L.filter (fun s => decide (s.1 = i))).map (·.2)

/-- The file systems that its operations found (`W` after the last one). -/
def foundBy (W : Tree) (L : List (ι × Tree × Tree)) (i : ι) (k : Nat) : Tree := (((opsOf L i)[k]?).map (·.1)).getD W

/-- `L` is what took place, from the file system `W` on, when the calls `jobs` ran at the same time: its operations follow
upon each other, and those of each call are what that call does when it finds what they found. -/
structure RanTogether (W : Tree) (jobs : ι → SplitJob) (L : List (ι × Tree × Tree)) : Prop where
  chained : Chained W L
  each : ∀ i, (jobs i).steps (foundBy W L i) = opsOf L i

/-- The calls take turns as `order` says: the next operation of a call on the file system as it is. -/
def playFrom (jobs : ι → SplitJob) : List ι → Tree → List (ι × Tree × Tree) → List (ι × Tree × Tree)
  | [], _, past => past
  | i :: rest, t, past =>
    let found := (opsOf past i).map (·.1)
    match ((jobs i).steps (fun k => (found[k]?).getD t))[found.length]? with
    | none => playFrom jobs rest t past
    | some s => playFrom jobs rest s.2 (past ++ [(i, t, s.2)])

end

end Verif
