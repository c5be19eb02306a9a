import Verif.Model.Apply
/-!
# Splitting when copies fail

`replicate` of a bag on disk ignores every exception that `shutil.copy` raises (access/extended.py:369-376), for example
for want of space, or because a file cannot be read.  `apply_iter` only looks whether there is a file afterwards
(split.py:312-315), and not even that for `bagit.txt` (split.py:285).
-/

namespace Verif

/-- How a call of `shutil.copy` ends. -/
inductive CopyEnd where
  | whole
  /-- with an exception, before the new file is created -/
  | nothing
  /-- with an exception, after some of the contents was written -/
  | cut (written : Nat)
deriving DecidableEq

/-- A disk on which files cannot be linked (so that they are copied), and how the calls of `shutil.copy` to come will end;
when the list is used up, all is copied. -/
structure FaultyDisk where
  plain : CopyDisk
  ends : List CopyEnd := []

/-- `open(p, 'w')` and write, in `shutil.copy`: exceptions are ignored (access/extended.py:370-376). -/
def FaultyDisk.put (l : FaultyDisk) (p : Path) (c : Str) : FaultyDisk :=
  match l.plain.out.write p c with
  | .error _ => l
  | .ok t => { l with plain := { l.plain with out := t } }

/-- `replicate` (access/extended.py:320-376) for a file, without a logger, where links cannot be made. -/
def FaultyDisk.replicate (l : FaultyDisk) (p : Path) : Except PyErr FaultyDisk :=
  match l.plain.src.read p with
  | none => .error .valueError
  | some c =>
    let l' := { l with ends := l.ends.tail }
    match l.ends.head? with
    | none | some .whole => .ok (l'.put p c)
    | some .nothing => .ok l'
    | some (.cut n) => .ok (l'.put p (c.take n))

/-- Runs another operation on the disk. -/
def FaultyDisk.lift (l : FaultyDisk) (r : Except PyErr CopyDisk) : Except PyErr FaultyDisk :=
  match r with
  | .error e => .error e
  | .ok d => .ok { l with plain := d }

/-- File operations when copies can fail; the others are those of `copyFS`.  Simplification: they do not fail for want of
space (they would raise an exception that is not ignored). -/
def faultyFS : OutFS FaultyDisk where
  newBag l n := l.lift (copyFS.newBag l.plain n)
  finish l n := { l with plain := copyFS.finish l.plain n }
  exists_ l p := copyFS.exists_ l.plain p
  isdir l p := copyFS.isdir l.plain p
  isfile l p := copyFS.isfile l.plain p
  mkdir l p := l.lift (copyFS.mkdir l.plain p)
  makedirs l p := l.lift (copyFS.makedirs l.plain p)
  write l p c := l.lift (copyFS.write l.plain p c)
  append l p c := l.lift (copyFS.append l.plain p c)
  replicate l p := l.replicate p
  read l p := copyFS.read l.plain p
  srcRead l p := copyFS.srcRead l.plain p

end Verif
