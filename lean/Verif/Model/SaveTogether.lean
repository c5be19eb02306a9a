import Verif.Model.HeadBag
/-!
# Several processes that save lists of one head bag at the same time (multibag/access/multibag.py:421-445, 609-628, 674-690)

Each process has its own `HeadBag` object for the same directory, with the member list, the lookups or the
deleted paths in memory, and calls `save_member_bags`, `save_file_lookup` or `save_deleted`.  The operating system may
switch between them at any moment between two operations on the file system: the test for the tag directory, its creation, the opening of the file, which empties it,
and the writing of the next piece of the text; before them, when no path is deleted, the test for the file and its
removal.  A process that has a file open when another one removes it goes on writing to the removed file, which nobody
sees.  Each process writes where it has got to itself, whatever the others have done to the file in the meantime.  How the text is cut into pieces (`io.open` has a buffer) is left open: every step says
how many characters it writes.

Simplifications: positions count characters, not bytes; an operation of the operating system is not interrupted by
another one; a member that cannot be formatted ends the text, and the exception (which does not change the file) is left
out; nobody calls `clear_…` or changes the metadata in the meantime; the set of deleted paths is a list in the order in
which it is gone through; the test before a removal costs a step even where there is none.
-/

namespace Verif

/-- What a process saves: `self._memberbags` (access/multibag.py:429-445), `self._filelu` (access/multibag.py:609-628) or
`self._deleted` (access/multibag.py:674-690). -/
inductive ListText where
  | members (ms : List MemberInfo)
  | lookup (d : List (Str × Str))
  | deleted (ps : List Str)

/-- The name of the file (access/multibag.py:438-439, 618-619, 682-683). -/
def ListText.name : ListText → Str
  | .members _ => py!"member-bags.tsv"
  | .lookup _ => py!"file-lookup.tsv"
  | .deleted _ => py!"deleted.txt"

/-- The text written to it (access/multibag.py:441-445, 621-628, 689-690). -/
def ListText.text : ListText → Str
  | .members ms => (HeadBag.membersWritten ms).1
  | .lookup d => lookupText d
  | .deleted ps => deletedText ps

/-- An existing file is removed before (access/multibag.py:684-685). -/
def ListText.removes : ListText → Bool
  | .deleted [] => true
  | _ => false

/-- How far a process is (access/multibag.py:421-445, 609-628, 674-690): before the test in line 684; after it, when the
file is to be removed; before the test in line 426; after it, when the directory was missing; before the file is opened
in line 440, 620 or 688; with the first `k` characters written; the same, when the file has been removed since; or stopped
by an exception. -/
inductive SavePc where
  | start
  | emptying
  | looking
  | missing
  | ready
  | writing (k : Nat)
  | lost (k : Nat)
  | failed (e : PyErr)
deriving DecidableEq

/-- The file is removed by somebody else (access/multibag.py:685). -/
def SavePc.unlinked : SavePc → SavePc
  | .writing k => .lost k
  | a => a

/-- The directory and how far everybody is (access/multibag.py:421-445, 609-628, 674-690). -/
structure Savers (ι : Type) where
  tree : Tree
  pc : ι → SavePc

/-- A file after `s` has been written to it at position `k` (`fd.write`, access/multibag.py:445, 628, 690, at the time the
buffer is handed to the operating system).  A gap between the end of the file and `k` is filled with NUL characters. -/
def putAt (f : Str) (k : Nat) (s : Str) : Str :=
  if s = [] then f
  else f.take k ++ List.replicate (k - f.length) '\x00' ++ s ++ f.drop (k + s.length)

section
variable {ι : Type} [DecidableEq ι]

/-- Process `i` gets on to `a` (access/multibag.py:421-445, 609-628, 674-690). -/
def Savers.goes (w : Savers ι) (i : ι) (a : SavePc) : Savers ι :=
  { w with pc := fun j => if j = i then a else w.pc j }

/-- The next operation of process `i`, which writes at most `n` characters (access/multibag.py:421-445, 609-628, 674-690). -/
def Savers.step (info : Info) (c : ι → ListText) (w : Savers ι) (i : ι) (n : Nat) : Savers ι :=
  let dir := comps (tagDir info)
  let file := tagFile (tagDir info) (c i).name
  match w.pc i with
  | .start => if (c i).removes && w.tree.exists file then w.goes i .emptying else w.goes i .looking
  | .emptying =>
    match w.tree.remove file with
    | .error e => w.goes i (.failed e)
    | .ok t =>
      ⟨t, fun j => if j = i then .looking else if (c j).name = (c i).name then (w.pc j).unlinked else w.pc j⟩
  | .looking => if w.tree.exists dir then w.goes i .ready else w.goes i .missing
  | .missing =>
    match w.tree.mkdir dir with
    | .error e => w.goes i (.failed e)
    | .ok t => { w with tree := t }.goes i .ready
  | .ready =>
    match w.tree.write file [] with
    | .error e => w.goes i (.failed e)
    | .ok t => { w with tree := t }.goes i (.writing 0)
  | .writing k =>
    match dget w.tree file with
    | some (.file f) =>
      let s := ((c i).text.drop k).take n
      { w with tree := dset w.tree file (.file (putAt f k s)) }.goes i (.writing (k + s.length))
    | _ => w
  | .lost k => w.goes i (.lost (k + (((c i).text.drop k).take n).length))
  | .failed _ => w

/-- Any schedule (access/multibag.py:421-445, 609-628, 674-690). -/
def Savers.run (info : Info) (c : ι → ListText) (w : Savers ι) (l : List (ι × Nat)) : Savers ι :=
  l.foldl (fun w x => w.step info c x.1 x.2) w

/-- Nobody has begun (access/multibag.py:421-445, 609-628, 674-690). -/
def Savers.start (tree : Tree) : Savers ι := ⟨tree, fun _ => .start⟩

end
end Verif
