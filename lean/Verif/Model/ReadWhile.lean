import Verif.Model.SaveTogether
/-!
# Reading a list of a head bag while it is saved (multibag/access/multibag.py:202-223, 244-263, 300-312)

A process goes through `iter_member_bags()`, `iter_file_lookup()` or `iter_deleted()` while others save lists of the same bag
(`Verif.Model.SaveTogether`).  It tests for the file, opens it, and reads it piece by piece, each piece from where the last
one ended; a read that gives nothing is the end of the file.  The others can act at any moment in between.

Simplifications: those of `Verif.Model.SaveTogether`; the lines are parsed when all of the text has been read, instead of
one by one, which makes no difference to the list or the exception in the end; a reader that has the file of the deleted
paths open when it is removed waits for the next file of this name and reads on from that, instead of the removed one.
-/

namespace Verif

/-- The list that is read: `iter_member_bags` (access/multibag.py:202-223), `iter_file_lookup`
(access/multibag.py:244-263) or `iter_deleted` (access/multibag.py:300-312). -/
inductive ListRead where
  | members
  | lookup
  | deleted

/-- The name of its file (access/multibag.py:210-211, 250-251, 305). -/
def ListRead.fileName (info : Info) : ListRead → Str
  | .members => membersFileName info
  | .lookup => lookupFileName info
  | .deleted => py!"deleted.txt"

/-- How far the reader is (access/multibag.py:202-223, 244-263, 300-312): before the test for the file; before it is opened; with some
of the text read; at the end of the file; or stopped by an exception. -/
inductive ReadPc where
  | start
  | found (p : Path)
  | reading (p : Path) (got : Str)
  | ended (got : Str)
  | failed (e : PyErr)
deriving DecidableEq

/-- The next operation of the reader, which reads at most `n` characters (access/multibag.py:202-223, 244-263, 300-312). -/
def ReadPc.step (what : ListRead) (info : Info) (tree : Tree) (n : Nat) : ReadPc → ReadPc
  | .start =>
    match what with
    | .deleted => if tree.exists (deletedFile info) then .found (deletedFile info) else .ended []
    | _ =>
      match readerTagDir info with
      | .error e => .failed e
      | .ok dir => if tree.isfile (tagFile dir (what.fileName info)) then .found (tagFile dir (what.fileName info)) else .failed .missingFile
  | .found p => if tree.isfile p then .reading p [] else .failed .osError
  | .reading p got =>
    match dget tree p with
    | some (.file f) =>
      if n = 0 then .reading p got
      else if (f.drop got.length).take n = [] then .ended got
      else .reading p (got ++ (f.drop got.length).take n)
    | _ => .reading p got
  | .ended got => .ended got
  | .failed e => .failed e

/-- What `list(iter_member_bags())` gives in the end (access/multibag.py:217-223). -/
def ReadPc.members (info : Info) : ReadPc → Option (Except PyErr (List MemberInfo))
  | .ended got => some (if verLt (profileVersion info) py!"0.3" then readMembers02 .codecs got else readMembers03 .codecs got)
  | .failed e => some (.error e)
  | _ => none

/-- What `list(iter_file_lookup())` gives in the end (access/multibag.py:257-263). -/
def ReadPc.lookup (info : Info) : ReadPc → Option (Except PyErr (List (Str × Str)))
  | .ended got => some (if verLt (profileVersion info) py!"0.3" then readLookup02 .codecs got else readLookup03 .codecs got)
  | .failed e => some (.error e)
  | _ => none

/-- What `list(iter_deleted())` gives in the end (access/multibag.py:309-312). -/
def ReadPc.deleted : ReadPc → Option (Except PyErr (List Str))
  | .ended got => some (.ok (readDeleted .codecs got))
  | .failed e => some (.error e)
  | _ => none

/-- The processes that save, and the one that reads (access/multibag.py:202-312, 421-445, 609-628, 674-690). -/
structure Watched (ι : Type) where
  savers : Savers ι
  reader : ReadPc

section
variable {ι : Type} [DecidableEq ι]

/-- An operation of the reader, or of a process that saves (access/multibag.py:202-312, 421-445, 609-628, 674-690). -/
def Watched.step (what : ListRead) (info : Info) (c : ι → ListText) (w : Watched ι) : Option ι × Nat → Watched ι
  | (none, n) => { w with reader := w.reader.step what info w.savers.tree n }
  | (some i, n) => { w with savers := w.savers.step info c i n }

/-- Any schedule (access/multibag.py:202-312, 421-445, 609-628, 674-690). -/
def Watched.run (what : ListRead) (info : Info) (c : ι → ListText) (w : Watched ι) (l : List (Option ι × Nat)) : Watched ι :=
  l.foldl (fun w x => w.step what info c x) w

/-- Nobody has begun (access/multibag.py:202-312, 421-445, 609-628, 674-690). -/
def Watched.start (tree : Tree) : Watched ι := ⟨Savers.start tree, .start⟩

end

end Verif
