import Verif.Model.FormatBytes
import Verif.Model.Amend
import Verif.Model.Restore
/-!
# The size of a bag

`_bag_size` of a head bag (multibag/access/multibag.py:726-734) and `calc_bag_size`, `update_bag_size` of any bag
(multibag/access/extended.py:451-476).  Both walk the bag's directory, and a walk meets every file once
(`C90_local`).  Here the entries of the tree are gone through instead.
`blen` gives the number of bytes of a file's contents, and `rnd` stands for rounding (see `formatBytes`).
-/

namespace Verif

/-- Bytes of all files (access/multibag.py:727-730; access/extended.py:456-459, files only).  Not modelled:
symbolic links. -/
def filesSize (blen : Str → Nat) (t : Tree) : Nat :=
  (t.filterMap (fun e => match e.2 with | .file c => some (blen c) | .dir => none)).sum

/-- Sizes of all directories below the bag's directory, where `dlen` gives `os.stat(dir).st_size`, which the
filesystem determines (access/extended.py:456-459, directories only). -/
def dirsSize (dlen : Path → Nat) (t : Tree) : Nat :=
  (t.filterMap (fun e => match e.2 with | .file _ => none | .dir => some (dlen e.1))).sum

/-- `_bag_size()` (access/multibag.py:726-734). -/
def headBagSize (rnd : Nat → Nat → Nat) (blen : Str → Nat) (t : Tree) : Str :=
  let size := filesSize blen t
  let size := size + (py!"Bag-Size: " ++ natStr size).length
  formatBytes rnd size

/-- `len(self.info[key])`: of a text, or of the list of texts when the label is repeated. -/
def InfoVal.len : InfoVal → Nat
  | .one v => v.length
  | .many l => l.length

/-- `calc_bag_size()` (access/extended.py:451-466).  The subtraction is taken not to go below zero, as it cannot
when the saved metadata has the value. -/
def calcBagSize (rnd : Nat → Nat → Nat) (blen : Str → Nat) (dlen : Path → Nat) (t : Tree) (info : Info) : Nat :=
  let sz := filesSize blen t + dirsSize dlen t
  match dget info py!"Bag-Size" with
  | none => sz
  | some v =>
    let sz := sz - v.len
    sz + (formatBytes rnd sz).length

/-- The text that `update_bag_size()` sets (access/extended.py:468-476). -/
def bagSizeText (rnd : Nat → Nat → Nat) (blen : Str → Nat) (dlen : Path → Nat) (t : Tree) (info : Info) : Str :=
  formatBytes rnd (calcBagSize rnd blen dlen t info)

end Verif
