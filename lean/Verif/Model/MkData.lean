import Verif.Py.Str
import Verif.Py.Exc
import Verif.Py.Dict
/-!
# Model of multibag/testing/mkdata.py

The size iterators, the creation of files of a given size and the making of a dataset with the default
plan.  Plans with several file sets or with directories (mkdata.py:111-239 beyond the default plan) are
in `Model/MkPlan.lean`.
-/

namespace Verif

/-! ## Size iterators -/

/-- `int(math.floor(1.0 * tz / nf + 0.5))` (mkdata.py:380), computed without rounding errors.  The
iterator below takes the quotient as a parameter, so that the effect of rounding can be stated. -/
def nearest (tz nf : Nat) : Int := ((2 * tz + nf) / (2 * nf) : Nat)

/-- The loop of `UniformSizeIterator.iterate` (mkdata.py:382-386).  `math.fabs(extra)` is taken to be exact. -/
def uniformLoop (extra : Int) : Nat → Int → List Int
  | 0, _ => []
  | nf + 1, sz =>
    let sz := if nf + 1 = extra.natAbs then sz + extra.sign else sz
    sz :: uniformLoop extra nf sz

/-- `UniformSizeIterator.iterate` (mkdata.py:372-386), run to its end; `quot` is the quotient of line 380. -/
def uniformSizes (quot : Nat → Nat → Int) (totalsize totalfiles : Option Int) : Except PyErr (List Int) :=
  match totalsize with
  | none => .error .runtimeError
  | some tz =>
    if tz < 0 then .error .runtimeError
    else match totalfiles with
      | none => .error .runtimeError
      | some nf =>
        if nf < 0 then .error .runtimeError
        else if nf = 0 then .error .zeroDivisionError
        else
          let sz := quot tz.toNat nf.toNat
          .ok (uniformLoop (tz - sz * nf) nf.toNat sz)

/-- Insertion in a decreasing list; with `sortDown` it stands for `reversed(sorted(…))` (mkdata.py:350). -/
def insertDown (n : Nat) : List Nat → List Nat
  | [] => [n]
  | m :: l => if m ≤ n then n :: m :: l else m :: insertDown n l

/-- `reversed(sorted(keys))` (mkdata.py:350). -/
def sortDown : List Nat → List Nat
  | [] => []
  | n :: l => insertDown n (sortDown l)

/-- `InventorySizeIterator.iterate` (mkdata.py:348-352). -/
def inventorySizes (sizes : List (Nat × Nat)) : List Nat :=
  (sortDown (sizes.map Prod.fst)).flatMap (fun sz => List.replicate ((dget sizes sz).getD 0) sz)

/-! ## Files -/

/-- `"%{nwd}d " % i` (mkdata.py:404, 408, 414). -/
def numbered (nwd i : Nat) : Str :=
  List.replicate (nwd - (natStr i).length) ' ' ++ natStr i ++ [' ']

/-- A full line (mkdata.py:408-410). -/
def fullLine (nwd i : Nat) : Str := numbered nwd i ++ List.replicate (98 - nwd) 'x' ++ ['\n']

/-- What follows the full lines (mkdata.py:412-420). -/
def lastLine (nwd fulllines left : Nat) : Str :=
  let out := if nwd < left then numbered nwd fulllines else []
  let left := if nwd < left then left - (nwd + 1) else left
  let out := if 1 < left then out ++ List.replicate (left - 1) 'x' else out
  let left := if 1 < left then 1 else left
  if 0 < left then out ++ ['\n'] else out

/-- The text that `create_file` writes (mkdata.py:402-420).  `lnFloor n` is `math.floor(math.log(n))`. -/
def fileText (lnFloor : Nat → Nat) (size : Nat) : Str :=
  let fulllines := size / 100
  let nwd := lnFloor (fulllines + 1) + 1
  (List.range fulllines).flatMap (fullLine nwd) ++ lastLine nwd fulllines (size - fulllines * 100)

/-! ## Datasets -/

/-- Lower case hexadecimal digits with at least three places, `"%03x"` (mkdata.py:109). -/
def hex3 (n : Nat) : Str :=
  List.replicate (3 - (Nat.toDigits 16 n).length) '0' ++ Nat.toDigits 16 n

/-- `_mkfilename` for files (mkdata.py:95-106): random numbers are drawn until one gives a name that is not
taken (`i` and `ord` never change).  `draws` are the numbers drawn; `none`: it is still looking. -/
def freshName (files : List (Str × Str)) (size : Nat) : List Nat → Option (Str × List Nat)
  | [] => none
  | r :: draws =>
    let name := hex3 r ++ '_' :: natStr size
    if dmem files name then freshName files size draws else some (name, draws)

/-- `_fill_with_files` (mkdata.py:241-256) in the root of the dataset, which is a dictionary from names to
contents.  The sizes are those yielded before the loop ends.  `nb` and `nf` are the counts so far. -/
def fillWithFiles (lnFloor : Nat → Nat) (maxsize maxfiles : Nat) :
    List Nat → List Nat → List (Str × Str) → Nat → Nat → Option (List (Str × Str) × Nat × Nat)
  | [], _, files, nb, nf => some (files, nb, nf)
  | sz :: sizes, draws, files, nb, nf =>
    if maxsize < nb + sz ∨ maxfiles ≤ nf then some (files, nb, nf)
    else match freshName files sz draws with
      | none => none
      | some (name, draws) =>
        let text := fileText lnFloor sz
        fillWithFiles lnFloor maxsize maxfiles sizes draws (dset files name text) (nb + text.length) (nf + 1)

/-- `mkdataset` with the default plan (mkdata.py:9-33, 60-68, 111-137 and 161-239 for a plan of one uniform
set whose totals are those of the dataset): nothing for an empty dataset, otherwise one run of
`_fill_with_files`.  The sizes are never negative (`nonneg_uniform`). -/
def mkdataset (lnFloor : Nat → Nat) (totalsize filecount : Nat) (draws : List Nat) (files : List (Str × Str)) :
    Except PyErr (Option (List (Str × Str))) :=
  if totalsize = 0 ∨ filecount = 0 then .ok (some files)
  else match uniformSizes nearest (some totalsize) (some filecount) with
    | .error e => .error e
    | .ok sizes =>
      .ok ((fillWithFiles lnFloor totalsize filecount (sizes.map Int.toNat) draws files 0 0).map Prod.fst)

end Verif
