import Verif.Model.MkData
/-!
# Datasets made from plans: multibag/testing/mkdata.py

`mkdataset` and `DatasetMaker` for any plan: sets of files, directories in directories, repetitions.

Simplifications: `reps`, the number of directories, and the sizes and counts of an inventory are not negative (`range` of a
negative number is as good as empty); file sets do not come with an iterator object of the caller (`'iter'`); a total that is
there is an integer; no two directives are the same object.  The quotient of line 380 is computed without rounding errors (see `nearest`).
-/

namespace Verif

/-! ## Plans -/

/-- The `type` of a set of files, with what it needs (mkdata.py:54-57, 155-159, 339-346): `none`, no `sizes` in the directive. -/
inductive FileKind where
  | uniform
  | inventory (sizes : Option (List (Nat × Nat)))
  | other

/-- An iterator object and its targets (mkdata.py:258-386). -/
inductive SizeIter where
  | uniform (totalsize totalfiles : Option Int)
  | inventory (sizes : List (Nat × Nat))

/-- `iterate()`, run to its end (mkdata.py:348-352, 372-386). -/
def SizeIter.iterate : SizeIter → Except PyErr (List Nat)
  | .uniform ts tf => (uniformSizes nearest ts tf).map (·.map Int.toNat)
  | .inventory sizes => .ok (inventorySizes sizes)

/-- `target_totalsize = n` (mkdata.py:289-293); an inventory does not use it. -/
def SizeIter.setSize (n : Int) : SizeIter → SizeIter
  | .uniform _ tf => .uniform (some n) tf
  | it => it

/-- `target_totalfiles = n` (mkdata.py:303-307). -/
def SizeIter.setFiles (n : Int) : SizeIter → SizeIter
  | .uniform ts _ => .uniform ts (some n)
  | it => it

/-- A directive for a set of files (mkdata.py:112-113). -/
structure FileSet where
  kind : FileKind := .uniform
  totalsize : Option Int := none
  totalfiles : Option Int := none
  reps : Nat := 1
  iter : Option SizeIter := none

/-- A directive for a directory (mkdata.py:114-117); `files` is `none` when
there is no such key, and `number` is there when `dirs` is an integer. -/
inductive DirSpec where
  | mk (totalsize totalfiles : Option Int) (reps : Nat) (files : Option (List FileSet)) (dirs : List DirSpec) (number : Option Nat)

namespace DirSpec
def totalsize : DirSpec → Option Int | mk a _ _ _ _ _ => a
def totalfiles : DirSpec → Option Int | mk _ a _ _ _ _ => a
def reps : DirSpec → Nat | mk _ _ a _ _ _ => a
def files : DirSpec → Option (List FileSet) | mk _ _ _ a _ _ => a
def dirs : DirSpec → List DirSpec | mk _ _ _ _ a _ => a
def number : DirSpec → Option Nat | mk _ _ _ _ _ a => a
/-- The directive `{}`. -/
def empty : DirSpec := mk none none 1 none [] none

/-- The directives for the directories in it (mkdata.py:121-122). -/
def subdirs (d : DirSpec) : List DirSpec :=
  match d.number with
  | some n => List.replicate n empty
  | none => d.dirs

/-- The totals of a directive are set (mkdata.py:212, 223). -/
def setTotals (ts tf : Int) : DirSpec → DirSpec
  | mk _ _ r fs ds n => mk (some ts) (some tf) r fs ds n

/-- A directive after `_fill_dir` has worked on it: its lists were changed in place (mkdata.py:124, 149, 233), unless
`dirs` is an integer or there is no list of files. -/
def worked (d : DirSpec) (fs : List FileSet) (ds : List DirSpec) : DirSpec :=
  mk d.totalsize d.totalfiles d.reps (d.files.map (fun _ => fs)) (if d.number.isSome then d.dirs else ds) d.number

mutual
/-- How deep the directories of a plan are nested. -/
def depth : DirSpec → Nat
  | mk _ _ _ _ ds n => max (if n.isSome then 1 else 0) (depths ds) + 1
/-- The same for several. -/
def depths : List DirSpec → Nat
  | [] => 0
  | d :: ds => max d.depth (depths ds)
end
end DirSpec

/-! ## Distributing the totals -/

/-- `_iter_for` (mkdata.py:155-159). -/
def iterFor (fs : FileSet) : Except PyErr SizeIter :=
  match fs.kind with
  | .uniform => .ok (.uniform fs.totalsize fs.totalfiles)
  | .inventory (some sizes) => .ok (.inventory sizes)
  | .inventory none => .error .typeError
  | .other => .error .valueError

/-- The iterator of a set: it has one or gets one (mkdata.py:168-170). -/
def FileSet.iterOf (fs : FileSet) : Except PyErr SizeIter :=
  match fs.iter with
  | some it => .ok it
  | none => iterFor fs

/-- Resolving the iterators (mkdata.py:167-170). -/
def resolveIters : List FileSet → Except PyErr (List FileSet)
  | [] => .ok []
  | fs :: rest =>
    match fs.iterOf with
    | .error e => .error e
    | .ok it =>
      match resolveIters rest with
      | .error e => .error e
      | .ok rest => .ok ({ fs with iter := some it } :: rest)

/-- What a set says about its totals (mkdata.py:182-192): nothing if its iterator raises `RuntimeError`.  Both properties run the
iterator, so neither is known then; what the directive says is overwritten later. -/
def fileTotals (fs : FileSet) : Except PyErr (Option Int × Option Int) :=
  match fs.iter with
  | none => .ok (fs.totalsize, fs.totalfiles)
  | some it =>
    match it.iterate with
    | .ok l => .ok (some (l.sum : Nat), some (l.length : Nat))
    | .error .runtimeError => .ok (none, none)
    | .error e => .error e

/-- The same for all sets. -/
def allTotals : List FileSet → Except PyErr (List (Option Int × Option Int))
  | [] => .ok []
  | fs :: rest =>
    match fileTotals fs with
    | .error e => .error e
    | .ok t =>
      match allTotals rest with
      | .error e => .error e
      | .ok l => .ok (t :: l)

/-- What is claimed by the directives that have a total (mkdata.py:185, 190, 195, 199): total and repetitions of each. -/
def claimed (l : List (Option Int × Nat)) : Int := (l.map (fun c => c.1.getD 0 * (c.2 : Int))).sum

/-- The repetitions of those that have none (mkdata.py:209-210, 220-221). -/
def openReps (l : List (Option Int × Nat)) : Nat := ((l.filter (fun c => c.1.isNone)).map (·.2)).sum

/-- The next value for each directive without a total; `dflt` when there are no more (mkdata.py:212, 223). -/
def spread (dflt : Int) : List Int → List (Option Int × Nat) → List Int
  | _, [] => []
  | vs, (some t, _) :: rest => t :: spread dflt vs rest
  | [], (none, _) :: rest => dflt :: spread dflt [] rest
  | v :: vs, (none, _) :: rest => v :: spread dflt vs rest

/-- The totals of all directives (mkdata.py:206-215, 217-226). -/
def shareOut (total dflt : Int) (l : List (Option Int × Nat)) : Except PyErr (List Int) :=
  if l.any (fun c => c.1.isNone) then
    match uniformSizes nearest (some (total - claimed l)) (some (openReps l)) with
    | .error e => .error e
    | .ok vs => .ok (spread dflt vs l)
  else .ok (l.map (fun c => c.1.getD 0))

/-- What is left of the bytes (mkdata.py:215). -/
def bytesLeft (total : Int) (ts : List Int) (reps : List Nat) : Int := total - ((ts.zip reps).map (fun c => c.1 * (c.2 : Int))).sum

/-- What is left of the files (mkdata.py:226): repetitions count for those that came with a number, but not for the others. -/
def filesLeft (total : Int) (tf : List Int) (l : List (Option Int × Nat)) : Int :=
  total - claimed l - ((tf.zip l).map (fun c => if c.2.1.isNone then c.1 else 0)).sum

/-- A file set with the totals it has been given (mkdata.py:184, 189, 212-214, 223-225): `known`, its iterator had totals. -/
def FileSet.give (fs : FileSet) (known : Bool) (ts tf : Int) : FileSet :=
  { fs with totalsize := some ts, totalfiles := some tf,
            iter := if known then fs.iter else fs.iter.map (fun it => (it.setSize ts).setFiles tf) }

/-- The set that takes what is left (mkdata.py:230-238). -/
def extraSet (nb nf : Int) : FileSet :=
  { kind := .uniform, totalsize := some nb, totalfiles := some nf, iter := some (.uniform (some nb) (some nf)) }

/-- `_distribute` (mkdata.py:161-238): the directives with their totals, and a set for what is left. -/
def distribute (totalsize totalfiles : Int) (files : List FileSet) (dirs : List DirSpec) :
    Except PyErr (List FileSet × List DirSpec) :=
  match resolveIters files with
  | .error e => .error e
  | .ok files =>
    match allTotals files with
    | .error e => .error e
    | .ok known =>
      let reps := files.map (·.reps) ++ dirs.map (·.reps)
      let sizes := (known.map (·.1) ++ dirs.map (·.totalsize)).zip reps
      let counts := (known.map (·.2) ++ dirs.map (·.totalfiles)).zip reps
      match shareOut totalsize 0 sizes with
      | .error e => .error e
      | .ok ts =>
        match shareOut totalfiles 1 counts with
        | .error e => .error e
        | .ok tf =>
          let n := files.length
          let fs := (files.zip (known.zip ((ts.take n).zip (tf.take n)))).map
            (fun c => c.1.give c.2.1.1.isSome c.2.2.1 c.2.2.2)
          let ds := (dirs.zip ((ts.drop n).zip (tf.drop n))).map (fun c => c.1.setTotals c.2.1 c.2.2)
          let nb := bytesLeft totalsize ts reps
          let nf := filesLeft totalfiles tf counts
          .ok (if 0 < nb then fs ++ [extraSet nb (if nf ≤ 0 then 1 else nf)] else fs, ds)

/-! ## Making files and directories -/

/-- What is in the root directory of the dataset: files with their contents, and directories; a path is the list of its names. -/
structure Dataset where
  files : List (List Str × Str) := []
  dirs : List (List Str) := []

/-- `os.path.exists` (mkdata.py:100). -/
def Dataset.has (t : Dataset) (p : List Str) : Bool := t.files.any (fun f => f.1 == p) || t.dirs.contains p

/-- Something that works on the dataset, given the random numbers that it draws.  No result: it is still drawing. -/
def Making (α : Type) : Type := Dataset × List Nat → Option (Except PyErr α × Dataset × List Nat)

namespace Making
def pure {α : Type} (a : α) : Making α := fun s => some (.ok a, s)
def raise {α : Type} (e : PyErr) : Making α := fun s => some (.error e, s)
def bind {α β : Type} (m : Making α) (f : α → Making β) : Making β := fun s =>
  match m s with
  | none => none
  | some (.error e, s) => some (.error e, s)
  | some (.ok a, s) => f a s
def lift {α : Type} : Except PyErr α → Making α
  | .ok a => pure a
  | .error e => raise e
end Making

/-- `_mkfilename` (mkdata.py:95-109): a name that is not taken, `name` being made from the number drawn. -/
def mkfilename (under : List Str) (name : Nat → Str) : Making (List Str) := fun s => go s.1 s.2
where
  go (t : Dataset) : List Nat → Option (Except PyErr (List Str) × Dataset × List Nat)
    | [] => none
    | r :: draws => if t.has (under ++ [name r]) then go t draws else some (.ok (under ++ [name r]), t, draws)

/-- `_create_dir` (mkdata.py:77-82). -/
def createDir (under : List Str) : Making (List Str) :=
  (mkfilename under (fun r => hex3 r ++ py!"_d")).bind (fun p s => some (.ok p, { s.1 with dirs := s.1.dirs ++ [p] }, s.2))

/-- `_create_file` (mkdata.py:84-93); the result is the size of the file. -/
def createFile (lnFloor : Nat → Nat) (size : Nat) (under : List Str) : Making Nat :=
  (mkfilename under (fun r => hex3 r ++ '_' :: natStr size)).bind (fun p s =>
    some (.ok (fileText lnFloor size).length, { s.1 with files := s.1.files ++ [(p, fileText lnFloor size)] }, s.2))

/-- `_fill_with_files` (mkdata.py:241-256); `c`, the bytes and files so far. -/
def fillFiles (lnFloor : Nat → Nat) (target : List Str) (maxsize maxfiles : Int) : List Nat → Nat × Nat → Making (Nat × Nat)
  | [], c => .pure c
  | sz :: sizes, c =>
    if maxsize < c.1 + sz ∨ maxfiles ≤ c.2 then .pure c
    else (createFile lnFloor sz target).bind (fun n => fillFiles lnFloor target maxsize maxfiles sizes (c.1 + n, c.2 + 1))

/-- The repetitions of a set of files (mkdata.py:132-138). -/
def fillSet (lnFloor : Nat → Nat) (target : List Str) (fs : FileSet) : Nat → Nat × Nat → Making (Nat × Nat)
  | 0, c => .pure c
  | n + 1, c =>
    match fs.iter with
    | none => .pure c
    | some it =>
      (Making.lift it.iterate).bind (fun sizes =>
        (fillFiles lnFloor target (fs.totalsize.getD 0) (fs.totalfiles.getD 0) sizes (0, 0)).bind (fun d =>
          fillSet lnFloor target fs n (c.1 + d.1, c.2 + d.2)))

/-- More than was asked for has been made (mkdata.py:130, 142, 145). -/
def tooMuch (totalsize totalfiles : Int) (c : Nat × Nat) : Bool := decide (totalsize < c.1) || decide (totalfiles < c.2)

/-- The sets of files (mkdata.py:126-138). -/
def fillSets (lnFloor : Nat → Nat) (target : List Str) (totalsize totalfiles : Int) : List FileSet → Nat × Nat → Making (Nat × Nat)
  | [], c => .pure c
  | fs :: rest, c =>
    if tooMuch totalsize totalfiles c then .pure c
    else (fillSet lnFloor target fs fs.reps c).bind (fillSets lnFloor target totalsize totalfiles rest)

/-- The repetitions of a directory (mkdata.py:144-151); `fill` fills one, and the directive may be changed by it. -/
def fillReps (fill : List Str → Int → Int → DirSpec → Making ((Nat × Nat) × DirSpec)) (target : List Str)
    (totalsize totalfiles : Int) : Nat → DirSpec → Nat × Nat → Making ((Nat × Nat) × DirSpec)
  | 0, d, c => .pure (c, d)
  | n + 1, d, c =>
    if tooMuch totalsize totalfiles c then .pure (c, d)
    else (createDir target).bind (fun p =>
      (fill p (d.totalsize.getD 0) (d.totalfiles.getD 0) d).bind (fun r =>
        fillReps fill target totalsize totalfiles n r.2 (c.1 + r.1.1, c.2 + r.1.2)))

/-- The directories (mkdata.py:140-151). -/
def fillDirs (fill : List Str → Int → Int → DirSpec → Making ((Nat × Nat) × DirSpec)) (target : List Str)
    (totalsize totalfiles : Int) : List DirSpec → Nat × Nat → Making ((Nat × Nat) × List DirSpec)
  | [], c => .pure (c, [])
  | d :: rest, c =>
    if tooMuch totalsize totalfiles c then .pure (c, d :: rest)
    else (fillReps fill target totalsize totalfiles d.reps d c).bind (fun r =>
      (fillDirs fill target totalsize totalfiles rest r.1).bind (fun q => .pure (q.1, r.2 :: q.2)))

/-- `_fill_dir` (mkdata.py:111-153): bytes and files made, and the directive as it has become.  The first argument bounds the
depth of the recursion; `fillDir_fuel` shows that the depth of the plan is enough. -/
def fillDir (lnFloor : Nat → Nat) : Nat → List Str → Int → Int → DirSpec → Making ((Nat × Nat) × DirSpec)
  | 0, _, _, _, _ => fun _ => none
  | fuel + 1, target, totalsize, totalfiles, d =>
    if totalsize ≤ 0 ∨ totalfiles ≤ 0 then .pure ((0, 0), d)
    else (Making.lift (distribute totalsize totalfiles (d.files.getD []) d.subdirs)).bind (fun p =>
      (fillSets lnFloor target totalsize totalfiles p.1 (0, 0)).bind (fun c =>
        (fillDirs (fillDir lnFloor fuel) target totalsize totalfiles p.2 c).bind (fun q =>
          .pure (q.1, d.worked p.1 q.2))))

/-- `DatasetMaker(destdir, plan).fill()` (mkdata.py:40-68): `parent`, whether the directory above the destination is there. -/
def makeDataset (lnFloor : Nat → Nat) (parent : Bool) (plan : DirSpec) : Making (Nat × Nat) :=
  if parent = false then .raise .osError
  else match plan.totalsize with
    | none => .raise .valueError
    | some ts => (fillDir lnFloor plan.depth [] ts (plan.totalfiles.getD 10) plan).bind (fun r => .pure r.1)

/-- The plan that is used when there is none (mkdata.py:21-28). -/
def defaultPlan (totalsize filecount : Int) : DirSpec :=
  .mk none none 1 (some [{ totalsize := some totalsize, totalfiles := some filecount }]) [] none

/-- `mkdataset` with a plan (mkdata.py:9-33); `none`: no plan, or an empty one. -/
def mkdatasetFor (lnFloor : Nat → Nat) (parent : Bool) (totalsize filecount : Int) (plan : Option DirSpec) : Making (Nat × Nat) :=
  makeDataset lnFloor parent ((plan.getD (defaultPlan totalsize filecount)).setTotals totalsize filecount)

end Verif
