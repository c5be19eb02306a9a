import Verif.Model.Apply
import Verif.Model.Paths
/-!
# A split in a file system, whatever its outcome

`SplitPlan.apply_iter` (multibag/split.py:197-414) again, function by function as in `Verif.Model.Apply`, but with the
state of the disk also when an exception is raised; and the file operations on one file system that holds the source
bag, the output directory and everything else (`diskFS`).

Simplification: an operation that raises changes nothing (`os.makedirs` may leave some directories behind, below the
new bag).
-/

namespace Verif

variable {σ : Type}

/-- How a call ended, and the state it left. -/
abbrev Outcome (α σ : Type) := Except PyErr α × σ

/-- `for alg in hashes: self._record_hash(...)` (split.py:327-331, 401-414). -/
def recordHashesRun (fs : OutFS σ) (file : Str) : List (Str × Str) → σ → Outcome Unit σ
  | [], d => (.ok (), d)
  | (alg, h) :: rest, d =>
    match fs.append d (manPath (manType file) alg) (hashLine h file) with
    | .error e => (.error e, d)
    | .ok d => recordHashesRun fs file rest d

/-- One entry of a manifest (split.py:290-333); the result is the payload count and size and the lookup. -/
def putEntryRun (fs : OutFS σ) (S : Source) (blen : Str → Nat) (bagname : Str) (s : PState σ) (file : Str) :
    Except PyErr Unit × PState σ :=
  let p := comps file
  if S.tree.exists p = false then (.ok (), s)
  else if S.tree.isdir p then
    match ensureDir fs s.disk p with
    | .error e => (.error e, s)
    | .ok d => (.ok (), { s with disk := d })
  else
    match ensureDir fs s.disk p.dropLast with
    | .error e => (.error e, s)
    | .ok d =>
      match fs.replicate d p with
      | .error e => (.error e, { s with disk := d })
      | .ok d =>
        if fs.isfile d p = false then (.error .runtimeError, { s with disk := d })
        else
          let data := startsWith py!"data/" file
          let count := if data then s.count + 1 else s.count
          let size := if data then s.size + blen ((fs.read d p).getD []) else s.size
          match recordHashesRun fs file (S.hashes file) d with
          | (.error e, d) => (.error e, { s with disk := d })
          | (.ok _, d) => (.ok (), { disk := d, count := count, size := size, dest := dset s.dest file bagname })

/-- The loop over a manifest's contents (split.py:290). -/
def putEntriesRun (fs : OutFS σ) (S : Source) (blen : Str → Nat) (bagname : Str) :
    List Str → PState σ → Except PyErr Unit × PState σ
  | [], s => (.ok (), s)
  | f :: rest, s =>
    match putEntryRun fs S blen bagname s f with
    | (.error e, s) => (.error e, s)
    | (.ok _, s) => putEntriesRun fs S blen bagname rest s

/-- Creating the empty payload manifests (split.py:279-283). -/
def emptyManifestsRun (fs : OutFS σ) : List Str → σ → Outcome Unit σ
  | [], d => (.ok (), d)
  | a :: rest, d =>
    match fs.write d (manPath py!"manifest" a) [] with
    | .error e => (.error e, d)
    | .ok d => emptyManifestsRun fs rest d

/-- The bag directory, its data directory, the empty manifests and bagit.txt (split.py:274-285). -/
def startBagRun (fs : OutFS σ) (S : Source) (bagname : Str) (d : σ) : Outcome Unit σ :=
  match fs.newBag d bagname with
  | .error e => (.error e, d)
  | .ok d =>
    match fs.mkdir d [py!"data"] with
    | .error e => (.error e, d)
    | .ok d =>
      match emptyManifestsRun fs S.algs d with
      | (.error e, d) => (.error e, d)
      | (.ok _, d) =>
        if S.tree.exists [py!"bagit.txt"] then
          match fs.replicate d [py!"bagit.txt"] with
          | .error e => (.error e, d)
          | .ok d => (.ok (), d)
        else (.error .valueError, d)

/-- The head's multibag files (split.py:377-397). -/
def writeHeadFilesRun (fs : OutFS σ) (S : Source) (members : List Str) (dest : List (Str × Str)) (d : σ) :
    Outcome Unit σ :=
  match (if fs.isdir d [py!"multibag"] then .ok d else fs.mkdir d [py!"multibag"]) with
  | .error e => (.error e, d)
  | .ok d =>
    match fs.write d [py!"multibag", py!"member-bags.tsv"] (members.map (· ++ ['\n'])).flatten with
    | .error e => (.error e, d)
    | .ok d =>
      match fs.write d [py!"multibag", py!"file-lookup.tsv"] (lookupText dest) with
      | .error e => (.error e, d)
      | .ok d =>
        match fs.write d [py!"multibag", py!"aggregation-info.txt"]
            (copiedText S.mode ((fs.srcRead d [py!"bag-info.txt"]).getD [])) with
        | .error e => (.error e, d)
        | .ok d => if (fs.srcRead d [py!"bag-info.txt"]).isSome then (.ok (), d) else (.error .osError, d)

/-- One turn of the loop over manifests (split.py:274-397). -/
def writeBagRun (fs : OutFS σ) (S : Source) (blen : Str → Nat) (o : ApplyOpts) (bagname : Str)
    (contents : List Str) (ishead : Bool) (members : List Str) (dest : List (Str × Str)) (d : σ) :
    Outcome (List (Str × Str)) σ :=
  match startBagRun fs S bagname d with
  | (.error e, d) => (.error e, d)
  | (.ok _, d) =>
    match putEntriesRun fs S blen bagname contents { disk := d, dest := dest } with
    | (.error e, s) => (.error e, s.disk)
    | (.ok _, s) =>
      match bagInfoFields S o bagname ishead s.size s.count with
      | .error e => (.error e, s.disk)
      | .ok fields =>
        match fs.write s.disk [py!"bag-info.txt"] (fieldsText fields) with
        | .error e => (.error e, s.disk)
        | .ok d =>
          match (if ishead then writeHeadFilesRun fs S members s.dest d else (.ok (), d)) with
          | (.error e, d) => (.error e, d)
          | (.ok _, d) => (.ok s.dest, fs.finish d bagname)

/-- The loop of `apply_iter` (split.py:260-399). -/
def applyLoopRun (fs : OutFS σ) (S : Source) (blen : Str → Nat) (o : ApplyOpts) :
    List Manifest → List Str → List Str → List (Str × Str) → σ → Outcome Unit σ
  | [], _, _, _, d => (.ok (), d)
  | m :: rest, names, members, dest, d =>
    match names.head?.or m.name with
    | none => (.error .typeError, d)
    | some n =>
      let members := moveToEnd members n
      match writeBagRun fs S blen o n m.contents rest.isEmpty members dest d with
      | (.error e, d) => (.error e, d)
      | (.ok dest, d) => applyLoopRun fs S blen o rest names.tail members dest d

/-- `apply_iter`, run until it ends or raises (split.py:197-399). -/
def applyRun (fs : OutFS σ) (S : Source) (blen : Str → Nat) (o : ApplyOpts) (plan : List Manifest) (names : List Str)
    (d : σ) : Outcome Unit σ :=
  match initialIndex S with
  | .error e => (.error e, d)
  | .ok (members, dest) => applyLoopRun fs S blen o plan names members dest d

/-! ## One file system -/

/-- A file system from its root, where the source bag is, the output directory as given, and the bag being written. -/
structure SplitDisk where
  disk : Tree
  src : Path
  outdir : Str
  cur : Path := []
deriving DecidableEq

/-- `os.path.join(outdir, bagname)` (split.py:275), as the operating system finds it.  Simplification: `..` takes
back the component before it. -/
def bagDir (outdir n : Str) : Path := comps (normpath (pathJoin outdir n))

/-- A path below a directory (`os.path.join`), with `..` as in `bagDir`. -/
def below (dir p : Path) : Path := p.foldl (normStep true) dir

/-- Runs an operation on the file system. -/
def SplitDisk.lift (d : SplitDisk) (r : Except PyErr Tree) : Except PyErr SplitDisk :=
  match r with
  | .error e => .error e
  | .ok t => .ok { d with disk := t }

/-- The operations of split.py:274-397 when replication copies (access/extended.py:607-641), on one file system. -/
def diskFS : OutFS SplitDisk where
  newBag d n := SplitDisk.lift { d with cur := bagDir d.outdir n } (d.disk.mkdir (bagDir d.outdir n))
  finish d _ := d
  exists_ d p := d.disk.exists (below d.cur p)
  isdir d p := d.disk.isdir (below d.cur p)
  isfile d p := d.disk.isfile (below d.cur p)
  mkdir d p := d.lift (d.disk.mkdir (below d.cur p))
  makedirs d p := d.lift (d.disk.makedirsFrom [] (below d.cur p))
  write d p c := d.lift (d.disk.write (below d.cur p) c)
  append d p c := d.lift (d.disk.write (below d.cur p) ((d.disk.read (below d.cur p)).getD [] ++ c))
  replicate d p := match d.disk.read (below d.src p) with
    | none => .error .valueError
    | some c => d.lift (d.disk.write (below d.cur p) c)
  read d p := d.disk.read (below d.cur p)
  srcRead d p := d.disk.read (below d.src p)

end Verif
