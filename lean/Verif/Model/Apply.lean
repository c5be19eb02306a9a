import Verif.Model.HeadBag
import Verif.Model.Info
import Verif.Model.Split
import Verif.Model.TagDir
import Verif.Model.Walk
/-!
# Applying a split plan (multibag/split.py:197-414)

`SplitPlan.apply_iter` is modelled over an interface `OutFS` to the file system,
with two implementations.

* `CopyDisk`: every bag is a tree of its own; replicating a file copies it.  This
  is what a read-only progenitor does (access/extended.py:607-641).
* `LinkDisk`: names refer to inodes, and replicating a file links to the inode of
  the progenitor's file when the file system allows it (access/extended.py:320-376
  with `replicate_with_hardlink`, which `apply_iter` turns on).

Not modelled: logging; plan entries that are absolute or contain `..`; output
names that contain a slash.
-/

namespace Verif

/-- What `apply_iter` does to the file system, for one output bag at a time. -/
structure OutFS (σ : Type) where
  /-- `os.mkdir(bagdir)` for a new output bag. -/
  newBag : σ → Str → Except PyErr σ
  /-- The bag has been written and is yielded. -/
  finish : σ → Str → σ
  /-- `os.path.exists`, `isdir` and `isfile` in the output bag. -/
  exists_ : σ → Path → Bool
  isdir : σ → Path → Bool
  isfile : σ → Path → Bool
  mkdir : σ → Path → Except PyErr σ
  makedirs : σ → Path → Except PyErr σ
  /-- `open(p, 'w')` and write. -/
  write : σ → Path → Str → Except PyErr σ
  /-- `open(p, 'a')` and write. -/
  append : σ → Path → Str → Except PyErr σ
  /-- `progenitor.replicate(p, bagdir)` for a file `p` of the progenitor. -/
  replicate : σ → Path → Except PyErr σ
  /-- Contents of a file in the output bag, for its size. -/
  read : σ → Path → Option Str
  /-- Contents of a file in the progenitor. -/
  srcRead : σ → Path → Option Str

/-! ## The bag-info.txt of an output bag -/

/-- MBAG_INTERNAL_SENDER_DESC (split.py:23-27). -/
def senderDesc : Str :=
  py!"This bag is part of a Multibag aggregation. (See Multibag-Reference for a \n   description of the Multibag profile.)  The aggregation was formed by splitting\n   the source bag (whose ID is set as the Bag-Group-Identifier) into multibag \n   member bags."

/-- The lines one source item gives rise to (split.py:339-363).  `vals[0]` of an
empty list is an `IndexError`.  A description set in the plan's manifest itself
(split.py:351) is not modelled. -/
def infoFields (nopass : List Str) (bagname : Str) (size count : Nat) :
    Str × InfoVal → Except PyErr (List (Str × Str))
  | (name, v) =>
    if startsWith py!"Multibag-" name || name ∈ nopass then .ok []
    else if name = py!"Internal-Sender-Identifier" then
      .ok ((name, bagname) :: v.values.map (fun x => (py!"Multibag-Source-" ++ name, x)))
    else if name = py!"Internal-Sender-Description" then
      .ok ((name, senderDesc) :: v.values.map (fun x => (py!"Multibag-Source-" ++ name, x)))
    else if name = py!"External-Identifier" then
      match v.values with
      | [] => .error .indexError
      | x :: xs => .ok ((x :: xs).map (fun y => (py!"Multibag-Source-" ++ name, y)) ++
          (name, x ++ (py!"/mbag:" ++ bagname)) ::
          (x :: xs).map (fun y => (py!"Bag-Group-Identifier", y)))
    else if name = py!"Bag-Size" then
      .ok (v.values.map (fun x => (py!"Multibag-Source-" ++ name, x)))
    else if name = py!"Payload-Oxum" then
      .ok [(name, natStr size ++ '.' :: natStr count)]
    else .ok (v.values.map (fun x => (name, x)))

/-- The lines of all source items, in order. -/
def infoBody (nopass : List Str) (bagname : Str) (size count : Nat) :
    Info → Except PyErr (List (Str × Str))
  | [] => .ok []
  | e :: rest =>
    match infoFields nopass bagname size count e with
    | .error x => .error x
    | .ok l =>
      match infoBody nopass bagname size count rest with
      | .error x => .error x
      | .ok r => .ok (l ++ r)

/-- The value of one deprecation (split.py:371-374). -/
def deprecateValue : Str × Option Str → Str
  | (v, none) => v
  | (v, some i) => v ++ ',' :: i

/-- The head's own lines (split.py:364-375). -/
def headFields (headVersion : Str) (deprecates : List (Str × Option Str)) : List (Str × Str) :=
  (py!"Multibag-Head-Version", headVersion) ::
    deprecates.map (fun d => (py!"Multibag-Head-Deprecates", deprecateValue d))

/-- `_write_item` (split.py:238-242), for all lines of a file. -/
def fieldsText (fs : List (Str × Str)) : Str :=
  (fs.map (fun f => f.1 ++ (':' :: ' ' :: f.2) ++ ['\n'])).flatten

/-! ## One output bag -/

/-- What `apply_iter` asks of the progenitor bag.  `tree` gives its directory
structure; `entries` its manifests as loaded (`Bag.entries`, path to algorithm to
hash); `algs` the algorithms with a payload manifest (`manifest_files`,
access/bagit.py:271-277). -/
structure Source where
  tree : Tree
  info : Info
  entries : List (Str × List (Str × Str)) := []
  algs : List Str := []
  mode : TextMode := .universal

/-- `payload_entries` and `tagfile_entries` (of the external
`bagit`) divide `entries` by the prefix `data/`, as does `apply_iter` before the
lookup (split.py:318-328), so that either way the entry of `file` is looked up. -/
def Source.hashes (S : Source) (file : Str) : List (Str × Str) := (dget S.entries file).getD []

/-- The manifest type for a file (split.py:318-326). -/
def manType (file : Str) : Str :=
  if startsWith py!"data/" file then py!"manifest" else py!"tagmanifest"

/-- Path of a manifest file (split.py:406). -/
def manPath (mantype alg : Str) : Path := [mantype ++ '-' :: alg ++ py!".txt"]

/-- The line `_record_hash` writes (split.py:410-414). -/
def hashLine (hash file : Str) : Str := hash ++ ' ' :: file ++ ['\n']

/-- State of the loop over one manifest. -/
structure PState (σ : Type) where
  disk : σ
  count : Nat := 0
  size : Nat := 0
  dest : List (Str × Str)

variable {σ : Type}

/-- `for alg in hashes: self._record_hash(...)` (split.py:327-331, 401-414). -/
def recordHashes (fs : OutFS σ) (file : Str) : List (Str × Str) → σ → Except PyErr σ
  | [], d => .ok d
  | (alg, h) :: rest, d =>
    match fs.append d (manPath (manType file) alg) (hashLine h file) with
    | .error e => .error e
    | .ok d => recordHashes fs file rest d

/-- `if not os.path.exists(p): os.makedirs(p)` (split.py:298-302, 309-311). -/
def ensureDir (fs : OutFS σ) (d : σ) (p : Path) : Except PyErr σ :=
  if fs.exists_ d p then .ok d else fs.makedirs d p

/-- One entry of a manifest (split.py:290-333).  `blen` is the size in bytes of a
file with the given contents. -/
def putEntry (fs : OutFS σ) (S : Source) (blen : Str → Nat) (bagname : Str)
    (s : PState σ) (file : Str) : Except PyErr (PState σ) :=
  let p := comps file
  if S.tree.exists p = false then .ok s
  else if S.tree.isdir p then
    match ensureDir fs s.disk p with
    | .error e => .error e
    | .ok d => .ok { s with disk := d }
  else
    match ensureDir fs s.disk p.dropLast with
    | .error e => .error e
    | .ok d =>
      match fs.replicate d p with
      | .error e => .error e
      | .ok d =>
        if fs.isfile d p = false then .error .runtimeError
        else
          let data := startsWith py!"data/" file
          let count := if data then s.count + 1 else s.count
          let size := if data then s.size + blen ((fs.read d p).getD []) else s.size
          match recordHashes fs file (S.hashes file) d with
          | .error e => .error e
          | .ok d => .ok { disk := d, count := count, size := size, dest := dset s.dest file bagname }

/-- The loop over a manifest's contents (split.py:290). -/
def putEntries (fs : OutFS σ) (S : Source) (blen : Str → Nat) (bagname : Str) :
    List Str → PState σ → Except PyErr (PState σ)
  | [], s => .ok s
  | f :: rest, s =>
    match putEntry fs S blen bagname s f with
    | .error e => .error e
    | .ok s => putEntries fs S blen bagname rest s

/-- Creating the empty payload manifests (split.py:279-283). -/
def emptyManifests (fs : OutFS σ) : List Str → σ → Except PyErr σ
  | [], d => .ok d
  | a :: rest, d =>
    match fs.write d (manPath py!"manifest" a) [] with
    | .error e => .error e
    | .ok d => emptyManifests fs rest d

/-- `os.mkdir` for the bag and its data directory, the empty manifests and bagit.txt
(split.py:274-285).  `replicate` raises `ValueError` if there is no bagit.txt. -/
def startBag (fs : OutFS σ) (S : Source) (bagname : Str) (d : σ) : Except PyErr σ :=
  match fs.newBag d bagname with
  | .error e => .error e
  | .ok d =>
    match fs.mkdir d [py!"data"] with
    | .error e => .error e
    | .ok d =>
      match emptyManifests fs S.algs d with
      | .error e => .error e
      | .ok d => if S.tree.exists [py!"bagit.txt"] then fs.replicate d [py!"bagit.txt"]
                 else .error .valueError

/-- The text that results from copying a text file line by line: `open_text_file`
of a writable bag decodes with utf-8-sig, which drops a byte order mark
(access/extended.py:378-389); that of a read-only bag translates line ends
(access/bagit.py:262-269). -/
def copiedText : TextMode → Str → Str
  | .codecs, s => dropBom s
  | .universal, s => translateNl s

/-- Settings of `apply_iter` and of the plan object. -/
structure ApplyOpts where
  nopass : List Str := []
  headVersion : Str := py!"1"
  deprecates : List (Str × Option Str) := []

/-- All lines of an output bag's bag-info.txt (split.py:335-375). -/
def bagInfoFields (S : Source) (o : ApplyOpts) (bagname : Str) (ishead : Bool) (size count : Nat) :
    Except PyErr (List (Str × Str)) :=
  match infoBody o.nopass bagname size count S.info with
  | .error e => .error e
  | .ok body => .ok ((py!"Multibag-Version", CURRENT_VERSION) :: body ++
      (py!"Multibag-Tag-Directory", py!"multibag") ::
      (if ishead then headFields o.headVersion o.deprecates else []))

/-- The head's multibag files (split.py:377-397). -/
def writeHeadFiles (fs : OutFS σ) (S : Source) (members : List Str) (dest : List (Str × Str))
    (d : σ) : Except PyErr σ :=
  match (if fs.isdir d [py!"multibag"] then .ok d else fs.mkdir d [py!"multibag"]) with
  | .error e => .error e
  | .ok d =>
    match fs.write d [py!"multibag", py!"member-bags.tsv"] (members.map (· ++ ['\n'])).flatten with
    | .error e => .error e
    | .ok d =>
      match fs.write d [py!"multibag", py!"file-lookup.tsv"] (lookupText dest) with
      | .error e => .error e
      | .ok d =>
        match fs.write d [py!"multibag", py!"aggregation-info.txt"]
            (copiedText S.mode ((fs.srcRead d [py!"bag-info.txt"]).getD [])) with
        | .error e => .error e
        | .ok d => if (fs.srcRead d [py!"bag-info.txt"]).isSome then .ok d else .error .osError

/-- One turn of the loop over manifests, from the creation of the bag directory on
(split.py:274-397). -/
def writeBag (fs : OutFS σ) (S : Source) (blen : Str → Nat) (o : ApplyOpts) (bagname : Str)
    (contents : List Str) (ishead : Bool) (members : List Str) (dest : List (Str × Str)) (d : σ) :
    Except PyErr (σ × List (Str × Str)) :=
  match startBag fs S bagname d with
  | .error e => .error e
  | .ok d =>
    match putEntries fs S blen bagname contents { disk := d, dest := dest } with
    | .error e => .error e
    | .ok s =>
      match bagInfoFields S o bagname ishead s.size s.count with
      | .error e => .error e
      | .ok fields =>
        match fs.write s.disk [py!"bag-info.txt"] (fieldsText fields) with
        | .error e => .error e
        | .ok d =>
          match (if ishead then writeHeadFiles fs S members s.dest d else .ok d) with
          | .error e => .error e
          | .ok d => .ok (fs.finish d bagname, s.dest)

/-- `if bagname in memberbags: memberbags.remove(bagname)`, then `append`
(split.py:270-272). -/
def moveToEnd (members : List Str) (n : Str) : List Str := members.erase n ++ [n]

/-- The loop of `apply_iter` (split.py:260-399).  `names` is the supply of the
naming iterator; once it is exhausted the names in the manifests are used
(split.py:261-269).  A missing name makes `os.path.join` raise `TypeError`. -/
def applyLoop (fs : OutFS σ) (S : Source) (blen : Str → Nat) (o : ApplyOpts) :
    List Manifest → List Str → List Str → List (Str × Str) → σ → Except PyErr σ
  | [], _, _, _, d => .ok d
  | m :: rest, names, members, dest, d =>
    match names.head?.or m.name with
    | none => .error .typeError
    | some n =>
      let members := moveToEnd members n
      match writeBag fs S blen o n m.contents rest.isEmpty members dest d with
      | .error e => .error e
      | .ok (d, dest) => applyLoop fs S blen o rest names.tail members dest d

/-- Names of the members a head bag progenitor already has (split.py:248-254): a missing
file is ignored. -/
def initialMembers (S : Source) : Except PyErr (List Str) :=
  match iterMembers S.mode S.tree S.info with
  | .ok ms => .ok (ms.map (·.name))
  | .error .missingFile => .ok []
  | .error e => .error e

/-- The lookup a head bag progenitor already has (split.py:255-258). -/
def initialLookup (S : Source) : Except PyErr (List (Str × Str)) :=
  match iterLookup S.mode S.tree S.info with
  | .ok l => .ok (dofPairs l)
  | .error .missingFile => .ok []
  | .error e => .error e

/-- The index the loop starts from (split.py:245-258). -/
def initialIndex (S : Source) : Except PyErr (List Str × List (Str × Str)) :=
  if dmem S.info py!"Multibag-Head-Version" then
    match initialMembers S with
    | .error e => .error e
    | .ok members =>
      match initialLookup S with
      | .error e => .error e
      | .ok lookup => .ok (members, lookup)
  else .ok ([], [])

/-- `apply_iter`, run to its end (split.py:197-399).  The check for an empty plan
(split.py:227) tests the bound method `self.manifests` and never fires. -/
def applyPlan (fs : OutFS σ) (S : Source) (blen : Str → Nat) (o : ApplyOpts)
    (plan : List Manifest) (names : List Str) (d : σ) : Except PyErr σ :=
  match initialIndex S with
  | .error e => .error e
  | .ok (members, dest) => applyLoop fs S blen o plan names members dest d

/-! ## Copying -/

/-- Output directory and progenitor, when files are copied. -/
structure CopyDisk where
  src : Tree
  /-- Names that exist in the output directory. -/
  taken : List Str := []
  /-- The bag being written. -/
  out : Tree := []
  done : List (Str × Tree) := []
deriving DecidableEq

/-- Runs an operation on the current output bag. -/
def CopyDisk.lift (d : CopyDisk) (r : Except PyErr Tree) : Except PyErr CopyDisk :=
  match r with
  | .error e => .error e
  | .ok t => .ok { d with out := t }

/-- File operations when replication copies (access/extended.py:607-641). -/
def copyFS : OutFS CopyDisk where
  newBag d n := if n ∈ d.taken then .error .osError
    else .ok { d with taken := n :: d.taken, out := [] }
  finish d n := { d with done := d.done ++ [(n, d.out)], out := [] }
  exists_ d p := d.out.exists p
  isdir d p := d.out.isdir p
  isfile d p := d.out.isfile p
  mkdir d p := d.lift (d.out.mkdir p)
  makedirs d p := d.lift (d.out.makedirsFrom [] p)
  write d p c := d.lift (d.out.write p c)
  append d p c := d.lift (d.out.write p ((d.out.read p).getD [] ++ c))
  replicate d p := match d.src.read p with
    | none => .error .valueError
    | some c => d.lift (d.out.write p c)
  read d p := d.out.read p
  srcRead d p := d.src.read p

/-! ## Linking -/

/-- A directory entry whose contents are in an inode. -/
inductive LNode where
  | dir
  | file (inode : Nat)
deriving DecidableEq, Repr

/-- A directory tree of names for inodes. -/
abbrev LTree := List (Path × LNode)

/-- The contents seen through a name. -/
def LNode.view (data : Nat → Str) : LNode → Node
  | .dir => .dir
  | .file i => .file (data i)

/-- The files seen in a directory. -/
def LTree.view (data : Nat → Str) (t : LTree) : Tree := t.map (fun e => (e.1, e.2.view data))

/-- Output directory and progenitor on one file system. -/
structure LinkDisk where
  /-- Contents of the inodes. -/
  data : Nat → Str
  /-- All inodes from here on are unused. -/
  next : Nat
  /-- Whether `os.link` succeeds. -/
  canLink : Bool
  src : LTree
  taken : List Str := []
  out : LTree := []
  done : List (Str × LTree) := []

/-- `os.mkdir` on names. -/
def LTree.mkdir (t : LTree) (p : Path) : Except PyErr LTree :=
  if (p = [] || (dget t p).isSome) || !(p.dropLast = [] || dget t p.dropLast = some .dir) then
    .error .osError
  else .ok (dset t p .dir)

/-- `os.makedirs` on names; see `Tree.makedirsFrom`. -/
def LTree.makedirsFrom (t : LTree) (pre : Path) : Path → Except PyErr LTree
  | [] => .ok t
  | c :: rest =>
    if dget t (pre ++ [c]) = some .dir then t.makedirsFrom (pre ++ [c]) rest
    else match t.mkdir (pre ++ [c]) with
      | .error e => .error e
      | .ok t => t.makedirsFrom (pre ++ [c]) rest

namespace LinkDisk

/-- Contents of an inode replaced. -/
def setData (d : LinkDisk) (i : Nat) (c : Str) : LinkDisk :=
  { d with data := fun j => if j = i then c else d.data j }

/-- `open(p, 'w')`: an existing file keeps its inode, whose contents are replaced. -/
def write (d : LinkDisk) (p : Path) (c : Str) : Except PyErr LinkDisk :=
  if p = [] || dget d.out p = some .dir ||
      !(p.dropLast = [] || dget d.out p.dropLast = some .dir) then .error .osError
  else match dget d.out p with
    | some (.file i) => .ok (d.setData i c)
    | _ => .ok { d.setData d.next c with next := d.next + 1, out := dset d.out p (.file d.next) }

/-- Contents of a file of the output bag. -/
def read (d : LinkDisk) (p : Path) : Option Str :=
  match dget d.out p with
  | some (.file i) => some (d.data i)
  | _ => none

/-- `replicate` (access/extended.py:320-376): a link if possible, else a copy; copying
a file onto itself is an error that is ignored. -/
def replicate (d : LinkDisk) (p : Path) : Except PyErr LinkDisk :=
  match dget d.src p with
  | some (.file i) =>
    if d.canLink && (dget d.out p).isNone && (p.dropLast = [] || dget d.out p.dropLast = some .dir)
        && p ≠ [] then
      .ok { d with out := dset d.out p (.file i) }
    else if dget d.out p = some (.file i) then .ok d
    else match d.write p (d.data i) with
      | .ok d => .ok d
      | .error _ => .ok d
  | _ => .error .valueError

/-- Runs an operation on the names of the current output bag. -/
def lift (d : LinkDisk) (r : Except PyErr LTree) : Except PyErr LinkDisk :=
  match r with
  | .error e => .error e
  | .ok t => .ok { d with out := t }

end LinkDisk

/-- File operations when replication links. -/
def linkFS : OutFS LinkDisk where
  newBag d n := if n ∈ d.taken then .error .osError
    else .ok { d with taken := n :: d.taken, out := [] }
  finish d n := { d with done := d.done ++ [(n, d.out)], out := [] }
  exists_ d p := p = [] || (dget d.out p).isSome
  isdir d p := p = [] || dget d.out p = some .dir
  isfile d p := (d.read p).isSome
  mkdir d p := d.lift (d.out.mkdir p)
  makedirs d p := d.lift (d.out.makedirsFrom [] p)
  write d p c := d.write p c
  append d p c := d.write p ((d.read p).getD [] ++ c)
  replicate d p := d.replicate p
  read d p := d.read p
  srcRead d p := match dget d.src p with
    | some (.file i) => some (d.data i)
    | _ => none

end Verif
