import Verif.Model.ReadBag
import Verif.Model.HeadBag
import Verif.Model.Apply
/-!
# Restoring a bag from its members (multibag/restore.py)

`BagRestorer`.  The destination is a tree; a source bag is its location and its tree (the
member bags are assumed to lie outside the destination directory).  Fetching, caching and
unpacking of member bags are represented by one function from names to bags.

Not modelled here: modification times (see `Model/Times.lean`); the creation of a cache directory inside the destination;
log messages.
-/

namespace Verif

/-- A bag to restore from: its location and its files. -/
structure RSource where
  path : Str
  tree : Tree
deriving DecidableEq

/-- One step of a walk: directory, names of its subdirectories, names of its files. -/
abbrev WalkStep := Path × List Str × List Str

/-- What restoring depends on besides the head bag and the destination's contents. -/
structure RestoreEnv where
  /-- reading environment; its location is the destination directory -/
  base : ReadCfg
  /-- `walk()` of a bag (access/extended.py:643-660); the order of names in a directory is
  not specified -/
  walk : Tree → List WalkStep
  /-- `get_member_bag` (restore.py:141-148) -/
  find : Str → Option RSource
  /-- checksum of contents -/
  sum : Str → Str → Str
  /-- number of bytes of a file -/
  blen : Str → Nat
  /-- the text for Bag-Size (access/extended.py:451-496), floating point arithmetic and
  sizes of directories -/
  sizeText : Tree → Info → Str

/-- The breadth-first walk of PyFilesystem: all directories by depth, in tree order. -/
def walkOf (t : Tree) : List WalkStep :=
  let dirs := [] :: (t.filter (fun e => e.2 = .dir)).map Prod.fst
  let depth := (dirs.map List.length).foldr max 0
  ((List.range (depth + 1)).flatMap (fun n => dirs.filter (fun d => d.length = n))).map
    (fun d => (d, subdirsOf t d, filesOf t d))

/-! ## Copying from one bag -/

/-- The file operations of `_restore_from`, each about one path of the destination. -/
inductive Act where
  /-- `os.stat` (restore.py:190) -/
  | stat (p : Path)
  /-- copying of a file (restore.py:192-206) -/
  | file (p : Path)
  /-- creation of a directory (restore.py:208-219) -/
  | dir (p : Path)
deriving DecidableEq

/-- A directory that is passed over (restore.py:186-188). -/
def skipDir (skip : List Str) (root : Path) : Bool :=
  joinPath root ∈ skip || skip.any (fun f => startsWith (f ++ ['/']) (joinPath root))

/-- The operations for a walk (restore.py:185-219).  `os.path.join(root, f)` of a root without
slash at its end is the joined path. -/
def actsOf (skip : List Str) (w : List WalkStep) : List Act :=
  w.flatMap (fun s =>
    if skipDir skip s.1 then []
    else .stat s.1 ::
      ((s.2.2.filter (fun f => joinPath (s.1 ++ [f]) ∉ skip)).map (fun f => .file (s.1 ++ [f])) ++
       (s.2.1.filter (fun f => joinPath (s.1 ++ [f]) ∉ skip)).map (fun f => .dir (s.1 ++ [f]))))

/-- The destination and the paths of the files copied so far. -/
structure Copying where
  dest : Tree
  updated : List Str
deriving DecidableEq

/-- `"/".join([root, f])` (restore.py:199): files in the bag's root get a slash in front. -/
def slashPath (p : Path) : Str := joinPath p.dropLast ++ '/' :: (p.getLast?.getD [])

/-- One operation (restore.py:190-219).  `replicate` (access/extended.py:607-641) writes into
an existing directory here, because `os.stat` on it came before. -/
def doAct (overwrite : Bool) (src : Tree) (s : Copying) : Act → Except PyErr Copying
  | .stat p => if s.dest.exists p then .ok s else .error .osError
  | .file p =>
    match (if overwrite && s.dest.exists p then s.dest.remove p else .ok s.dest) with
    | .error e => .error e
    | .ok d =>
      if d.exists p then .ok { s with dest := d }
      else match src.read p with
        | none => .error .osError
        | some c =>
          match d.write p c with
          | .error e => .error e
          | .ok d => .ok { dest := d, updated := s.updated ++ [slashPath p] }
  | .dir p =>
    if s.dest.exists p then .ok s
    else match s.dest.mkdir p with
      | .error e => .error e
      | .ok d => .ok { s with dest := d }

/-- Operations one after the other. -/
def runActs (overwrite : Bool) (src : Tree) : List Act → Copying → Except PyErr Copying
  | [], s => .ok s
  | a :: rest, s =>
    match doAct overwrite src s a with
    | .error e => .error e
    | .ok s => runActs overwrite src rest s

/-! ## Manifests -/

/-- `updated_by_alg`: algorithm to path to checksum. -/
abbrev ByAlg := List (Str × List (Str × Str))

/-- `updated_by_alg[alg][path] = h`. -/
def ByAlg.put (m : ByAlg) (alg path h : Str) : ByAlg := dset m alg (dset ((dget m alg).getD []) path h)

/-- The checksums of the copied files (restore.py:230-236). -/
def collect (es : Entries) (updated : List Str) : ByAlg :=
  updated.foldl (fun m p => ((dget es p).getD []).foldl (fun m ah => m.put ah.1 p ah.2) m) []

/-- The inner loop of restore.py:239-241, over the algorithms. -/
def mergePath (p : Str) (hs : List (Str × Str)) : ByAlg → Except PyErr ByAlg
  | [] => .ok []
  | (alg, ps) :: rest =>
    match ((if dmem ps p then .ok ps
      else match dget hs alg with
        | none => .error .keyError
        | some h => .ok (dset ps p h)) : Except PyErr (List (Str × Str))) with
    | .error e => .error e
    | .ok ps =>
      match mergePath p hs rest with
      | .error e => .error e
      | .ok m => .ok ((alg, ps) :: m)

/-- restore.py:238-241: the checksums already recorded in the destination. -/
def mergeAll : Entries → ByAlg → Except PyErr ByAlg
  | [], m => .ok m
  | (p, hs) :: rest, m =>
    match mergePath p hs m with
    | .error e => .error e
    | .ok m => mergeAll rest m

/-- Write one manifest, unless there is nothing to list (restore.py:244-256). -/
def writeManifest (dest : Tree) (kind alg : Str) (es : List (Str × Str)) : Except PyErr Tree :=
  if es = [] then .ok dest
  else dest.write (manPath kind alg) (es.map (fun ph => hashLine ph.2 ph.1)).flatten

/-- The loop that writes the manifests (restore.py:243-256). -/
def writeManifests (dest : Tree) : ByAlg → Except PyErr Tree
  | [] => .ok dest
  | (alg, ps) :: rest =>
    match writeManifest dest py!"manifest" alg (ps.filter (fun ph => startsWith py!"data/" ph.1)) with
    | .error e => .error e
    | .ok dest =>
      match writeManifest dest py!"tagmanifest" alg (ps.filter (fun ph => !startsWith py!"data/" ph.1)) with
      | .error e => .error e
      | .ok dest => writeManifests dest rest

/-- `_update_manifests` (restore.py:227-256). -/
def updateManifests (cfg : ReadCfg) (src : Entries) (updated : List Str) (dest : Tree) : Except PyErr Tree :=
  match openBag cfg dest with
  | .error e => .error e
  | .ok b =>
    match mergeAll b.entries (collect src updated) with
    | .error e => .error e
    | .ok m => writeManifests dest m

/-! ## Restoring a member -/

/-- `_restore_from` (restore.py:174-225). -/
def restoreFrom (E : RestoreEnv) (src : RSource) (skip : List Str) (overwrite : Bool) (dest : Tree) :
    Except PyErr Tree :=
  if src.path = E.base.bagpath then .ok dest
  else match openBag { E.base with bagpath := src.path } src.tree with
  | .error e => .error e
  | .ok sb =>
    match runActs overwrite src.tree (actsOf skip (E.walk src.tree)) { dest, updated := [] } with
    | .error e => .error e
    | .ok s =>
      if s.updated = [] then .ok s.dest
      else updateManifests E.base sb.entries s.updated s.dest

/-- `restore_member` (restore.py:150-172), without the optional collection of fetch entries (see `Model/MemberFetch.lean`). -/
def restoreMember (E : RestoreEnv) (name : Str) (skip : List Str) (overwrite : Bool) (dest : Tree) :
    Except PyErr Tree :=
  match E.find name with
  | none => .error .osError
  | some src => restoreFrom E src skip overwrite dest

/-- The loop of restore.py:306-307. -/
def restoreMembers (E : RestoreEnv) (skip : List Str) : List Str → Tree → Except PyErr Tree
  | [], dest => .ok dest
  | n :: rest, dest =>
    match restoreMember E n skip false dest with
    | .error e => .error e
    | .ok dest => restoreMembers E skip rest dest

/-! ## fetch.txt -/

/-- The second part of `line.strip().rsplit(None, 1)`, if there are two (restore.py:275-276): the
last word of a line of at least two words. -/
def lastWord (line : Str) : Option Str :=
  let s := (strip line).reverse
  let w := s.takeWhile (fun c => !isSpace c)
  if w = s then none else some w.reverse

/-- The lines of one fetch.txt (restore.py:274-277).  Line ends are translated when reading. -/
def addFetch (text : Str) (fetch : List (Str × Str)) : List (Str × Str) :=
  (textLines .universal text).foldl (fun d line =>
    match lastWord line with
    | none => d
    | some k => dset d k line) fetch

/-- The loop over the members (restore.py:269-277). -/
def collectFetch (E : RestoreEnv) : List Str → List (Str × Str) → Except PyErr (List (Str × Str))
  | [], fetch => .ok fetch
  | n :: rest, fetch =>
    match E.find n with
    | none => .error .valueError
    | some src =>
      match openBag { E.base with bagpath := src.path } src.tree with
      | .error e => .error e
      | .ok _ =>
        collectFetch E rest (match src.tree.read [py!"fetch.txt"] with
          | none => fetch
          | some text => addFetch text fetch)

/-- `restore_fetch` (restore.py:259-282). -/
def restoreFetch (E : RestoreEnv) (members : List Str) (dest : Tree) : Except PyErr Tree :=
  match collectFetch E members [] with
  | .error e => .error e
  | .ok [] => .ok dest
  | .ok fetch => dest.write [py!"fetch.txt"] (fetch.map Prod.snd).flatten

/-! ## Saving the restored bag -/

/-- Insertion into a sorted list. -/
def insertKey (k : Str) : List Str → List Str
  | [] => [k]
  | x :: rest => if strLe k x then k :: x :: rest else x :: insertKey k rest

/-- `sorted(keys)`. -/
def sortKeys (ks : List Str) : List Str := ks.foldr insertKey []

/-- `_make_tag_file` of the external `bagit` package: one line per value, by sorted label; line
ends within a value are removed. -/
def tagFields (info : Info) : List (Str × Str) :=
  (sortKeys (dkeys info)).flatMap (fun k => (fields info k).map (fun v => (k, v.filter (fun c => c ≠ '\n' && c ≠ '\r'))))

/-- Tag files that tag manifests list: `_find_tag_files` and `_make_tagmanifest_file` of the
external `bagit` package.  Line ends in file names are not encoded here. -/
def taggedFiles (t : Tree) : List (Path × Str) :=
  t.filterMap (fun e => match e.2 with
    | .file c => if e.1.head? = some py!"data" then none
        else if startsWith py!"tagmanifest-" (e.1.getLast?.getD []) then none else some (e.1, c)
    | .dir => none)

/-- Rewriting of the tag manifests. -/
def writeTagManifests (sum : Str → Str → Str) : List Str → Tree → Except PyErr Tree
  | [], t => .ok t
  | alg :: rest, t =>
    match t.write (manPath py!"tagmanifest" alg)
        ((taggedFiles t).map (fun pc => hashLine (sum alg pc.2) (joinPath pc.1))).flatten with
    | .error e => .error e
    | .ok t => writeTagManifests sum rest t

/-- `Bag.save()` of the external `bagit` package: the metadata file and the tag manifests are
written and the manifests reloaded. -/
def saveBag (E : RestoreEnv) (b : RBag) : Except PyErr RBag :=
  match b.tree.write [b.tagFile] (fieldsText (tagFields b.info)) with
  | .error e => .error e
  | .ok t =>
    match writeTagManifests E.sum b.algorithms t with
    | .error e => .error e
    | .ok t =>
      match loadManifests E.base b.version b.encoding t with
      | .error e => .error e
      | .ok (algs, es) => .ok { b with tree := t, algorithms := b.algorithms ++ algs, entries := es }

/-- The fields that are removed (restore.py:316-317). -/
def multibagKeys : List Str :=
  [py!"Multibag-Version", py!"Multibag-Reference", py!"Multibag-Tag-Directory",
   py!"Multibag-Head-Version", py!"Multibag-Head-Deprecates"]

/-- `shutil.rmtree`. -/
def Tree.rmtree (t : Tree) (p : Path) : Except PyErr Tree :=
  if t.isdir p then .ok (t.filter (fun e => !p.isPrefixOf e.1)) else .error .osError

/-- restore.py:314-321. -/
def removeTags (E : RestoreEnv) (b : RBag) : Except PyErr RBag :=
  match b.tree.rmtree [py!"multibag"] with
  | .error e => .error e
  | .ok t => saveBag E { b with tree := t, info := multibagKeys.foldl ddel b.info }

/-- The text for Payload-Oxum (access/extended.py:426-449). -/
def oxumText (blen : Str → Nat) (t : Tree) : Str :=
  natStr (walkPayload blen t).sum ++ '.' :: natStr (walkPayload blen t).length

/-- restore.py:323-327. -/
def updateSizes (E : RestoreEnv) (b : RBag) : Except PyErr RBag :=
  match saveBag E { b with info := dset b.info py!"Payload-Oxum" (.one (oxumText E.blen b.tree)) } with
  | .error e => .error e
  | .ok b => saveBag E { b with info := dset b.info py!"Bag-Size" (.one (E.sizeText b.tree b.info)) }

/-! ## The whole procedure -/

/-- The head bag to restore from, opened. -/
structure RHead where
  name : Str
  path : Str
  tree : Tree
  info : Info
  mode : TextMode
deriving DecidableEq

/-- Where `restore` looks for the aggregation's metadata (restore.py:294). -/
def aggregationInfo : Path := [py!"multibag", py!"aggregation-info.txt"]

/-- The first part of `restore` (restore.py:294-302). -/
def startRestore (E : RestoreEnv) (H : RHead) (skip : List Str) (dest : Tree) : Except PyErr Tree :=
  match ((match H.tree.read aggregationInfo with
    | none => .ok dest
    | some c => dest.write [py!"bag-info.txt"] (copiedText H.mode c)) : Except PyErr Tree) with
  | .error e => .error e
  | .ok dest =>
    if H.path = E.base.bagpath then .ok dest else restoreFrom E ⟨H.path, H.tree⟩ skip false dest

/-- The members besides the head that are restored, in this order (restore.py:290, 303-304). -/
def otherMembers (H : RHead) (members : List Str) : List Str :=
  match members.reverse with
  | [] => []
  | n :: rest => if n = H.name then rest else n :: rest

/-- The last part of `restore` (restore.py:313-327). -/
def finishRestore (E : RestoreEnv) (updSizes removeMb : Bool) (dest : Tree) : Except PyErr Tree :=
  match openBag E.base dest with
  | .error e => .error e
  | .ok b =>
    match (if removeMb then removeTags E b else .ok b) with
    | .error e => .error e
    | .ok b =>
      match (if updSizes then updateSizes E b else .ok b) with
      | .error e => .error e
      | .ok b => .ok b.tree

/-- `restore` (restore.py:284-327).  `dest` is what the destination directory contains at the
start: nothing if it does not exist, the head bag if it is restored in place. -/
def restore (E : RestoreEnv) (H : RHead) (updSizes removeMb : Bool) (dest : Tree) : Except PyErr Tree :=
  match iterDeleted H.mode H.tree H.info with
  | .error e => .error e
  | .ok deleted =>
    match iterMembers H.mode H.tree H.info with
    | .error e => .error e
    | .ok ms =>
      match startRestore E H (pySet deleted) dest with
      | .error e => .error e
      | .ok dest =>
        let others := otherMembers H (ms.map (fun m => m.name))
        match restoreMembers E (pySet deleted) others dest with
        | .error e => .error e
        | .ok dest =>
          match (if others = [] then .ok dest else restoreFetch E others dest) with
          | .error e => .error e
          | .ok dest => finishRestore E updSizes removeMb dest

end Verif
