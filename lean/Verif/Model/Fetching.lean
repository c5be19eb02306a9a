import Verif.Model.RestoreCall
/-!
# Restoring with a function that fetches member bags

`BagRestorer.restore` and `restore_bag` (multibag/restore.py:134-172, 259-357) with a function `fetcher`.  A member bag
is looked for on the disk as it is when the bag is needed; `fetcher` may change the disk, and the default place for the
bags it fetches is inside the destination directory (restore.py:89-92).  The state is the whole disk.
-/

namespace Verif

/-- What a restorer depends on besides its fields and the disk: the order in which extensions are tried (see
`Restorer.find`), the function to fetch bags, the working directory, and what is in archive files. -/
structure FetchSite where
  exts : List Str
  fetcher : Option Fetcher
  cwd : Str
  archives : Path → Option Tree

/-- The bag at a path that `get_member_bag` returned, as a source to restore from (see `Restorer.source`). -/
def FetchSite.sourceAt (S : FetchSite) (disk : Tree) (p : Str) : Option RSource :=
  let q := comps (abspath S.cwd p)
  if disk.isdir q then some ⟨abspath S.cwd p, disk.below q⟩
  else (S.archives q).map (fun t => ⟨abspath S.cwd p, t⟩)

/-- Get a member bag (restore.py:161, 270) and open it: the bag, the disk, and the names for which `fetcher` was called.
Simplification: an empty path and one that leads to nothing count as no bag. -/
def FetchSite.member (S : FetchSite) (r : Restorer) (disk : Tree) (name : Str) :
    Except PyErr (Option RSource × Tree × List Str) :=
  match r.getMember S.exts S.fetcher S.cwd disk name with
  | .error e => .error e
  | .ok (p, disk') =>
    .ok ((given p).bind (S.sourceAt disk'), disk',
      if (given (r.find S.exts S.cwd disk name)).isNone && S.fetcher.isSome then [name] else [])

/-- The destination directory, component by component. -/
def FetchSite.destPath (S : FetchSite) (r : Restorer) : Path := comps (abspath S.cwd r.destdir)

/-- Do something in the destination directory. -/
def FetchSite.inDest (S : FetchSite) (r : Restorer) (f : Tree → Except PyErr Tree) (disk : Tree) : Except PyErr Tree :=
  match f (disk.below (S.destPath r)) with
  | .error e => .error e
  | .ok d => .ok (disk.withBelow (S.destPath r) d)

/-- The loop of restore.py:306-307 over `restore_member` (restore.py:150-163). -/
def FetchSite.members (S : FetchSite) (E : RestoreEnv) (r : Restorer) (skip : List Str) :
    List Str → Tree → Except PyErr (Tree × List Str)
  | [], disk => .ok (disk, [])
  | n :: rest, disk =>
    match S.member r disk n with
    | .error e => .error e
    | .ok (none, _) => .error .osError
    | .ok (some src, disk, asked) =>
      match S.inDest r (restoreFrom E src skip false) disk with
      | .error e => .error e
      | .ok disk =>
        match S.members E r skip rest disk with
        | .error e => .error e
        | .ok (disk, later) => .ok (disk, asked ++ later)

/-- The loop of restore.py:269-277. -/
def FetchSite.collectFetch (S : FetchSite) (E : RestoreEnv) (r : Restorer) :
    List Str → Tree → List (Str × Str) → Except PyErr (List (Str × Str) × Tree × List Str)
  | [], disk, fetch => .ok (fetch, disk, [])
  | n :: rest, disk, fetch =>
    match S.member r disk n with
    | .error e => .error e
    | .ok (none, _) => .error .valueError
    | .ok (some src, disk, asked) =>
      match openBag { E.base with bagpath := src.path } src.tree with
      | .error e => .error e
      | .ok _ =>
        match S.collectFetch E r rest disk (match src.tree.read [py!"fetch.txt"] with
            | none => fetch
            | some text => addFetch text fetch) with
        | .error e => .error e
        | .ok (fetch, disk, later) => .ok (fetch, disk, asked ++ later)

/-- `restore_fetch` (restore.py:259-282); the destination exists. -/
def FetchSite.restoreFetch (S : FetchSite) (E : RestoreEnv) (r : Restorer) (members : List Str) (disk : Tree) :
    Except PyErr (Tree × List Str) :=
  match S.collectFetch E r members disk [] with
  | .error e => .error e
  | .ok ([], disk, asked) => .ok (disk, asked)
  | .ok (fetch, disk, asked) =>
    match S.inDest r (fun d => d.write [py!"fetch.txt"] (fetch.map Prod.snd).flatten) disk with
    | .error e => .error e
    | .ok disk => .ok (disk, asked)

/-- `restore` (restore.py:284-327): the disk afterwards, and the names for which `fetcher` was called, in order.
Simplification: a destination that is not a directory is refused here (see `restoreBag`).  `E.find` is not used. -/
def FetchSite.restore (S : FetchSite) (E : RestoreEnv) (r : Restorer) (H : RHead) (updSizes removeMb : Bool) (disk : Tree) :
    Except PyErr (Tree × List Str) :=
  match iterDeleted H.mode H.tree H.info with
  | .error e => .error e
  | .ok deleted =>
    match iterMembers H.mode H.tree H.info with
    | .error e => .error e
    | .ok ms =>
      match (if diskExists S.cwd disk r.destdir then .ok disk else r.createDest S.cwd disk) with
      | .error e => .error e
      | .ok disk =>
        if !disk.isdir (S.destPath r) then .error .osError
        else match S.inDest r (startRestore E H (pySet deleted)) disk with
        | .error e => .error e
        | .ok disk =>
          let others := otherMembers H (ms.map (fun m => m.name))
          match S.members E r (pySet deleted) others disk with
          | .error e => .error e
          | .ok (disk, asked) =>
            match (if others = [] then .ok (disk, []) else S.restoreFetch E r others disk) with
            | .error e => .error e
            | .ok (disk, later) =>
              match S.inDest r (finishRestore E updSizes removeMb) disk with
              | .error e => .error e
              | .ok disk => .ok (disk, asked ++ later)

/-- `restore_bag(headbag, destbag, compdir, fetcher)` (restore.py:330-357), like `restoreBag` but with a function to fetch
bags: the bag it returns, the disk, and the names for which `fetcher` was called. -/
def restoreBagFetching (E : RestoreEnv) (cwd : Str) (exts : List Str) (archives : Path → Option Tree)
    (dirs : Tree → List Path) (headbag : Str) (destbag compdir : Option Str) (fetcher : Option Fetcher) (disk : Tree) :
    Except PyErr (RBag × Tree × List Str) :=
  let P := diskPlaces cwd archives dirs disk
  let S : FetchSite := { exts, fetcher, cwd, archives }
  match Restorer.make cwd disk (isHeadFrom cwd P E.base) (.location headbag) destbag compdir fetcher.isSome with
  | .error e => .error e
  | .ok r =>
    match headAt cwd P E.base headbag with
    | .error e => .error e
    | .ok H =>
      let E' := { E with base := { E.base with bagpath := r.destdir } }
      match S.restore E' r H true true disk with
      | .error e => .error e
      | .ok (disk, asked) =>
        match openBag E'.base (disk.below (S.destPath r)) with
        | .error e => .error e
        | .ok b => .ok (b, disk, asked)

end Verif
