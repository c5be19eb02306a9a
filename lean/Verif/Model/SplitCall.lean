import Verif.Model.SplitRun
import Verif.Model.Split
import Verif.Model.Restorer
import Verif.Model.BagValidate
/-!
# Splitting by one call

`Splitter.split` (multibag/split.py:477-508), from the paths a user gives to the bags on disk.  The source is opened as
a `ReadOnlyBag` (split.py:545), of which the extended class has no hard links (access/extended.py:511-641), so that
`apply_iter` always copies.
-/

namespace Verif

/-- What a split depends on besides its arguments and the disk. -/
structure SplitEnv where
  /-- reading environment; its location is replaced by the bag's -/
  cfg : ReadCfg
  /-- the word characters of regular expressions -/
  word : Char → Bool
  /-- number of bytes of a file -/
  blen : Str → Nat
  /-- sizes of the files and directories of a bag -/
  size : Tree → Str → Nat
  /-- the files of a bag in the order of `fs.walk.info` (split.py:623-624), which is not specified -/
  listing : Tree → List FInfo
  /-- the working directory -/
  cwd : Str

/-- `os.path.splitext(s)[0]` of a file name: without what follows the last dot, if there is something else than dots
before it. -/
def splitextRoot (s : Str) : Str :=
  match s.reverse.dropWhile (· ≠ '.') with
  | [] => s
  | _ :: r => if r.all (· = '.') then s else r.reverse

/-- The base of the names (split.py:464-465, 470-472), for a `namebasis` that is a string or missing. -/
def nameBase (bagpath : Str) (basis : Option Str) : Str := (given basis).getD (splitextRoot (baseName bagpath))

/-- An absolute path. -/
def absolute (cwd p : Str) : Str := '/' :: joinPath (comps (abspath cwd p))

/-- `Splitter.split` (split.py:477-508) with `plan` (split.py:450-475): what it returns or raises, and the disk.
Simplification: a source that is not a directory gives an `OSError` (PyFilesystem has its own exceptions). -/
def splitCall (E : SplitEnv) (s : Splitter) (bagpath outdir : Str) (basis : Option Str) (nopass : List Str) (disk : Tree) :
    Outcome (List Str) Tree :=
  let src := comps (abspath E.cwd bagpath)
  if !disk.isdir src then (.error .osError, disk)
  else
    let cfg := { E.cfg with bagpath := rstripBy (· = '/') bagpath }
    match openBag cfg (disk.below src) with
    | .error e => (.error e, disk)
    | .ok b =>
      let t := b.tree
      match s.plan E.word (baseName cfg.bagpath) (E.size t) t (E.listing t) (simpleNamer (nameBase bagpath basis)) with
      | (.error e, _) => (.error e, disk)
      | (.ok _, plan) =>
        match applyRun diskFS (b.source cfg) E.blen { nopass := nopass } plan []
            { disk := disk, src := src, outdir := absolute E.cwd outdir } with
        | (.error e, d) => (.error e, d.disk)
        | (.ok _, d) => (.ok (plan.map (fun m => pathJoin outdir (m.name.getD []))), d.disk)

end Verif
