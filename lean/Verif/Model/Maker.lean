import Verif.Model.Amend
import Verif.Model.TagDir
/-!
# `SingleMultibagMaker` (multibag/amend.py:35-137)
-/

namespace Verif

/-- `SingleMultibagMaker(bagdir, multibag_tagdir)` for an existing bag whose directory and metadata have been read
(amend.py:48-59). -/
def makerOpen (tree : Tree) (info : Info) (tagdir : Str) : Res Unit :=
  if tagdir ≠ py!"multibag" then (HeadBag.open tree info).setTagDir tagdir else (.ok (), HeadBag.open tree info)

/-- `SingleMultibagMaker(dir, tagdir).convert(version, pid)` (amend.py:48-59, 122-137). -/
def makerConvert (E : SaveEnv) (tree : Tree) (info : Info) (dir tagdir version : Str) (pid : Option Str) : Res Unit :=
  match makerOpen tree info tagdir with
  | (.error e, s) => (.error e, s)
  | (.ok _, s) => s.convert E dir version pid

/-- `make_single_multibag(bagdir, version, pid)` (amend.py:21-33). -/
def makeSingle (E : SaveEnv) (tree : Tree) (info : Info) (dir version : Str) (pid : Option Str) : Res Unit :=
  makerConvert E tree info dir py!"multibag" version pid

end Verif
