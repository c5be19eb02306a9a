import Verif.Model.HeadBag
/-!
# `HeadBagUpdateMixin.update_info` (multibag/access/multibag.py:692-724)
-/

namespace Verif

/-- `_about_mbag_morsel` (access/multibag.py:21). -/
def ABOUT_MORSEL : Str := py!"complies with the Multibag BagIt profile"

/-- `ABOUT_MBAG` (access/multibag.py:22-23). -/
def ABOUT_MBAG : Str :=
  py!"This bag " ++ ABOUT_MORSEL ++
  py!".  For more information, refer to the URL given by Multibag-Reference tag."

/-- The values of a tag, as they appear one per line in bag-info.txt. -/
def InfoVal.values : InfoVal → List Str
  | .one s => [s]
  | .many l => l

/-- What bag-info.txt says about a tag: the values saved for it, none if absent. -/
def fields (info : Info) (key : Str) : List Str :=
  match dget info key with
  | none => []
  | some v => v.values

/-- `dict.setdefault(key, value)`. -/
def dsetDefault (info : Info) (key : Str) (v : InfoVal) : Info :=
  if dmem info key then info else dset info key v

/-- The paragraph about multibags in Internal-Sender-Description
(access/multibag.py:709-716). -/
def addAbout (info : Info) : Info :=
  match dget info py!"Internal-Sender-Description" with
  | none => dset info py!"Internal-Sender-Description" (.one ABOUT_MBAG)
  | some v =>
    let ps := v.values
    dset info py!"Internal-Sender-Description"
      (.many (if ps.any (fun p => contains ABOUT_MORSEL p) then ps else ps ++ [ABOUT_MBAG]))

/-- The fields that `update_info(version, profver)` saves first, without Bag-Size
(access/multibag.py:701-721). -/
def headInfo (version : Option Str) (profver : Str) (info : Info) : Info :=
  let info := match version with
    | none => info
    | some v => if v = [] then info else dset info py!"Multibag-Head-Version" (.one v)
  let info := dset info py!"Multibag-Version" (.one profver)
  let info := dsetDefault info py!"Multibag-Tag-Directory" (.one py!"multibag")
  let info := dsetDefault info py!"Multibag-Head-Version" (.one py!"1")
  let info := dset info py!"Multibag-Reference" (.one CURRENT_REFERENCE)
  let info := addAbout info
  let info := ddel info py!"Bag-Count"
  ddel info py!"Bag-Size"

/-- `update_info(version, profver)` (access/multibag.py:692-724): its effect on
`bag.info`.  `Bag.save` writes the fields to bag-info.txt; the size then computed by
`_bag_size()` (line 723) is a function of what was just saved, all other files of the
bag being the same.  Exceptions from `Bag.save` are not modelled here. -/
def updateInfo (size : (Str → List Str) → Str) (version : Option Str) (profver : Str) (info : Info) : Info :=
  let info := headInfo version profver info
  dset info py!"Bag-Size" (.one (size (fields info)))

end Verif
