import Verif.Model.ReadBag
import Verif.Model.Amend
/-!
# Validation (multibag/validate/)

`ValidationIssue`, `ValidationResults`, `Validator`, `BagValidator`, `MemberBagValidator` and
`HeadBagValidator`.

Simplifications: the prose of a check (`spec`) and the profile version shown with it are left
out, its label is kept; if a validator raises, what it had recorded in a `ValidationResults`
given by the caller is not kept.
-/

namespace Verif

/-! ## Results (validate/base.py) -/

/-- Issue types (validate/base.py:19-28). -/
def ERROR : Nat := 1
@[inherit_doc ERROR] def WARN : Nat := 2
@[inherit_doc ERROR] def REC : Nat := 4
@[inherit_doc ERROR] def ALL : Nat := 7
@[inherit_doc ERROR] def PROB : Nat := 3

/-- `ValidationIssue` (validate/base.py:31-57). -/
structure Issue where
  label : Str
  type : Nat := ERROR
  passed : Bool := true
  comments : List Str := []
deriving DecidableEq, Repr

/-- `ValidationResults` (validate/base.py:193-227): the issues wanted and the three lists. -/
structure Results where
  want : Nat
  errors : List Issue := []
  warnings : List Issue := []
  recs : List Issue := []
deriving DecidableEq, Repr

/-- A bit of a mask is set: `ERROR & issuetype` as a condition. -/
def wants (mask type : Nat) : Bool := mask &&& type ≠ 0

namespace Results

/-- `applied` (validate/base.py:229-243). -/
def applied (r : Results) (mask : Nat := ALL) : List Issue :=
  (if wants mask ERROR then r.errors else []) ++ (if wants mask WARN then r.warnings else []) ++
    (if wants mask REC then r.recs else [])

/-- `failed` (validate/base.py:252-257). -/
def failed (r : Results) (mask : Nat := ALL) : List Issue := (r.applied mask).filter (fun i => !i.passed)

/-- `passed` (validate/base.py:266-271). -/
def passed (r : Results) (mask : Nat := ALL) : List Issue := (r.applied mask).filter (fun i => i.passed)

/-- `count_applied` (validate/base.py:245-250). -/
def countApplied (r : Results) (mask : Nat := ALL) : Nat := (r.applied mask).length

/-- `count_failed` (validate/base.py:259-264). -/
def countFailed (r : Results) (mask : Nat := ALL) : Nat := (r.failed mask).length

/-- `count_passed` (validate/base.py:273-278). -/
def countPassed (r : Results) (mask : Nat := ALL) : Nat := (r.passed mask).length

/-- `ok` (validate/base.py:280-285). -/
def ok (r : Results) : Bool := r.countFailed r.want == 0

/-- `_add_issue` (validate/base.py:287-316): the issue object is changed and a copy of it recorded.
An unknown type makes the setter of `type` add a number to a string (lines 86-91). -/
def addIssue (r : Results) (i : Issue) (type : Nat) (passed : Bool) (comments : List Str) :
    Except PyErr (Issue × Results) :=
  let i : Issue := { i with type := type, passed := passed, comments := i.comments ++ comments }
  if type = ERROR then .ok (i, { r with errors := r.errors ++ [i] })
  else if type = WARN then .ok (i, { r with warnings := r.warnings ++ [i] })
  else if type = REC then .ok (i, { r with recs := r.recs ++ [i] })
  else .error .typeError

/-- `_err` with a new issue made by `_issue` (validate/base.py:318-329, 345-351). -/
def err (r : Results) (label : Str) (passed : Bool) (comments : List Str := []) : Results :=
  { r with errors := r.errors ++ [⟨label, ERROR, passed, comments⟩] }

/-- `_warn` with a new issue (validate/base.py:331-336). -/
def warn (r : Results) (label : Str) (passed : Bool) (comments : List Str := []) : Results :=
  { r with warnings := r.warnings ++ [⟨label, WARN, passed, comments⟩] }

/-- `_rec` with a new issue (validate/base.py:338-343). -/
def recommend (r : Results) (label : Str) (passed : Bool) (comments : List Str := []) : Results :=
  { r with recs := r.recs ++ [⟨label, REC, passed, comments⟩] }

end Results

/-- `to_json_obj` (validate/base.py:174-186): `self.profile` does not exist. -/
def Issue.toJson (_ : Issue) : Except PyErr Unit := .error .attributeError

/-- `is_valid` (validate/base.py:430-441). -/
def isValid (validate : Nat → Except PyErr Results) (want : Nat) : Except PyErr Bool :=
  match validate want with
  | .error e => .error e
  | .ok r => .ok r.ok

/-- `ensure_valid` (validate/base.py:443-457).  The `MultibagValidationError` is a
`BagValidationError`. -/
def ensureValid (validate : Nat → Except PyErr Results) (want : Nat) : Except PyErr Unit :=
  match validate want with
  | .error e => .error e
  | .ok r => if r.ok then .ok () else .error .bagValidationError

/-! ## The bag being validated -/

/-- How `Bag.validate()` of the bag ends (external `bagit` with the overrides in
access/bagit.py:433-557). -/
inductive BagVerdict where
  | valid
  | invalid (comments : List Str)
  | raises (e : PyErr)
deriving DecidableEq, Repr

/-- The bag as its validators see it: its name (access/bagit.py:164-166, 617-667), contents and
metadata, and what `Bag.validate()` does. -/
structure VBag where
  name : Str
  tree : Tree
  info : Info
  verdict : BagVerdict
deriving DecidableEq

/-- `BagValidator.validate` (validate/bag.py:25-46).  In Python 3 only `BagValidationError` has a
`message`, so any other `BagError` ends in an `AttributeError`. -/
def validateBag (b : VBag) (want : Nat) (out : Results) : Except PyErr Results :=
  if wants want ERROR then
    match b.verdict with
    | .valid => .ok (out.err py!"2-Bag" true)
    | .invalid comments => .ok (out.err py!"2-Bag" false comments)
    | .raises .bagValidationError => .ok (out.err py!"2-Bag" false)
    | .raises .bagError => .error .attributeError
    | .raises e => .error e
  else .ok out

/-- A metadata value used as a condition. -/
def InfoVal.truthy : InfoVal → Bool
  | .one s => s ≠ []
  | .many l => l ≠ []

/-- `info.get(key)` used as a condition. -/
def hasValue (info : Info) (key : Str) : Bool :=
  match dget info key with
  | none => false
  | some v => v.truthy

/-- `self.bag.info.get("Multibag-Version")`, of a list the last (headbag.py:54-56, member.py:50-52).
An empty list behaves like no value. -/
def infoVersion (info : Info) : Option Str :=
  match dget info py!"Multibag-Version" with
  | none => none
  | some (.one s) => some s
  | some (.many l) => l.getLast?

/-! ## Member bags (validate/member.py) -/

/-- `validate_bagname` (validate/member.py:68-89). -/
def validateBagname (b : VBag) (version : Str) (out : Results) : Results :=
  if version = py!"0.2" then out
  else
    let out := out.err py!"2.1a-name-TAB" (!b.name.contains '\t')
    out.err py!"2.1b-name-wsp" (!(b.name.head?.any isSpace) && !(b.name.getLast?.any isSpace))

/-- The loop of `validate_as_nonhead` over tag directories (validate/member.py:116-120). -/
def warnDirs (b : VBag) : List Str → Results → Results
  | [], out => out
  | d :: ds, out => warnDirs b ds (out.warn py!"2-Tag-Directory" (!b.tree.exists (comps d)))

/-- The tag directories a bag names (validate/member.py:110-114, headbag.py:277-281). -/
def tagDirs (info : Info) : List Str :=
  match dget info py!"Multibag-Tag-Directory" with
  | none => [py!"multibag"]
  | some (.one s) => if s = [] then [py!"multibag"] else [s]
  | some (.many l) => if l = [] then [py!"multibag"] else l

/-- `validate_as_nonhead` (validate/member.py:91-122). -/
def validateAsNonhead (b : VBag) (out : Results) : Results :=
  if isHeadInfo b.info then out
  else
    let out := out.warn py!"2-Head-Deprecates" (!dmem b.info py!"Multibag-Head-Deprecates")
    let out := out.warn py!"2-Tag-Directory" (!dmem b.info py!"Multibag-Tag-Directory")
    warnDirs b (tagDirs b.info) out

/-- `MemberBagValidator.validate` (validate/member.py:30-66).  Lines 63-64 hand on the parameter
`results`, not the object made in line 48: without a `results` argument the last checks go to objects
of their own, which are dropped. -/
def validateMember (b : VBag) (want : Nat) (results : Option Results) : Except PyErr Results :=
  let out := results.getD { want := want }
  match validateBag b want out with
  | .error e => .error e
  | .ok out =>
    let version := (infoVersion b.info).getD []
    let out := out.recommend py!"3-Version-for-member" (version ≠ [])
    if version = [] then .ok out
    else match results with
      | none => .ok out
      | some _ => .ok (validateAsNonhead b (validateBagname b version out))

/-! ## URLs -/

/-- Characters of a URL scheme. -/
def schemeChar (c : Char) : Bool :=
  ('a' ≤ c && c ≤ 'z') || ('A' ≤ c && c ≤ 'Z') || ('0' ≤ c && c ≤ '9') || c = '+' || c = '-' || c = '.'

/-- ASCII letters. -/
def asciiLetter (c : Char) : Bool := ('a' ≤ c && c ≤ 'z') || ('A' ≤ c && c ≤ 'Z')

/-- The scheme and the rest: `urlsplit` up to its first `if` about `//` (Python's `urllib.parse`). -/
def splitScheme (url : Str) : Str × Str :=
  let s := url.takeWhile (· ≠ ':')
  if s.length < url.length && s.head?.any asciiLetter && s.all schemeChar then
    (s.map Char.toLower, url.drop (s.length + 1))
  else ([], url)

/-- `urlparse(url)`: scheme and network location.  `hostOk` decides on network locations with
matching brackets or unusual characters, which `urllib.parse` may reject. -/
def urlparse (hostOk : Str → Bool) (url : Str) : Except PyErr (Str × Str) :=
  let url := (url.dropWhile (fun c => c.toNat ≤ 32)).filter (fun c => c ≠ '\t' && c ≠ '\r' && c ≠ '\n')
  match splitScheme url with
  | (scheme, '/' :: '/' :: rest) =>
    let netloc := rest.takeWhile (fun c => c ≠ '/' && c ≠ '?' && c ≠ '#')
    if netloc.contains '[' != netloc.contains ']' || !hostOk netloc then .error .valueError
    else .ok (scheme, netloc)
  | (scheme, _) => .ok (scheme, [])

/-! ## Head bags (validate/headbag.py) -/

/-- `validate_version` (validate/headbag.py:70-98). -/
def validateVersion (b : VBag) (version : Option Str) (out : Results) : Results :=
  let out := out.err py!"3-Version" (hasValue b.info py!"Multibag-Version")
  match dget b.info py!"Multibag-Version" with
  | none => out
  | some (.one s) =>
    if s = [] then out
    else
      let out := out.warn py!"3-Version" true
      out.err py!"3-Version-val" (version == some s)
  | some (.many l) =>
    if l = [] then out
    else
      let out := out.warn py!"3-Version" false
      -- a list is compared with a string
      out.err py!"3-Version-val" false

/-- `validate_reference` (validate/headbag.py:100-126). -/
def validateReference (hostOk : Str → Bool) (b : VBag) (out : Results) : Except PyErr Results :=
  let out := out.recommend py!"3-Reference" (hasValue b.info py!"Multibag-Reference")
  match dget b.info py!"Multibag-Reference" with
  | none => .ok out
  | some v =>
    if v.truthy then
      let url := v.values.getLast?.getD []
      let out := out.err py!"3-Reference-val" (url ≠ [])
      match urlparse hostOk url with
      | .error e => .error e
      | .ok (scheme, netloc) => .ok (out.err py!"3-Reference-val" (scheme ≠ [] && netloc ≠ []))
    else .ok out

/-- `validate_tag_directory` (validate/headbag.py:128-162). -/
def validateTagDirectory (b : VBag) (out : Results) : Results :=
  match dget b.info py!"Multibag-Tag-Directory" with
  | none => out.err py!"3-Tag-Directory" (b.tree.isdir [py!"multibag"])
  | some v =>
    let last := v.values.getLast?.getD []
    let out := out.err py!"3-Tag-Directory" (last ≠ [])
    if last = [] then out
    else
      let out := out.err py!"3-Tag-Directory" (v.values.length == 1)
      out.err py!"3-Tag-Directory" (b.tree.isdir (comps last))

/-- `validate_head_version` (validate/headbag.py:164-193). -/
def validateHeadVersion (b : VBag) (out : Results) : Results :=
  match dget b.info py!"Multibag-Head-Version" with
  | none => out.err py!"3-Head-Version" false
  | some v =>
    let out := out.warn py!"3-Head-Version_nonempty" (v.values.getLast?.getD [] ≠ [])
    if v.values = [] then out
    else out.warn py!"3-Head-Version_single" (v.values.length == 1)

/-- The parts of a deprecation: `[p.strip() for p in val.split(',')]` (validate/headbag.py:225). -/
def deprecParts (val : Str) : List Str := (splitOn ',' val).map strip

/-- `validate_head_deprecates` (validate/headbag.py:195-249). -/
def validateHeadDeprecates (b : VBag) (out : Results) : Except PyErr Results :=
  match dget b.info py!"Multibag-Head-Deprecates" with
  | none => .ok out
  | some v =>
    let headver := match dget b.info py!"Multibag-Head-Version" with
      | none => []
      | some h => h.values.getLast?.getD []
    if headver = [] then .error .assertionError
    else
      let out := out.warn py!"3-Head-Deprecates_notempty" (v.values.head?.getD [] ≠ [])
      if v.values.head?.getD [] = [] then .ok out
      else
        let badfmt := v.values.filter (fun val => (deprecParts val).length > 2)
        let selfdep := v.values.any (fun val =>
          (deprecParts val).head? = some headver || (deprecParts val)[1]? = some b.name)
        let out := out.err py!"3-Head-Deprecates_format" (badfmt = []) badfmt
        let out := out.warn py!"3-Head-Deprecates_notempty" (v.values.any (fun val => val ≠ []))
        .ok (out.warn py!"3-Head-Deprecates_notselfdep" (!selfdep))

/-- One element of `validate_baginfo_recs` (validate/headbag.py:258-267).  For a single value
`data[el][-1]` is its last character and `all` looks at its characters. -/
def validateRec (b : VBag) (el : Str) (out : Results) : Results :=
  match dget b.info el with
  | none => out.recommend py!"3-2" false
  | some (.one s) =>
    let out := out.recommend py!"3-2" (s ≠ [])
    if s = [] then out else out.err py!"3-2" true
  | some (.many l) =>
    let good := l.getLast?.getD [] ≠ []
    let out := out.recommend py!"3-2" good
    if good then out.err py!"3-2" (l.all (fun s => s ≠ [])) else out

/-- `validate_baginfo_recs` (validate/headbag.py:251-269). -/
def validateBaginfoRecs (b : VBag) (out : Results) : Results :=
  let out := validateRec b py!"Internal-Sender-Identifier" out
  let out := validateRec b py!"Internal-Sender-Description" out
  validateRec b py!"Bag-Group-Identifier" out

/-- The comment naming line numbers (validate/headbag.py:339-345 and alike): at most four words, of which
the fourth then is `...`. -/
def lineComment : List Nat → List Str
  | [] => []
  | l =>
    let words := if l.length > 4 then (l.take 3).map natStr ++ [py!"..."] else l.map natStr
    [py!"line" ++ (if l.length > 1 then py!"s" else []) ++ ' ' :: joinWith py!", " words]

/-- What the loop over the member list finds (validate/headbag.py:308-334, 388-411). -/
structure MemberScan where
  line : Nat := 0
  badfmt : List Nat := []
  badurl : List Nat := []
  replicated : List Nat := []
  found : List Str := []
  foundme : Bool := false
  last : Option Str := none
deriving DecidableEq

/-- The URL of a line, if there is one (validate/headbag.py:408-411, 328-331): reported are URLs without
scheme and those with a network location. -/
def checkUrl (hostOk : Str → Bool) (url : Str) (line : Nat) (bad : List Nat) : Except PyErr (List Nat) :=
  if url = [] then .ok bad
  else match urlparse hostOk url with
    | .error e => .error e
    | .ok (scheme, netloc) => .ok (if scheme = [] || netloc ≠ [] then bad ++ [line] else bad)

/-- One line of the member list (validate/headbag.py:396-411; 316-334 with `split` and `tooMany` for
profile 0.2). -/
def scanMember (hostOk : Str → Bool) (split : Str → List Str) (tooMany : List Str → Bool) (name : Str)
    (s : MemberScan) (line : Str) : Except PyErr MemberScan :=
  let s := { s with line := s.line + 1 }
  if strip line = [] then .ok s
  else
    let parts := (split (strip line)).map strip
    let bag := parts.head?.getD []
    let s := { s with last := some bag, foundme := s.foundme || bag = name }
    let s := if bag ∈ s.found then { s with replicated := s.replicated ++ [s.line] }
      else { s with found := s.found ++ [bag] }
    let url := parts[1]?.getD []
    match checkUrl hostOk url s.line s.badurl with
    | .error e => .error e
    | .ok bad =>
      .ok { s with badurl := bad, badfmt := if tooMany parts then s.badfmt ++ [s.line] else s.badfmt }

/-- The loop over the lines. -/
def scanMembers (hostOk : Str → Bool) (split : Str → List Str) (tooMany : List Str → Bool) (name : Str) :
    List Str → MemberScan → Except PyErr MemberScan
  | [], s => .ok s
  | l :: ls, s =>
    match scanMember hostOk split tooMany name s l with
    | .error e => .error e
    | .ok s => scanMembers hostOk split tooMany name ls s

/-- The checks after the loop (validate/headbag.py:337-375, 413-451). -/
def reportMembers (name : Str) (s : MemberScan) (out : Results) : Results :=
  let out := out.err py!"4.1-1" (s.badfmt = []) (lineComment s.badfmt)
  let out := out.err py!"4.1-2" (s.badurl = []) (lineComment s.badurl)
  let out := out.err py!"4.1-3" s.foundme
  let out := out.err py!"4.1-4" (s.last = some name)
  out.warn py!"4.1-5" (s.replicated = []) (lineComment s.replicated)

/-- `_validate_group_members` and `_validate_member_bags_03` (validate/headbag.py:300-377, 379-453): the
file, how a line is split and which lines are badly formatted differ. -/
def validateMemberFile (hostOk : Str → Bool) (file : Str) (split : Str → List Str) (tooMany : List Str → Bool)
    (b : VBag) (mdir : Str) (out : Results) : Except PyErr Results :=
  match b.tree.read (tagFile mdir file) with
  | none => .ok (out.err py!"4.0-1" false)
  | some text =>
    match scanMembers hostOk split tooMany b.name (textLines .universal text) {} with
    | .error e => .error e
    | .ok s => .ok (reportMembers b.name s (out.err py!"4.0-1" true))

/-- The directory looked at, after the assertions (validate/headbag.py:276-285 and alike). -/
def assertedDir (b : VBag) : Except PyErr Str :=
  let mdir := (tagDirs b.info).getLast?.getD []
  if mdir = [] then .error .assertionError
  else if isHeadInfo b.info then .ok mdir
  else .error .assertionError

/-- `validate_member_bags` (validate/headbag.py:271-298). -/
def validateMemberBags (hostOk : Str → Bool) (b : VBag) (version : Option Str) (out : Results) :
    Except PyErr Results :=
  match assertedDir b with
  | .error e => .error e
  | .ok mdir =>
    let out := out.err py!"3-Tag-Directory" (b.tree.isdir (comps mdir))
    if b.tree.isdir (comps mdir) = false then .ok out
    else if version = some py!"0.2" then
      validateMemberFile hostOk py!"group-members.txt" splitWs (fun ps => ps.length > 2) b mdir out
    else validateMemberFile hostOk py!"member-bags.tsv" (splitOn '\t') (fun _ => false) b mdir out

/-- What the loop over the lookup file finds (validate/headbag.py:492-512, 578-598). -/
structure LookupScan where
  line : Nat := 0
  badfmt : List Nat := []
  replicated : List Nat := []
  missing : List Nat := []
  paths : List Str := []
deriving DecidableEq

/-- One line of the lookup file (validate/headbag.py:584-598, 498-512). -/
def scanLookup (split : Str → List Str) (b : VBag) (s : LookupScan) (line : Str) : LookupScan :=
  let s := { s with line := s.line + 1 }
  if strip line = [] then s
  else
    let parts := (split line).map strip
    let path := parts.head?.getD []
    let s := if path ∈ s.paths then { s with replicated := s.replicated ++ [s.line] }
      else { s with paths := s.paths ++ [path] }
    let s := if parts.length ≠ 2 then { s with badfmt := s.badfmt ++ [s.line] } else s
    if parts[1]? = some b.name && !b.tree.isfile (comps path) then { s with missing := s.missing ++ [s.line] } else s

/-- The payload files that ought to be listed (validate/headbag.py:549-554, 635-640): those whose name
does not start with a dot or an underscore. -/
def listedPayload (t : Tree) : List Str :=
  t.filterMap (fun e => match e.2 with
    | .file _ =>
      if e.1.head? = some py!"data" && e.1.length ≠ 1 &&
          !((e.1.getLast?.getD []).head?.any (fun c => c = '.' || c = '_'))
      then some (joinPath e.1) else none
    | .dir => none)

/-- `_validate_group_directory` and `_validate_file_lookup_03` (validate/headbag.py:484-568, 570-654).
Without a directory data/ the bag's file system raises. -/
def validateLookupFile (file : Str) (split : Str → List Str) (b : VBag) (mdir : Str) (out : Results) :
    Except PyErr Results :=
  match b.tree.read (tagFile mdir file) with
  | none => .ok (out.err py!"4.0-2" false)
  | some text =>
    let s := (textLines .universal text).foldl (scanLookup split b) {}
    let out := out.err py!"4.0-2" true
    let out := out.err py!"4.2-1" (s.badfmt = []) (lineComment s.badfmt)
    let out := out.err py!"4.2-2" (s.missing = []) (lineComment s.missing)
    let out := out.warn py!"4.2-3" (s.replicated = []) (lineComment s.replicated)
    if b.tree.isdir [py!"data"] = false then .error .osError
    else .ok (out.recommend py!"4.2-4" ((listedPayload b.tree).all (fun p => p ∈ s.paths)))

/-- `validate_file_lookup` (validate/headbag.py:455-482). -/
def validateFileLookup (b : VBag) (version : Option Str) (out : Results) : Except PyErr Results :=
  match assertedDir b with
  | .error e => .error e
  | .ok mdir =>
    let out := out.err py!"3-Tag-Directory" (b.tree.isdir (comps mdir))
    if b.tree.isdir (comps mdir) = false then .ok out
    else if version = some py!"0.2" then validateLookupFile py!"group-directory.txt" splitWs b mdir out
    else validateLookupFile py!"file-lookup.tsv" (splitOn '\t') b mdir out

/-- `validate_aggregation_info` (validate/headbag.py:656-686). -/
def validateAggregationInfo (b : VBag) (version : Option Str) (out : Results) : Except PyErr Results :=
  match assertedDir b with
  | .error e => .error e
  | .ok mdir =>
    let file := tagFile mdir py!"aggregation-info.txt"
    if version = some py!"0.2" || version = some py!"0.3" || !b.tree.exists file then .ok out
    else match loadTagFile true b.tree file with
      | .ok _ => .ok (out.err py!"4.4-1" true)
      | .error .bagError => .ok (out.err py!"4.4-1" false [py!"str(ex)"])
      | .error .bagValidationError => .ok (out.err py!"4.4-1" false [py!"str(ex)"])
      | .error e => .error e

/-- `HeadBagValidator.validate` (validate/headbag.py:32-68). -/
def validateHead (hostOk : Str → Bool) (b : VBag) (want : Nat) (results : Option Results := none) :
    Except PyErr Results := do
  let out := results.getD { want := want }
  let out ← validateBag b want out
  let version := infoVersion b.info
  let out := validateVersion b version out
  let out ← validateReference hostOk b out
  let out := validateTagDirectory b out
  let out := validateHeadVersion b out
  let out ← validateHeadDeprecates b out
  let out := validateBaginfoRecs b out
  let out ← validateMemberBags hostOk b version out
  let out ← validateFileLookup b version out
  validateAggregationInfo b version out

end Verif
