import Verif.Model.Validate
/-!
# What validation results mean, independently of how they are computed
-/

namespace Verif.Spec

/-- One call that records a check: the issue object given, and the type, outcome and comments. -/
structure Check where
  issue : Issue
  type : Nat
  passed : Bool
  comments : List Str
deriving DecidableEq

/-- What such a call ought to record. -/
def Check.recorded (c : Check) : Issue :=
  { label := c.issue.label, type := c.type, passed := c.passed, comments := c.issue.comments ++ c.comments }

/-- The types there are. -/
def KnownType (t : Nat) : Prop := t = ERROR ∨ t = WARN ∨ t = REC

/-- The mask asks for the type: errors are bit 0, warnings bit 1, recommendations bit 2. -/
def Requested (mask type : Nat) : Prop :=
  (type = ERROR ∧ mask.testBit 0 = true) ∨ (type = WARN ∧ mask.testBit 1 = true) ∨
    (type = REC ∧ mask.testBit 2 = true)

instance (mask type : Nat) : Decidable (Requested mask type) := by unfold Requested; infer_instance

/-- The calls made one after the other. -/
def recordAll (r : Results) : List Check → Except PyErr Results
  | [] => .ok r
  | c :: cs =>
    match r.addIssue c.issue c.type c.passed c.comments with
    | .error e => .error e
    | .ok (_, r) => recordAll r cs

/-- The results hold a check of this type with this label and outcome. -/
def Reports (r : Results) (type : Nat) (label : Str) (passed : Bool) : Prop :=
  ∃ i ∈ r.applied ALL, i.type = type ∧ i.label = label ∧ i.passed = passed

/-- The fields of the lines of a tag file that are not blank. -/
def rows (fields : Str → List Str) (text : Str) : List (List Str) :=
  ((textLines .universal text).filter (fun l => strip l ≠ [])).map (fun l => (fields l).map strip)

/-- The rows of a member list: a bag name, then perhaps a URI. -/
def memberRows (text : Str) : List (List Str) := rows (fun l => splitOn '\t' (strip l)) text

/-- The rows of a file lookup list: a path and a bag name. -/
def lookupRows (text : Str) : List (List Str) := rows (splitOn '\t') text

/-- `scheme://host` with a path, query or fragment: an absolute URL. -/
structure AbsoluteUrl (u scheme host rest : Str) : Prop where
  eq : u = scheme ++ ':' :: '/' :: '/' :: (host ++ rest)
  letter : ∃ c s, scheme = c :: s ∧ (('a' ≤ c ∧ c ≤ 'z') ∨ ('A' ≤ c ∧ c ≤ 'Z'))
  chars : ∀ c ∈ scheme, ('a' ≤ c ∧ c ≤ 'z') ∨ ('A' ≤ c ∧ c ≤ 'Z') ∨ ('0' ≤ c ∧ c ≤ '9') ∨ c = '+' ∨ c = '-' ∨ c = '.'
  named : host ≠ []
  ends : ∀ c ∈ host, c ≠ '/' ∧ c ≠ '?' ∧ c ≠ '#' ∧ c ≠ '[' ∧ c ≠ ']'
  after : rest = [] ∨ rest.head? = some '/' ∨ rest.head? = some '?' ∨ rest.head? = some '#'
  printing : ∀ c ∈ u, c ≠ '\t' ∧ c ≠ '\r' ∧ c ≠ '\n'

/-- The member list of a head bag: its name, and how its lines are split, under profile 0.2 and later ones. -/
def listFile (version : Option Str) : Str :=
  if version = some py!"0.2" then py!"group-members.txt" else py!"member-bags.tsv"
@[inherit_doc listFile] def listFields (version : Option Str) : Str → List Str :=
  if version = some py!"0.2" then fun l => splitWs (strip l) else fun l => splitOn '\t' (strip l)

/-- The file lookup list of a head bag: its name, and how its lines are split. -/
def placesFile (version : Option Str) : Str :=
  if version = some py!"0.2" then py!"group-directory.txt" else py!"file-lookup.tsv"
@[inherit_doc placesFile] def placesFields (version : Option Str) : Str → List Str :=
  if version = some py!"0.2" then splitWs else splitOn '\t'

/-- The multibag tag directory a head bag names. -/
def tagDirOf (b : VBag) : Str := (tagDirs b.info).getLast?.getD []

/-- The last value of a metadata field, empty if there is none. -/
def lastValue (info : Info) (key : Str) : Str := (fields info key).getLast?.getD []

/-- The ways in which validating a bag as a head bag ends in an exception. -/
inductive HeadCrash (hostOk : Str → Bool) (b : VBag) (want : Nat) : Prop where
  /-- the validation of the bag as a bag, if asked for, raises something that is not a `BagValidationError` -/
  | bag (e : PyErr) (h : Requested want ERROR) (hv : b.verdict = .raises e) (he : e ≠ .bagValidationError)
  /-- the reference cannot be parsed -/
  | reference (e : PyErr) (hv : hasValue b.info py!"Multibag-Reference" = true)
      (h : urlparse hostOk (lastValue b.info py!"Multibag-Reference") = .error e)
  /-- a version is deprecated, but the bag has none itself -/
  | deprecates (h : dmem b.info py!"Multibag-Head-Deprecates" = true)
      (hv : lastValue b.info py!"Multibag-Head-Version" = [])
  /-- the bag is no head bag -/
  | notHead (h : dmem b.info py!"Multibag-Head-Version" = false)
  /-- the last tag directory named is empty, but not the only one -/
  | emptyDir (h : tagDirOf b = [])
  /-- a URI in the member list cannot be parsed -/
  | uri (text : Str) (row : List Str) (u : Str) (e : PyErr) (hd : b.tree.isdir (comps (tagDirOf b)) = true)
      (hf : b.tree.read (tagFile (tagDirOf b) (listFile (infoVersion b.info))) = some text)
      (hr : row ∈ rows (listFields (infoVersion b.info)) text) (hu : row[1]? = some u) (hn : u ≠ [])
      (h : urlparse hostOk u = .error e)
  /-- there is a lookup list but no directory data -/
  | noData (hd : b.tree.isdir (comps (tagDirOf b)) = true)
      (hf : b.tree.isfile (tagFile (tagDirOf b) (placesFile (infoVersion b.info))) = true)
      (h : b.tree.isdir [py!"data"] = false)
  /-- aggregation-info.txt is there but is no file -/
  | aggregation (h2 : infoVersion b.info ≠ some py!"0.2") (h3 : infoVersion b.info ≠ some py!"0.3")
      (hx : b.tree.exists (tagFile (tagDirOf b) py!"aggregation-info.txt") = true)
      (h : b.tree.isfile (tagFile (tagDirOf b) py!"aggregation-info.txt") = false)

/-- What a bag must be like to be found free of errors by head bag validation. -/
structure HeadConforms (hostOk : Str → Bool) (b : VBag) : Prop where
  /-- it is a valid bag -/
  bag : b.verdict = .valid
  /-- it names its profile version once -/
  version : ∃ v, v ≠ [] ∧ dget b.info py!"Multibag-Version" = some (.one v)
  /-- the last reference, if any is given, has a scheme and a host -/
  reference : hasValue b.info py!"Multibag-Reference" = true →
    ∃ scheme host, urlparse hostOk (lastValue b.info py!"Multibag-Reference") = .ok (scheme, host) ∧
      scheme ≠ [] ∧ host ≠ []
  /-- the one tag directory named, or multibag, is there -/
  dir : (dmem b.info py!"Multibag-Tag-Directory" = false ∧ b.tree.isdir [py!"multibag"] = true) ∨
    ∃ d, d ≠ [] ∧ fields b.info py!"Multibag-Tag-Directory" = [d] ∧ b.tree.isdir (comps d) = true
  /-- it is a head bag -/
  head : dmem b.info py!"Multibag-Head-Version" = true
  /-- if it deprecates versions it has one itself, and names them in the right form -/
  deprecates : dmem b.info py!"Multibag-Head-Deprecates" = true → lastValue b.info py!"Multibag-Head-Version" ≠ [] ∧
    ((fields b.info py!"Multibag-Head-Deprecates").head?.getD [] ≠ [] →
      ∀ v ∈ fields b.info py!"Multibag-Head-Deprecates", (deprecParts v).length ≤ 2)
  /-- the recommended fields have no empty values, unless the last one is -/
  recommended : ∀ el ∈ [py!"Internal-Sender-Identifier", py!"Internal-Sender-Description", py!"Bag-Group-Identifier"],
    lastValue b.info el ≠ [] → ∀ v ∈ fields b.info el, v ≠ []
  /-- it has a member list, which ends with the bag itself -/
  members : ∃ text, b.tree.read (tagFile (tagDirOf b) (listFile (infoVersion b.info))) = some text ∧
    (∀ row ∈ rows (listFields (infoVersion b.info)) text,
      (infoVersion b.info = some py!"0.2" → row.length ≤ 2) ∧
      ∀ u, row[1]? = some u → u ≠ [] → ∃ scheme, urlparse hostOk u = .ok (scheme, []) ∧ scheme ≠ []) ∧
    ∃ before row, rows (listFields (infoVersion b.info)) text = before ++ [row] ∧ row.head?.getD [] = b.name
  /-- it has a payload and a lookup list, and the files said to be in it are -/
  lookup : b.tree.isdir [py!"data"] = true ∧
    ∃ text, b.tree.read (tagFile (tagDirOf b) (placesFile (infoVersion b.info))) = some text ∧
      ∀ row ∈ rows (placesFields (infoVersion b.info)) text, row.length = 2 ∧
        (row[1]? = some b.name → b.tree.isfile (comps (row.head?.getD [])) = true)
  /-- aggregation-info.txt can be read, if it is looked at -/
  aggregation : infoVersion b.info = some py!"0.2" ∨ infoVersion b.info = some py!"0.3" ∨
    b.tree.exists (tagFile (tagDirOf b) py!"aggregation-info.txt") = false ∨
    ∃ text fs, b.tree.read (tagFile (tagDirOf b) py!"aggregation-info.txt") = some text ∧
      parseTags .universal (dropBom text) = .ok fs

/-- What else it must be like to get no warnings. -/
structure HeadTidy (b : VBag) : Prop where
  /-- it names one head version -/
  head : ∃ v, v ≠ [] ∧ fields b.info py!"Multibag-Head-Version" = [v]
  /-- the deprecated versions are named, and neither this version nor this bag is among them -/
  deprecates : dmem b.info py!"Multibag-Head-Deprecates" = true →
    (fields b.info py!"Multibag-Head-Deprecates").head?.getD [] ≠ [] ∧
    ∀ v ∈ fields b.info py!"Multibag-Head-Deprecates",
      (deprecParts v).head? ≠ some (lastValue b.info py!"Multibag-Head-Version") ∧ (deprecParts v)[1]? ≠ some b.name
  /-- no member is listed twice -/
  members : ∀ text, b.tree.read (tagFile (tagDirOf b) (listFile (infoVersion b.info))) = some text →
    ((rows (listFields (infoVersion b.info)) text).map (fun row => row.head?.getD [])).Nodup
  /-- and no path -/
  lookup : ∀ text, b.tree.read (tagFile (tagDirOf b) (placesFile (infoVersion b.info))) = some text →
    ((rows (placesFields (infoVersion b.info)) text).map (fun row => row.head?.getD [])).Nodup

/-- What else it must be like to follow all recommendations. -/
structure HeadRecommended (b : VBag) : Prop where
  /-- the recommended fields are there, and their last values are not empty -/
  info : ∀ el ∈ [py!"Multibag-Reference", py!"Internal-Sender-Identifier", py!"Internal-Sender-Description",
    py!"Bag-Group-Identifier"], lastValue b.info el ≠ []
  /-- every file below data, unless its name begins with a dot or an underscore, has a line in the lookup list -/
  lookup : ∀ text, b.tree.read (tagFile (tagDirOf b) (placesFile (infoVersion b.info))) = some text →
    ∀ dirs name content, (py!"data" :: (dirs ++ [name]), Node.file content) ∈ b.tree →
      name.head? ≠ some '.' → name.head? ≠ some '_' →
      ∃ row ∈ rows (placesFields (infoVersion b.info)) text, row.head?.getD [] = joinPath (py!"data" :: (dirs ++ [name]))

/-- A field of the metadata that is not there, or has an empty value. -/
def NoValue (info : Info) (key : Str) : Prop :=
  dget info key = none ∨ dget info key = some (.one []) ∨ dget info key = some (.many [])

end Verif.Spec
