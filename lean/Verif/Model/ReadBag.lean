import Verif.Model.BagInfo
import Verif.Model.Paths
/-!
# Reading and validating a bag (multibag/access/bagit.py:132-600)

`ReadOnlyBag`: opening a bag, loading its manifests, reading fetch.txt, and the two
validation steps that compare the payload with the metadata.  A bag is given by the tree of
its files; how it is stored (directory, zip, tar) does not matter to this code.

Not modelled: log messages; character encodings other than the text being decoded; the
mapping of normalized Unicode file names (`normalized_filesystem_names`), which is the
identity here.
-/

namespace Verif

/-- `Bag.entries`: path to algorithm to checksum. -/
abbrev Entries := List (Str × List (Str × Str))

/-- The checksum recorded for a path. -/
def Entries.look (es : Entries) (p alg : Str) : Option Str := dget ((dget es p).getD []) alg

/-- What reading depends on besides the bag's files: the process environment, the bag's
location, `CHECKSUM_ALGOS` (the algorithms `hashlib` guarantees, in the order of iteration)
and `codecs.lookup` succeeding. -/
structure ReadCfg where
  env : Env
  bagpath : Str
  algs : List Str
  knownEncoding : Str → Bool

/-! ## Manifests -/

/-- `re.sub("%0" + x, r, s, 2)`. -/
def decodeOne (x r : Char) : Nat → Str → Str
  | n + 1, '%' :: '0' :: y :: rest =>
    if y = x then r :: decodeOne x r n rest else '%' :: decodeOne x r (n + 1) ('0' :: y :: rest)
  | n, c :: rest => c :: decodeOne x r n rest
  | _, [] => []

/-- `_decode_filename` of the external `bagit` package: the flag argument `re.IGNORECASE`
(2) is passed in the place of the maximal number of replacements. -/
def decodeFilename (s : Str) : Str := decodeOne 'A' '\n' 2 (decodeOne 'D' '\r' 2 s)

/-- Checksum and path of one line of a manifest (access/bagit.py:380-397): nothing for blank
lines, comments and lines with only one word. -/
def manifestLine (line : Str) : Option (Str × Str) :=
  let l := strip line
  if l = [] || l.head? = some '#' then none
  else match splitWsMax 1 l with
    | [h, p] => some (h, decodeFilename (normpath (lstripBy (· = '*') p)))
    | _ => none

/-- The effect of one manifest line on the entries (access/bagit.py:399-422). -/
def addEntry (dangerous : Str → Bool) (v1 : Bool) (alg : Str) (es : Entries) (e : Str × Str) :
    Except PyErr Entries :=
  let (h, p) := e
  if dangerous p then .error .bagError
  else
    let hs := (dget es p).getD []
    match dget hs alg with
    | none => .ok (dset es p (dset hs alg h))
    | some h' =>
      if h' = h then if v1 then .error .bagError else .ok (dset es p (dset hs alg h))
      else .error .bagError

/-- The loop over the lines of a manifest (access/bagit.py:380). -/
def loadLines (dangerous : Str → Bool) (v1 : Bool) (alg : Str) : List Str → Entries → Except PyErr Entries
  | [], es => .ok es
  | l :: rest, es =>
    match manifestLine l with
    | none => loadLines dangerous v1 alg rest es
    | some e =>
      match addEntry dangerous v1 alg es e with
      | .error x => .error x
      | .ok es => loadLines dangerous v1 alg rest es

/-- The lines of a manifest: a byte order mark is skipped if the encoding is a `UTF` one
(access/bagit.py:359-380). -/
def manifestLines (encoding text : Str) : List Str :=
  textLines .universal (if startsWith py!"UTF" encoding then dropBom text else text)

/-- Manifest file names present in the bag, with their algorithm: `manifest_files` and
`tagmanifest_files` (access/bagit.py:271-286). -/
def manifestFiles (cfg : ReadCfg) (kind : Str) (t : Tree) : List (Str × Path) :=
  (cfg.algs.map (fun a => (a, [kind ++ '-' :: a ++ py!".txt"]))).filter (fun e => t.isfile e.2)

/-- The loop over the manifest files (access/bagit.py:347-427). -/
def loadFiles (dangerous : Str → Bool) (v1 : Bool) (encoding : Str) (t : Tree) :
    List (Str × Path) → Entries → Except PyErr Entries
  | [], es => .ok es
  | (alg, p) :: rest, es =>
    match loadLines dangerous v1 alg (manifestLines encoding ((t.read p).getD [])) es with
    | .error x => .error x
    | .ok es => loadFiles dangerous v1 encoding t rest es

/-! ## Versions -/

/-- `s.split('.', 1)`. -/
def splitDot (s : Str) : List Str :=
  if '.' ∈ s then [s.takeWhile (· ≠ '.'), (s.dropWhile (· ≠ '.')).tail] else [s]

/-- `tuple(int(i) for i in version.split('.', 1))`, none for a `ValueError`
(access/bagit.py:202-205). -/
def versionInfo (s : Str) : Option (List Int) :=
  (splitDot s).foldr (fun x acc => match pyInt x, acc with
    | some i, some l => some (i :: l)
    | _, _ => none) (some [])

/-- Comparison of tuples. -/
def tupLt : List Int → List Int → Bool
  | _, [] => false
  | [], _ :: _ => true
  | a :: as, b :: bs => a < b || (a = b && tupLt as bs)

/-- `a <= b` for tuples. -/
def tupLe (a b : List Int) : Bool := !tupLt b a

/-- The name of the metadata file for a BagIt version (access/bagit.py:207-212). -/
def tagFileName (v : List Int) : Option Str :=
  if tupLe [0, 93] v && tupLe v [0, 95] then some py!"package-info.txt"
  else if tupLe [0, 96] v && tupLt v [2] then some py!"bag-info.txt"
  else none

/-- `_load_manifests` (access/bagit.py:339-431): the algorithms seen and the entries. -/
def loadManifests (cfg : ReadCfg) (version : List Int) (encoding : Str) (t : Tree) :
    Except PyErr (List Str × Entries) :=
  let files := manifestFiles cfg py!"manifest" t ++
    (if tupLe [0, 97] version then manifestFiles cfg py!"tagmanifest" t else [])
  match loadFiles (isDangerous cfg.env cfg.bagpath) (tupLe [1] version) encoding t files [] with
  | .error x => .error x
  | .ok es => .ok (files.map Prod.fst, es)

/-! ## Opening -/

/-- `_load_tag_file` (external `bagit`) of a file that exists; it is an error if it is a
directory. -/
def loadTagFile (sig : Bool) (t : Tree) (p : Path) : Except PyErr Info :=
  match t.read p with
  | none => .error .osError
  | some text =>
    match parseTags .universal (if sig then dropBom text else text) with
    | .error e => .error e
    | .ok l => .ok (loadTags l)

/-- An opened bag. -/
structure RBag where
  tree : Tree
  version : List Int
  encoding : Str
  tagFile : Str
  info : Info
  algorithms : List Str
  entries : Entries
deriving DecidableEq

/-- The value of a tag that is used as a string: a repeated tag has become a list, which has
no `split` and is no encoding name. -/
def oneValue : Option InfoVal → Option Str
  | some (.one v) => some v
  | _ => none

/-- `ReadOnlyBag._open` (access/bagit.py:179-224). -/
def openBag (cfg : ReadCfg) (t : Tree) : Except PyErr RBag :=
  if t.isfile [py!"bagit.txt"] = false then .error .bagError
  else match loadTagFile true t [py!"bagit.txt"] with
  | .error e => .error e
  | .ok tags =>
    if !(dmem tags py!"BagIt-Version" && dmem tags py!"Tag-File-Character-Encoding") then .error .bagError
    else match oneValue (dget tags py!"BagIt-Version") with
    | none => .error .attributeError
    | some v =>
      match versionInfo v with
      | none => .error .bagError
      | some version =>
        match tagFileName version with
        | none => .error .bagError
        | some tagFile =>
          match oneValue (dget tags py!"Tag-File-Character-Encoding") with
          | none => .error .typeError
          | some encoding =>
            if cfg.knownEncoding encoding = false then .error .bagValidationError
            else match (if t.exists [tagFile] then loadTagFile false t [tagFile] else .ok []) with
            | .error e => .error e
            | .ok info =>
              match loadManifests cfg version encoding t with
              | .error e => .error e
              | .ok (algorithms, entries) =>
                .ok { tree := t, version, encoding, tagFile, info, algorithms, entries }

/-! ## fetch.txt -/

/-- The generator `fetch_entries` (access/bagit.py:316-337): what is yielded, and the
exception that ends the iteration, if any. -/
def fetchLines (dangerous : Str → Bool) : List Str → List (Str × Str × Str) × Option PyErr
  | [] => ([], none)
  | l :: rest =>
    match splitWsMax 2 (strip l) with
    | [url, size, file] =>
      if dangerous file then ([], some .bagError)
      else ((url, size, file) :: (fetchLines dangerous rest).1, (fetchLines dangerous rest).2)
    | _ => ([], some .valueError)

/-- `fetch_entries` of an opened bag. -/
def fetchEntries (cfg : ReadCfg) (t : Tree) : List (Str × Str × Str) × Option PyErr :=
  match t.read [py!"fetch.txt"] with
  | none => ([], none)
  | some text => fetchLines (isDangerous cfg.env cfg.bagpath) (textLines .universal text)

/-! ## Validation -/

/-- `str.lower()`.  Only ASCII letters are changed here; no other character turns into a
hexadecimal digit. -/
def lower (s : Str) : Str := s.map Char.toLower

/-- `_calc_hashes` for all entries (access/bagit.py:496-515, 559-604); `sum alg c` is the
hexadecimal checksum of contents `c`.  A path that cannot be opened raises an exception of
the `fs` package. -/
def calcHashes (sum : Str → Str → Str) (t : Tree) (algorithms : List Str) :
    Entries → Except PyErr (List (List (Str × Str × Str)))
  | [] => .ok []
  | (p, hs) :: rest =>
    match t.read (comps p) with
    | none => .error .osError
    | some c =>
      match calcHashes sum t algorithms rest with
      | .error e => .error e
      | .ok l => .ok ((hs.filter (fun ah => ah.1 ∈ algorithms)).map (fun ah => (ah.1, ah.2, sum ah.1 c)) :: l)

/-- `_validate_entries` (access/bagit.py:485-525). -/
def validateEntries (sum : Str → Str → Str) (b : RBag) : Except PyErr Unit :=
  match calcHashes sum b.tree b.algorithms b.entries with
  | .error e => .error e
  | .ok l =>
    if l.flatten.all (fun r => lower r.2.1 = r.2.2) then .ok () else .error .bagValidationError

/-- `str.isdigit` on decimal digits.  (The few other characters that `isdigit` accepts make
`int` fail; they are rejected here.) -/
def isdigit (s : Str) : Bool := s ≠ [] && s.all (fun c => (digitVal c).isSome)

/-- The first value of a field. -/
def firstValue : InfoVal → Option Str
  | .one v => some v
  | .many l => l.head?

/-- Sizes of the payload files (access/bagit.py:287-292). -/
def walkPayload (blen : Str → Nat) (t : Tree) : List Nat :=
  t.filterMap (fun e => match e.2 with
    | .file c => if e.1.head? = some py!"data" && e.1.length ≠ 1 then some (blen c) else none
    | .dir => none)

/-- `_validate_oxum` (access/bagit.py:446-483). -/
def validateOxum (blen : Str → Nat) (b : RBag) : Except PyErr Unit :=
  match dget b.info py!"Payload-Oxum" with
  | none => .ok ()
  | some v =>
    match firstValue v with
    | none => .error .indexError
    | some oxum =>
      match splitDot oxum with
      | [bytes, files] =>
        if !isdigit bytes || !isdigit files then .error .bagError
        else match pyInt bytes, pyInt files with
          | some nb, some nf =>
            if b.tree.isdir [py!"data"] = false then .error .osError
            else
              let sizes := walkPayload blen b.tree
              if nf ≠ sizes.length || nb ≠ sizes.sum then .error .bagValidationError else .ok ()
          | _, _ => .error .valueError
      | _ => .error .valueError

end Verif
