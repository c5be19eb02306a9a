import Verif.Py.StrLemmas
import Verif.Py.Dict
import Verif.Model.Constants
/-!
# The text formats of the multibag tag files (multibag/access/multibag.py:27-140)
-/

namespace Verif

/-- `class MemberInfo` (access/multibag.py:33-47). -/
structure MemberInfo where
  name : Str
  uri : Option Str := none
  comment : Option Str := none
  info : List Str := []
deriving DecidableEq, Repr

/-- Truth value of an optional string (`None` and `""` are false). -/
def truthy : Option Str → Bool
  | none => false
  | some [] => false
  | some (_ :: _) => true

/-- `MemberInfo.format` (access/multibag.py:49-63).  Line 59 refers to the
undefined name `info`, hence `NameError` whenever there are info fields. -/
def MemberInfo.format (m : MemberInfo) : Except PyErr Str :=
  let out := m.name
  let out := if truthy m.uri then out ++ '\t' :: m.uri.getD [] else out
  if m.info ≠ [] then .error .nameError
  else
    let out := if truthy m.comment then out ++ py!"\t# " ++ m.comment.getD [] else out
    .ok (out ++ ['\n'])

/-- `MemberInfo.parse_line_03` (access/multibag.py:65-84).
`fields.pop(-1)` is `getLast`/`dropLast`; `lstrip('#')` is `dropWhile`. -/
def parseLine03 (line : Str) : Except PyErr MemberInfo :=
  match splitOn '\t' (strip line) with
  | [] => .error .multibagError
  | name :: fields =>
    if name = [] then .error .multibagError
    else
      let (comm, fields) :=
        match fields.getLast? with
        | some l =>
          if startsWith ['#'] l then
            (some (strip (lstripBy (fun c => c = '#') l)), fields.dropLast)
          else (none, fields)
        | none => (none, fields)
      match fields with
      | [] => .ok ⟨name, none, comm, []⟩
      | uri :: info => .ok ⟨name, some uri, comm, info⟩

/-- `MemberInfo.parse_line_02` (access/multibag.py:86-102). -/
def parseLine02 (line : Str) : Except PyErr MemberInfo :=
  match splitRuns ' ' (strip line) with
  | [] => .error .multibagError
  | name :: fields =>
    if name = [] then .error .multibagError
    else .ok ⟨name, fields.head?, none, []⟩

/-- `parse_file_lookup_line_03` (access/multibag.py:104-116). -/
def parseFileLookup03 (line : Str) : Except PyErr (Str × Str) :=
  match splitOn '\t' (strip line) with
  | a :: b :: _ => .ok (a, b)
  | _ => .error .multibagError

/-- `parse_group_directory_line` (access/multibag.py:118-130). -/
def parseGroupDirectory (line : Str) : Except PyErr (Str × Str) :=
  match splitRuns ' ' (strip line) with
  | a :: b :: _ => .ok (a, b)
  | _ => .error .multibagError

/-- `parse_deleted_line_04` (access/multibag.py:132-140). -/
def parseDeleted04 (line : Str) : Str := strip line

/-- How a tag file is opened.  `codecs`: a bag directory opened for writing,
`codecs.open(path, encoding='utf-8-sig')` (access/extended.py:378-389), which
breaks lines like `str.splitlines` and drops a byte order mark.  `universal`: a
read-only bag, text stream of `fs` with encoding utf-8 (access/bagit.py:262-269),
which translates `\r` and `\r\n` to `\n`, breaks there and keeps a byte order mark. -/
inductive TextMode where
  | codecs | universal
deriving DecidableEq, Repr

/-- `for line in fd` over a tag file with decoded contents `s`. -/
def textLines : TextMode → Str → List Str
  | .codecs, s => linesOf isBreak (dropBom s)
  | .universal, s => linesOf isNl (translateNl s)

/-- The loop shared by `iter_member_bags`, `iter_file_lookup` (access/multibag.py:220-223,
260-263): parse the lines that are not blank; the first error stops the
iteration. -/
def readRecords {α : Type} (parse : Str → Except PyErr α) : List Str → Except PyErr (List α)
  | [] => .ok []
  | line :: rest =>
    if strip line ≠ [] then
      match parse line with
      | .error e => .error e
      | .ok r =>
        match readRecords parse rest with
        | .error e => .error e
        | .ok rs => .ok (r :: rs)
    else readRecords parse rest

/-- Contents of member-bags.tsv read by profile 0.3 rules and later
(access/multibag.py:217-223). -/
def readMembers03 (m : TextMode) (s : Str) : Except PyErr (List MemberInfo) :=
  readRecords parseLine03 (textLines m s)

/-- Contents of group-members.txt (access/multibag.py:217-223, version < 0.3). -/
def readMembers02 (m : TextMode) (s : Str) : Except PyErr (List MemberInfo) :=
  readRecords parseLine02 (textLines m s)

/-- Contents of file-lookup.tsv, in file order (access/multibag.py:257-263). -/
def readLookup03 (m : TextMode) (s : Str) : Except PyErr (List (Str × Str)) :=
  readRecords parseFileLookup03 (textLines m s)

/-- Contents of group-directory.txt (access/multibag.py:257-263, version < 0.3). -/
def readLookup02 (m : TextMode) (s : Str) : Except PyErr (List (Str × Str)) :=
  readRecords parseGroupDirectory (textLines m s)

/-- Contents of deleted.txt (access/multibag.py:309-312). -/
def readDeleted (m : TextMode) (s : Str) : List Str :=
  (textLines m s).filterMap (fun line => if strip line ≠ [] then some (parseDeleted04 line) else none)

/-- Text written by `save_member_bags` (access/multibag.py:440-445).  The error
is `NameError` from `format`; the truncated partial file it leaves behind is
modelled in `HeadBag.lean`. -/
def membersText : List MemberInfo → Except PyErr Str
  | [] => .ok []
  | m :: ms =>
    match m.format with
    | .error e => .error e
    | .ok l =>
      match membersText ms with
      | .error e => .error e
      | .ok t => .ok (l ++ t)

/-- Text written by `save_file_lookup` (access/multibag.py:620-628). -/
def lookupText (d : List (Str × Str)) : Str :=
  (d.map (fun p => p.1 ++ '\t' :: p.2 ++ ['\n'])).flatten

/-- Text written by `save_deleted` (access/multibag.py:688-690); the list is the
set in its iteration order. -/
def deletedText (ps : List Str) : Str := (ps.map (fun p => p ++ ['\n'])).flatten

end Verif
