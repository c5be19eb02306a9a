import Verif.Model.Info
/-!
# Reading bag-info.txt

`_parse_tags` and `_load_tag_file` of the external `bagit` package (release 1.7/1.8), through
which both `Bag` and `ReadOnlyBag` (access/bagit.py:212-224, split.py:15) read bag-info.txt.
The package is not part of the repository; this follows its published source.
-/

namespace Verif

/-- The tag being read is yielded, unless its name is empty. -/
def yieldTag : Option (Str × Str) → List (Str × Str)
  | none => []
  | some (n, v) => if n = [] then [] else [(n, strip v)]

/-- `bagit._parse_tags`: `cur` is the tag being read.  A line without colon raises
`BagValidationError`. -/
def parseTagsFrom (cur : Option (Str × Str)) : List Str → Except PyErr (List (Str × Str))
  | [] => .ok (yieldTag cur)
  | line :: rest =>
    if strip line = [] then parseTagsFrom cur rest
    else match (if (line.head?.map isSpace).getD false then cur else none) with
      | some (n, v) => parseTagsFrom (some (n, v ++ line)) rest
      | none =>
        if ':' ∈ line then
          let s := strip line
          match parseTagsFrom (some (strip (s.takeWhile (· ≠ ':')), (s.dropWhile (· ≠ ':')).tail)) rest with
          | .error e => .error e
          | .ok l => .ok (yieldTag cur ++ l)
        else .error .bagValidationError

/-- The tags in a bag-info.txt, in file order. -/
def parseTags (mode : TextMode) (text : Str) : Except PyErr (List (Str × Str)) :=
  parseTagsFrom none (textLines mode text)

/-- One more value for a tag (`bagit._load_tag_file`). -/
def addTag (info : Info) (f : Str × Str) : Info :=
  match dget info f.1 with
  | none => dset info f.1 (.one f.2)
  | some (.one v) => dset info f.1 (.many [v, f.2])
  | some (.many l) => dset info f.1 (.many (l ++ [f.2]))

/-- `bagit._load_tag_file`: repeated tags become lists. -/
def loadTags (fs : List (Str × Str)) : Info := fs.foldl addTag []

end Verif
