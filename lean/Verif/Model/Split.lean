import Verif.Model.Walk
import Verif.Py.IntLemmas
/-!
# Planning a split (multibag/split.py:47-195, 511-735)

Sizes are natural numbers, size limits integers (Python would also accept floats).
The regular expression class `\w` is an arbitrary predicate `w`.
-/

namespace Verif

/-! ## Special file names -/

/-- A pattern of literal characters in which `.` matches any character but a
newline, against the whole string. -/
def dotMatch : Str → Str → Bool
  | [], [] => true
  | c :: cs, x :: xs => (if c = '.' then x ≠ '\n' else x = c) && dotMatch cs xs
  | _, _ => false

/-- `$` at the end of a pattern: the end of the string, or before a final newline. -/
def atEnd (f : Str → Bool) (s : Str) : Bool := f s || (s.getLast? = some '\n' && f s.dropLast)

/-- The rest of `s` after `p`, if `s` starts with `p`. -/
def afterPrefix (p s : Str) : Option Str := if p.isPrefixOf s then some (s.drop p.length) else none

/-- `(\w+).txt` against the whole string. -/
def wordTxt (w : Char → Bool) (s : Str) : Bool :=
  match s.reverse with
  | t1 :: x :: t2 :: c :: body =>
    t1 = 't' && x = 'x' && t2 = 't' && c ≠ '\n' && !body.isEmpty && body.all w
  | _ => false

/-- `(tag)?manifest-(\w+).txt` against the whole string. -/
def manifestMatch (w : Char → Bool) (s : Str) : Bool :=
  match afterPrefix py!"manifest-" s with
  | some r => wordTxt w r
  | none =>
    match afterPrefix py!"tagmanifest-" s with
    | some r => wordTxt w r
    | none => false

/-- The special names of `nonstandard()` (access/extended.py:161-163):
`^bagit.txt$ ^bag-info.txt$ ^fetch.txt$ ^(tag)?manifest-(\w+).txt$`. -/
def specialName (w : Char → Bool) (s : Str) : Bool :=
  atEnd (dotMatch py!"bagit.txt") s || atEnd (dotMatch py!"bag-info.txt") s ||
  atEnd (dotMatch py!"fetch.txt") s || atEnd (manifestMatch w) s

/-- `_is_special` (split.py:604-611): the same patterns after a leading slash. -/
def specialPath (w : Char → Bool) (s : Str) : Bool :=
  match s with
  | '/' :: r => specialName w r
  | _ => false

/-- `nonstandard()` (access/extended.py:153-172), in the order of the walk. -/
def nonstandard (w : Char → Bool) (t : Tree) : List Str :=
  (walkDirs t [] (fun _ => false)).flatMap (fun d =>
    (if subdirsOf t d = [] ∧ filesOf t d = [] then [joinPath d] else []) ++
    ((filesOf t d).filter (fun f => !specialName w f)).map (fun f => joinPath (d ++ [f])))

/-! ## Plans -/

/-- The manifest of one output bag (split.py:598-602, 187-193). `name` is absent
until it is set. -/
structure Manifest where
  name : Option Str := none
  contents : List Str := []
  total : Nat := 0
deriving DecidableEq, Repr

/-- `find_destination` (split.py:132-143). -/
def findDestination (ms : List Manifest) (p : Str) : Option Manifest :=
  ms.reverse.find? (fun m => decide (p ∈ m.contents))

/-- `missing` (split.py:107-117), given what is required. -/
def missing (required : List Str) (ms : List Manifest) : List Str :=
  required.filter (fun f => (findDestination ms f).isNone)

/-- `is_complete` (split.py:96-105). -/
def isComplete (required : List Str) (ms : List Manifest) : Bool := (missing required ms).isEmpty

/-- `complete_plan` (split.py:173-195).  `size` is the source bag's `sizeof`, taken
not to raise for the required paths. -/
def completePlan (bagName : Str) (size : Str → Nat) (required : List Str) (ms : List Manifest) : List Manifest :=
  let contents := missing required ms
  if contents = [] then ms
  else ms ++ [{ name := some (bagName ++ '_' :: natStr ms.length ++ py!".mbag"),
                contents := contents, total := (contents.map size).sum }]

/-- The loop of `name_output_bags` (split.py:160-164): `n` names have been taken. -/
def nameLoop (names : Nat → Option Str) : Nat → List Manifest → Except PyErr Unit × List Manifest
  | _, [] => (.ok (), [])
  | n, m :: ms =>
    match names n with
    | none =>
      -- split.py:165-167: the message uses `name`, which is unbound before the first name
      (.error (if n = 0 then .unboundLocalError else .runtimeError), m :: ms)
    | some name =>
      let r := nameLoop names (n + 1) ms
      (r.1, { m with name := some name } :: r.2)

/-- `name_output_bags` (split.py:145-167). `names n` is what the `n`-th call of
`next` gives; `none` stands for `StopIteration`. -/
def nameOutputBags (names : Nat → Option Str) (reverse : Bool) (ms : List Manifest) :
    Except PyErr Unit × List Manifest :=
  if reverse then
    let r := nameLoop names 0 ms.reverse
    (r.1, r.2.reverse)
  else nameLoop names 0 ms

/-- `SimpleNamer` (split.py:718-735). -/
def simpleNamer (base : Str) (n : Nat) : Option Str := some (base ++ '_' :: natStr (n + 1) ++ py!".mbag")

/-! ## The splitters -/

/-- An element of `finfos` (split.py:622-626); `path` begins with a slash. -/
structure FInfo where
  path : Str
  size : Nat
deriving DecidableEq, Repr

/-- `_cmp_by_size` (split.py:613-620). -/
def cmpBySize (a b : FInfo) : Int :=
  let out : Int := (b.size : Int) - (a.size : Int)
  if out ≠ 0 then out
  else if strLt a.path b.path then -1
  else if strLt b.path a.path then 1
  else 0

/-- `_sorted_files` (split.py:622-629); `listing` is what the walk of the bag's file
system lists (files only). -/
def sortedFiles (w : Char → Bool) (forhead : List Str) (listing : List FInfo) : List FInfo :=
  (listing.filter (fun f => !specialPath w f.path && !decide (f.path ∈ forhead))).mergeSort
    (fun a b => cmpBySize a b ≤ 0)

/-- `_add_to_manifest` (split.py:592-595), the part concerning the manifest. -/
def Manifest.add (m : Manifest) (f : FInfo) : Manifest :=
  { m with contents := m.contents ++ [f.path.drop 1], total := m.total + f.size }

/-- The loop of `WellPackedSplitter._apply_algorithm` (split.py:559-585): what is
left, the index, the open manifest, the closed ones.  Returns the closed manifests and
the open one. -/
def wpLoop (max target : Int) (fs : List FInfo) (i : Nat) (m : Manifest) (out : List Manifest) :
    List Manifest × Manifest :=
  if hf : fs = [] then (out, m)
  else
    -- split.py:560-564
    let closed := fs.length ≤ i
    let out1 := if closed then out ++ [m] else out
    let m1 : Manifest := if closed then {} else m
    let i1 := if closed then 0 else i
    have hi1 : i1 < fs.length := by
      have := List.length_pos_iff.2 hf
      simp only [i1, closed]; split <;> omega
    let f := fs[i1]
    -- split.py:566-585
    if ((m1.total + f.size : Nat) : Int) > max then
      if hm : m1.total = 0 then wpLoop max target (fs.eraseIdx i1) 0 {} (out1 ++ [m1.add f])
      else wpLoop max target fs (i1 + 1) m1 out1
    else if ((m1.total + f.size : Nat) : Int) > target then
      wpLoop max target (fs.eraseIdx i1) 0 {} (out1 ++ [m1.add f])
    else wpLoop max target (fs.eraseIdx i1) i1 (m1.add f) out1
termination_by (fs.length, fs.length + 1 - i)
decreasing_by
  · left; rw [List.length_eraseIdx_of_lt hi1]; omega
  · right
    have hc : ¬ fs.length ≤ i := by
      intro hc
      simp only [m1, closed, dif_pos hc] at hm
      exact hm trivial
    simp only [i1, closed, dif_neg hc]; omega
  · left; rw [List.length_eraseIdx_of_lt hi1]; omega
  · left; rw [List.length_eraseIdx_of_lt hi1]; omega

/-- `WellPackedSplitter._apply_algorithm` (split.py:556-590). -/
def wpRun (max target : Int) (fs : List FInfo) : List Manifest :=
  let r := wpLoop max target fs 0 {} []
  if r.2.contents ≠ [] then r.1 ++ [r.2] else r.1

/-- `_dirpath` (split.py:671-674) of the path of a file: up to the last slash. -/
def dirPart (p : Str) : Str :=
  if '/' ∈ p then (p.reverse.dropWhile (· ≠ '/')).reverse else p ++ ['/']

/-- Python's `<=` on strings. -/
def strLe (a b : Str) : Bool := !strLt b a

/-- The uniquifying loop (split.py:684-687), `n` rounds. -/
def uniqLoop : Nat → List Str → List Str
  | 0, ds => ds
  | n + 1, d :: ds => uniqLoop n (if ds.head? ≠ some d then ds ++ [d] else ds)
  | _ + 1, [] => []

/-- `_dirpaths_for` (split.py:676-691), for the reference `ref = 0`. -/
def dirpathsFor (fs : List FInfo) : List Str :=
  match fs with
  | [] => []
  | f :: _ =>
    let dirs := (fs.map (fun f => dirPart f.path)).mergeSort strLe
    let dirs := uniqLoop (dirs.length - 1) dirs
    let i := dirs.idxOf (dirPart f.path)
    dirs.drop i ++ dirs.take i

/-- `_select_from_dir` (split.py:693-715): the files left, the manifest, and whether
it is full (`-1` in the code; otherwise the index is at the end of the files). -/
def selectFromDir (max target : Int) (dir : Str) (fs : List FInfo) (i : Nat) (m : Manifest) :
    List FInfo × Manifest × Bool :=
  if h : i < fs.length then
    let f := fs[i]
    if dir = dirPart f.path then
      if ((m.total + f.size : Nat) : Int) > max then
        if m.total = 0 then (fs.eraseIdx i, m.add f, true)
        else selectFromDir max target dir fs (i + 1) m
      else if ((m.total + f.size : Nat) : Int) > target then (fs.eraseIdx i, m.add f, true)
      else selectFromDir max target dir (fs.eraseIdx i) i (m.add f)
    else selectFromDir max target dir fs (i + 1) m
  else (fs, m, false)
termination_by fs.length - i
decreasing_by
  · omega
  · rw [List.length_eraseIdx_of_lt h]; omega
  · omega

/-- The loop over nearby directories (split.py:643-658). -/
def nbFill (max target : Int) : List Str → List FInfo → Manifest → List FInfo × Manifest
  | [], fs, m => (fs, m)
  | d :: ds, fs, m =>
    let r := selectFromDir max target d fs 0 m
    if r.2.2 then (r.1, r.2.1) else nbFill max target ds r.1 r.2.1

/-! The loop of the neighborly splitter stops because every round takes a file. -/

theorem mem_uniqLoop (n : Nat) (ds : List Str) (x : Str) : x ∈ uniqLoop n ds ↔ x ∈ ds := by
  induction n generalizing ds with
  | zero => rfl
  | succ n ih =>
    cases ds with
    | nil => rfl
    | cons d ds =>
      rw [uniqLoop, ih]
      split
      · simp [or_comm]
      · rename_i h
        have : ds.head? = some d := Classical.not_not.1 h
        have : d ∈ ds := List.mem_of_head? this
        simp only [List.mem_cons]
        constructor
        · exact .inr
        · rintro (rfl | h)
          · exact this
          · exact h

theorem mem_dirpathsFor (fs : List FInfo) (d : Str) : d ∈ dirpathsFor fs ↔ ∃ f ∈ fs, dirPart f.path = d := by
  cases fs with
  | nil => simp [dirpathsFor]
  | cons f fs =>
    have : ∀ (l : List Str) (i : Nat), d ∈ l.drop i ++ l.take i ↔ d ∈ l := by
      intro l i
      rw [List.mem_append]
      conv => rhs; rw [← List.take_append_drop i l, List.mem_append]
      exact or_comm
    simp only [dirpathsFor]
    rw [this, mem_uniqLoop, List.mem_mergeSort, List.mem_map]

theorem dirpathsFor_head (f : FInfo) (fs : List FInfo) : (dirpathsFor (f :: fs)).head? = some (dirPart f.path) := by
  simp only [dirpathsFor]
  generalize hl : uniqLoop _ _ = l
  have hm : dirPart f.path ∈ l := by
    rw [← hl, mem_uniqLoop, List.mem_mergeSort]; simp
  have hi : l.idxOf (dirPart f.path) < l.length := List.idxOf_lt_length_of_mem hm
  have : (l.drop (l.idxOf (dirPart f.path))).head? = some (dirPart f.path) := by
    rw [List.head?_drop, List.getElem?_eq_getElem hi, List.getElem_idxOf]
  rw [List.head?_append, this]; rfl

theorem selectFromDir_length (max target : Int) (dir : Str) (fs : List FInfo) (i : Nat) (m : Manifest) :
    (selectFromDir max target dir fs i m).1.length ≤ fs.length := by
  fun_induction selectFromDir max target dir fs i m <;> simp_all [List.length_eraseIdx_of_lt] <;> omega

theorem nbFill_length (max target : Int) (ds : List Str) (fs : List FInfo) (m : Manifest) :
    (nbFill max target ds fs m).1.length ≤ fs.length := by
  induction ds generalizing fs m with
  | nil => simp [nbFill]
  | cons d ds ih =>
    have h := selectFromDir_length max target d fs 0 m
    simp only [nbFill]
    split
    · exact h
    · exact Nat.le_trans (ih _ _) h

theorem nbFill_progress (max target : Int) (fs : List FInfo) (h : fs ≠ []) :
    (nbFill max target (dirpathsFor fs) fs {}).1.length < fs.length := by
  cases fs with
  | nil => exact absurd rfl h
  | cons f fs =>
    have hh := dirpathsFor_head f fs
    cases hd : dirpathsFor (f :: fs) with
    | nil => rw [hd] at hh; cases hh
    | cons d ds =>
      rw [hd] at hh
      injection hh with hh
      subst hh
      have hs : (selectFromDir max target (dirPart f.path) (f :: fs) 0 {}).1.length < (f :: fs).length := by
        rw [selectFromDir]
        simp only [List.length_cons, Nat.zero_lt_succ, dite_true, List.getElem_cons_zero, if_true]
        split
        · simp
        · split
          · simp
          · exact Nat.lt_succ_of_le (by simpa using selectFromDir_length _ _ _ _ _ _)
      simp only [nbFill]
      split
      · exact hs
      · exact Nat.lt_of_le_of_lt (nbFill_length _ _ _ _ _) hs

/-- The loop of `NeighborlySplitter._apply_algorithm` (split.py:639-665). -/
def nbLoop (max target : Int) (fs : List FInfo) (out : List Manifest) : List Manifest :=
  if h : fs = [] then out
  else
    let r := nbFill max target (dirpathsFor fs) fs {}
    nbLoop max target r.1 (out ++ [r.2])
termination_by fs.length
decreasing_by exact nbFill_progress max target fs h

/-- `NeighborlySplitter._apply_algorithm` (split.py:638-665). -/
def nbRun (max target : Int) (fs : List FInfo) : List Manifest := nbLoop max target fs []

/-! ## Making a plan -/

/-- Which splitter. -/
inductive Kind where
  | wellPacked
  | neighborly
deriving DecidableEq, Repr

/-- The arguments of a splitter (split.py:517-541).  `forhead` is the splitter's own
copy of the list: the loop adding leading slashes works on the caller's. -/
structure Splitter where
  kind : Kind := .wellPacked
  max : Int := 60000
  target : Option Int := none
  forhead : List Str := []
deriving Repr

/-- `targetsize` defaults to `maxsize` when missing or zero (split.py:533-535). -/
def Splitter.tsz (s : Splitter) : Int :=
  match s.target with
  | none => s.max
  | some t => if t = 0 then s.max else t

/-- `_apply_algorithm` of the splitter. -/
def Splitter.run (s : Splitter) (fs : List FInfo) : List Manifest :=
  match s.kind with
  | .wellPacked => wpRun s.max s.tsz fs
  | .neighborly => nbRun s.max s.tsz fs

/-- What `fs.walk.info` lists of the files of a bag (split.py:623-624), in some order;
`size p` is the size of the file with path `p`. -/
def treeListing (size : Str → Nat) (t : Tree) : List FInfo :=
  t.filterMap (fun e =>
    match e.2 with
    | .file _ => some { path := '/' :: joinPath e.1, size := size (joinPath e.1) }
    | .dir => none)

/-- `_create_plan` (split.py:545-554) for the source bag `bagName` with contents `t`;
`listing` is the result of the walk over its file system. -/
def Splitter.createPlan (s : Splitter) (w : Char → Bool) (bagName : Str) (size : Str → Nat) (t : Tree)
    (listing : List FInfo) : List Manifest :=
  completePlan bagName size (nonstandard w t) (s.run (sortedFiles w s.forhead listing))

/-- `plan` (split.py:450-475) with a naming iterator. -/
def Splitter.plan (s : Splitter) (w : Char → Bool) (bagName : Str) (size : Str → Nat) (t : Tree)
    (listing : List FInfo) (names : Nat → Option Str) : Except PyErr Unit × List Manifest :=
  nameOutputBags names false (s.createPlan w bagName size t listing)

end Verif
