import Verif.Model.MkPlan
/-!
# What is asked of datasets made from plans
-/

namespace Verif.Spec

open Verif

/-- The bytes in some files. -/
def bytesOf (l : List (List Str × Str)) : Nat := (l.map (fun f => f.2.length)).sum

/-- From `t` to `t'` the files `new` and the directories `newDirs` were added in the directory `target`, and nothing was
changed: nothing new was there before, no two have the same path, each is in `target` or in a new directory, and the name of a
file ends in its size (up to `2 ^ 98` bytes). -/
structure Added (target : List Str) (t t' : Dataset) (new : List (List Str × Str)) (newDirs : List (List Str)) : Prop where
  files : t'.files = t.files ++ new
  dirs : t'.dirs = t.dirs ++ newDirs
  fresh : ∀ p ∈ new.map (·.1) ++ newDirs, p ∉ t.files.map (·.1) ∧ p ∉ t.dirs
  distinct : (new.map (·.1) ++ newDirs).Nodup
  fileNames : ∀ f ∈ new, ∃ dir ∈ target :: newDirs, ∃ r n, f.1 = dir ++ [hex3 r ++ '_' :: natStr n] ∧ (n < 2 ^ 98 → f.2.length = n)
  dirNames : ∀ p ∈ newDirs, ∃ dir ∈ target :: newDirs, ∃ r, p = dir ++ [hex3 r ++ py!"_d"]

/-- In the sequence `s` each number below `K` occurs again and again.  (So it is, with probability 1, for numbers drawn at random.) -/
def Fair (K : Nat) (s : Nat → Nat) : Prop := ∀ r < K, ∀ n, ∃ i, n ≤ i ∧ s i = r

/-! ## Plans that suit the totals -/

/-- The bytes and files of an inventory. -/
def inventoryTotals (sizes : List (Nat × Nat)) : Int × Int :=
  (((sizes.map (fun c => c.1 * c.2)).sum : Nat), ((sizes.map (·.2)).sum : Nat))

/-- What a uniform set says, if it says both and neither is negative. -/
def uniformTotals : Option Int → Option Int → Option (Int × Int)
  | some s, some n => if 0 ≤ s ∧ 0 ≤ n then some (s, n) else none
  | _, _ => none

/-- The bytes and files that a set of files claims.  (`iter` is there if the directive has been worked on before.) -/
def says (fs : FileSet) : Option (Int × Int) :=
  match fs.iter, fs.kind with
  | some (.uniform s n), _ => uniformTotals s n
  | some (.inventory sizes), _ => some (inventoryTotals sizes)
  | none, .uniform => uniformTotals fs.totalsize fs.totalfiles
  | none, .inventory sizes => sizes.map inventoryTotals
  | none, .other => none

/-- A set of files is in order: its type is known, an inventory has no size twice, and a uniform set does not claim to have no
files. -/
def SetInOrder (fs : FileSet) : Prop :=
  match fs.iter, fs.kind with
  | some (.uniform s n), _ => ∀ a, uniformTotals s n ≠ some (a, 0)
  | some (.inventory sizes), _ => (sizes.map (·.1)).Nodup
  | none, .uniform => ∀ a, uniformTotals fs.totalsize fs.totalfiles ≠ some (a, 0)
  | none, .inventory sizes => ∃ l, sizes = some l ∧ (l.map (·.1)).Nodup
  | none, .other => False

/-- The bytes that the directives of a directory claim, each with its repetitions. -/
def sizeClaims (d : DirSpec) : List (Option Int × Nat) :=
  (d.files.getD []).map (fun f => ((says f).map (·.1), f.reps)) ++ d.subdirs.map (fun s => (s.totalsize, s.reps))

/-- The files that they claim. -/
def fileClaims (d : DirSpec) : List (Option Int × Nat) :=
  (d.files.getD []).map (fun f => ((says f).map (·.2), f.reps)) ++ d.subdirs.map (fun s => (s.totalfiles, s.reps))

/-- What is claimed in all. -/
def claims : List (Option Int × Nat) → Int
  | [] => 0
  | (some t, reps) :: rest => t * reps + claims rest
  | (none, _) :: rest => claims rest

/-- How many claim nothing. -/
def unclaimed (l : List (Option Int × Nat)) : Nat := (l.filter (fun c => c.1.isNone)).length

/-- `a` is what a directive may get that claims `o`: what it claims, or an even share of the rest, up or down to an integer. -/
def Gets (total : Int) (l : List (Option Int × Nat)) (o : Option Int) (a : Int) : Prop :=
  match o with
  | some t => a = t
  | none => a * unclaimed l < total - claims l + unclaimed l ∧ total - claims l < a * unclaimed l + unclaimed l

/-- A plan suits the totals `ts` (bytes) and `tf` (files): at every level there is something to make; what claims nothing is not
repeated; no more is claimed than there is; there is a file for everything that claims no number, and the claims leave no files
over (or leave some files and some bytes, which then go together); and the plans of the directories suit what these get. -/
inductive Suits : Int → Int → DirSpec → Prop
  | mk {ts tf : Int} {d : DirSpec} (bytes : 0 < ts) (files : 0 < tf) (orderly : ∀ f ∈ d.files.getD [], SetInOrder f)
      (single : ∀ c ∈ sizeClaims d ++ fileClaims d, c.1 = none → c.2 = 1)
      (sizes : claims (sizeClaims d) ≤ ts)
      (counts :
        if unclaimed (sizeClaims d) = 0 ∧ claims (sizeClaims d) < ts then
          unclaimed (fileClaims d) = 0 ∧ claims (fileClaims d) < tf
        else if unclaimed (fileClaims d) = 0 then claims (fileClaims d) = tf
        else claims (fileClaims d) + unclaimed (fileClaims d) ≤ tf)
      (within : ∀ s ∈ d.subdirs, ∀ a b, Gets ts (sizeClaims d) s.totalsize a → Gets tf (fileClaims d) s.totalfiles b → Suits a b s) :
      Suits ts tf d

mutual
/-- How many directories a plan asks for, at all levels. -/
def dirsOf : DirSpec → Nat
  | .mk _ _ _ _ _ (some n) => n
  | .mk _ _ _ _ ds none => dirsOfAll ds
/-- The same for directives: each directory, and what is in it, as often as it is repeated. -/
def dirsOfAll : List DirSpec → Nat
  | [] => 0
  | d :: ds => (1 + dirsOf d) * d.reps + dirsOfAll ds
end

end Verif.Spec
