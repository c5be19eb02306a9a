import Verif.Spec.SplitShared
import Verif.Spec.RestoreCall
import Verif.Model.RestoreShared
/-!
# Restores that share a file system with other processes
-/

namespace Verif.Spec

/-- What others may do to the file system of a restore meanwhile: anything, but the directory that the destination is in
stays, and the destination and the places `R` are left alone. -/
structure KeepsOff (D : Path) (R : List Path) (t t' : Tree) : Prop where
  parent : t'.isdir D.dropLast = true
  dest : LeftAlone D t t'
  sources : ∀ r ∈ R, LeftAlone r t t'

/-- A process takes some turns, and between them others make changes as in `Q`. -/
inductive Alongside {α : Type} (Q : Tree → Tree → Prop) : Doing α → Tree → Doing α → Tree → Prop
  | refl (m : Doing α) (t : Tree) : Alongside Q m t m t
  | other {m m' : Doing α} {t u t' : Tree} : Q t u → Alongside Q m u m' t' → Alongside Q m t m' t'
  | turn {m m' : Doing α} {t t' : Tree} : Alongside Q (m.turn t).1 (m.turn t).2 m' t' → Alongside Q m t m' t'

/-- A change that makes, alters and removes things only at `D` and in it. -/
structure OnlyIn (D : Path) (t t' : Tree) : Prop where
  same : ∀ q, ¬ Inside D q → SameThing t' t q
  order : ∀ d, ¬ Inside D d → ¬ Inside d D → t'.below d = t.below d

/-- Where a call without a function to fetch bags looks for member bags: in the directory that is given, or next to the head
bag. -/
def searched (j : RestoreJob) : Str :=
  match j.compdir with
  | some (c :: cs) => c :: cs
  | _ => dirName (abspath j.cwd j.headbag)

/-- The call can be made in the file system `W`: its destination `D` is given and is a directory or does not exist yet, the
directory it is in exists, and `R` contains the place of the head bag and all places where member bags are looked for; these
are apart from the destination. -/
structure ReadyToRestore (W : Tree) (j : RestoreJob) (wd D : Path) (R : List Path) : Prop where
  cwd : AbsPath j.cwd wd
  dest : ∃ d, j.destbag = some d ∧ d ≠ [] ∧ leadsTo wd d = D ∧ ¬ abspath j.cwd d <+: searched j
  root : D ≠ []
  parent : W.isdir D.dropLast = true
  place : W.exists D = true → W.isdir D = true
  head : leadsTo wd j.headbag ∈ R
  members : ∀ H ms, headAt j.cwd (diskPlaces j.cwd j.archives j.dirs W) j.env.base j.headbag = .ok H →
    iterMembers H.mode H.tree H.info = .ok ms → ∀ m ∈ ms, leadsTo wd (pathJoin (searched j) m.name) ∈ R ∧
      ∀ e ∈ j.exts, leadsTo wd (pathJoin (searched j) m.name ++ e) ∈ R
  apart : ∀ r ∈ R, ¬ Inside D r ∧ ¬ Inside r D

end Verif.Spec
