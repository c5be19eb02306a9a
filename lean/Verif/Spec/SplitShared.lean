import Verif.Spec.SplitDisk
import Verif.Model.SplitShared
import Verif.Model.OpenBag
import Verif.Lemmas.ApplyTotal
/-!
# Processes that share a file system
-/

namespace Verif.Spec

/-- What is at `d` and in it is the same in both file systems, and is listed in the same order. -/
def LeftAlone (d : Path) (t t' : Tree) : Prop := (∀ q, Inside d q → SameThing t' t q) ∧ t'.below d = t.below d

/-- What others may do to the file system of a split meanwhile: anything, but the output directory stays, and the source
and whatever is at the places of the bags to be made is left alone. -/
structure Elsewhere (src O : Path) (ns : List Str) (t t' : Tree) : Prop where
  wf : WfTree t'
  out : t'.isdir O = true
  source : LeftAlone src t t'
  bags : ∀ n ∈ ns, LeftAlone (O ++ [n]) t t'

/-- Between the operations `steps` (file systems found and left), and before the first of them, only changes as in `Q`
took place. -/
def Meanwhile (Q : Tree → Tree → Prop) : Tree → List (Tree × Tree) → Prop
  | _, [] => True
  | t, s :: rest => Q t s.1 ∧ Meanwhile Q s.2 rest

/-- A change that makes and alters things only at the places of the bags to be made, and in them. -/
structure Confined (O : Path) (ns : List Str) (t t' : Tree) : Prop where
  wf : WfTree t'
  same : ∀ q, (∀ n ∈ ns, ¬ Inside (O ++ [n]) q) → SameThing t' t q
  order : ∀ d, (∀ n ∈ ns, ¬ Inside (O ++ [n]) d ∧ ¬ Inside d (O ++ [n])) → t'.below d = t.below d

/-- The call can be made in the file system `W`: it splits an ordinary bag that lies there, by the entries of its plan,
into an existing directory `O` outside of that bag, and the names `ns` of the new bags are plain, different and not yet
in use there. -/
structure ReadyToSplit (W : Tree) (j : SplitJob) (O : Path) (ns : List Str) : Prop where
  ordinary : Ordinary j.source
  single : py!"Multibag-Head-Version" ∉ dkeys j.source.info
  src : GoodPath j.src
  bag : BagAt W j.src j.source.tree
  outdir : AbsPath j.outdir O
  isdir : W.isdir O = true
  apart : ¬ Inside j.src O
  entries : ∀ m ∈ j.plan, ∀ f ∈ m.contents, PlanEntry f
  names : chosenNames j.plan j.names = ns.map some
  nodup : ns.Nodup
  free : ∀ n ∈ ns, GoodName n ∧ W.exists (O ++ [n]) = false

end Verif.Spec
