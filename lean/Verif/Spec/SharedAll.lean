import Verif.Spec.RestoreShared
import Verif.Spec.Restore
import Verif.Model.SharedAll
/-!
# Splits and restores that share a file system
-/

namespace Verif.Spec

/-- The two places are not the same and neither is in the other. -/
def ApartFrom (a b : Path) : Prop := ¬ Inside a b ∧ ¬ Inside b a

/-- The calls can be made in the file system `W`, and get along.  The split `i` makes the bags `ns i` in the directory `O i`;
the restore `k` makes the bag `D k` and reads only what is at the places `R k`.  No two calls make a bag at the same place
or one inside of the other, and none makes a bag where another one reads.  They may read the same bags and make their bags
in the same directory. -/
structure GetAlong {ι κ : Type} (W : Tree) (splits : ι → SplitJob) (restores : κ → RestoreJob) (O : ι → Path) (ns : ι → List Str)
    (wd D : κ → Path) (R : κ → List Path) : Prop where
  wf : WfTree W
  split : ∀ i, ReadyToSplit W (splits i) (O i) (ns i)
  restore : ∀ k, ReadyToRestore W (restores k) (wd k) (D k) (R k)
  env : ∀ k, EnvOk (restores k).env
  archives : ∀ k p t, (restores k).archives p = some t → WfTree t
  bySplits : (∀ i j, ¬ Inside (splits i).src (O j)) ∧ ∀ i j, i ≠ j → ∀ m ∈ ns i, ∀ n ∈ ns j, O i ++ [m] ≠ O j ++ [n]
  byRestores : ∀ i j, i ≠ j → ¬ Inside (D i) (D j) ∧ ∀ r ∈ R i, ApartFrom (D j) r
  newBags : ∀ i k, ∀ n ∈ ns i, ApartFrom (O i ++ [n]) (D k) ∧ ∀ r ∈ R k, ApartFrom (O i ++ [n]) r
  source : ∀ i k, ApartFrom (splits i).src (D k)
  out : ∀ i k, ¬ Inside (D k) (O i)

end Verif.Spec
