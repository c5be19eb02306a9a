import Verif.Model.SplitNames
import Verif.Spec.PlanText
/-!
# Output bags with any names
-/

namespace Verif.Spec

/-- The files that a split writes itself into an output bag. -/
def ownFiles (m : BagMaking) (o : Output) : List Path :=
  (m.manifests ++ o.hashes.map (·.1) ++ [py!"bag-info.txt"]).map (fun n => [n]) ++
  [[py!"multibag", py!"member-bags.tsv"], [py!"multibag", py!"file-lookup.tsv"], [py!"multibag", py!"aggregation-info.txt"]]

/-- An output bag for the directory `D`, with the source bag in `B`: its entries are relative and without `..`, none of them
leads to a file that the split writes itself, and it is not in the source bag. -/
structure Sound (m : BagMaking) (B : Path) (o : Output) (D : Path) : Prop where
  place : AbsPath (pathJoin m.outdir o.name) D
  outside : ¬ Inside B D
  down : ∀ f ∈ o.entries, Downwards f
  free : ∀ f ∈ o.entries, leadsTo [] f ∉ ownFiles m o
  manifests : ∀ n ∈ m.manifests ++ o.hashes.map (·.1), GoodName n ∧ n ≠ py!"bagit.txt"

end Verif.Spec
