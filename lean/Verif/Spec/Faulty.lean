import Verif.Spec.Apply
/-!
# What may become of the bags of a split if copies fail
-/

namespace Verif.Spec

/-- A file of an output bag, as it should be and as it may be: the copied files may be cut short, the metadata may differ,
and `bagit.txt` may be anything but a directory. -/
inductive Damaged (src : Tree) (p : Path) : Option Node → Option Node → Prop
  | same (n : Option Node) : Damaged src p n n
  | cut {c c' : Str} : ¬ Standard p → src.read p = some c → c' <+: c → Damaged src p (some (.file c)) (some (.file c'))
  | info (c c' : Str) : p = [py!"bag-info.txt"] → Damaged src p (some (.file c)) (some (.file c'))
  | bagit (c : Str) (n : Option Node) : p = [py!"bagit.txt"] → n ≠ some .dir → Damaged src p (some (.file c)) n

/-- A whole output bag, as it should be (`t`) and as it may be (`t'`). -/
structure DamagedBag (src t t' : Tree) : Prop where
  files : ∀ p, Damaged src p (dget t p) (dget t' p)
  /-- No path is there twice. -/
  once : (dkeys t').Nodup

end Verif.Spec
