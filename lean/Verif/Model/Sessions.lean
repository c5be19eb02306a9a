import Verif.Model.History
/-!
# Several objects for one head bag

`HeadBag` objects (access/multibag.py:144-746) that were opened on the same directory, in one process or in several.  Each
has lists of its own in memory; what they read and write is the same directory.

Simplifications: the calls take place one at a time, and the metadata (`info`) is that of the time when the bags were opened;
`update_info` is not among the calls.
-/

namespace Verif

variable {ι : Type} [DecidableEq ι]

/-- The directory, and the objects. -/
structure OpenBags (ι : Type) where
  disk : Tree
  objs : ι → HeadBag

/-- The objects have just been opened (access/multibag.py:144-158). -/
def OpenBags.start (tree : Tree) (info : Info) : OpenBags ι := { disk := tree, objs := fun _ => HeadBag.open tree info }

/-- An object, with the directory as it is now. -/
def OpenBags.here (w : OpenBags ι) (i : ι) : HeadBag := { w.objs i with tree := w.disk }

/-- A call of a method of one of the objects (access/multibag.py:330-690). -/
def OpenBags.call (w : OpenBags ι) (i : ι) (op : Op) : Except PyErr Unit × OpenBags ι :=
  ((step (w.here i) op).1, { disk := (step (w.here i) op).2.tree, objs := fun j => if j = i then (step (w.here i) op).2 else w.objs j })

/-- Calls of methods of the objects, one after the other, going on after exceptions. -/
def OpenBags.calls (w : OpenBags ι) : List (ι × Op) → OpenBags ι
  | [] => w
  | c :: rest => ((w.call c.1 c.2).2).calls rest

/-- The calls that concern one of the objects. -/
def callsOf (l : List (ι × Op)) (i : ι) : List Op := (l.filter (fun c => decide (c.1 = i))).map (·.2)

end Verif
