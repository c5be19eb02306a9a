import Verif.Model.Replicate
import Verif.Spec.Paths
/-!
# Disks with hard links
-/

namespace Verif.Spec

/-- Every file has an inode that is in use. -/
def InodesOk (d : LDisk) : Prop := ∀ p i, dget d.names p = some (.file i) → i < d.next

/-- No two names are for the same inode: there are no hard links. -/
def Unshared (d : LDisk) : Prop :=
  ∀ p q i, dget d.names p = some (.file i) → dget d.names q = some (.file i) → p = q

/-- There is nothing yet at the place the call is to fill. -/
def PlaceFree (d : LDisk) (c : RepCall) : Prop := d.exists (c.dest ++ c.path) = false

/-- There is nothing yet at the place when each call is made. -/
def PlacesFree (d : LDisk) : List RepCall → Prop
  | [] => True
  | c :: cs => PlaceFree d c ∧ PlacesFree (d.replicate c).2 cs

/-- The call makes no hard link. -/
def Copies (c : RepCall) : Prop := c.how ≠ .writable true ∨ c.canLink = false

/-- On the way from the destination directory to the parent of the place there is no file. -/
def WayFree (d : LDisk) (c : RepCall) : Prop :=
  d.isdir c.dest = true ∧ ∀ x y, c.path = x ++ y → y ≠ [] → d.exists (c.dest ++ x) = true → d.isdir (c.dest ++ x) = true

end Verif.Spec
