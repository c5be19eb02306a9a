import Verif.Props.AmendRestored
/-!
# Editions of an aggregation

A bag is amended again and again, each time with the head bag of the edition before, which is opened anew from
its directory.
-/

namespace Verif.Spec

/-- An edition: how its head bag was made, and `after`, the head bag opened again when it was finished.  `tree` and
`info` are the directory and the metadata of the new head bag before. -/
structure Edition where
  keep : Bool := false
  me : NewHead
  version : Str
  bags : List Amending
  tree : Tree
  info : Info
  after : Amendee

/-- The edition was made by amending `old`. -/
structure Published (E : SaveEnv) (cfg : ReadCfg) (old : Amendee) (e : Edition) : Prop where
  opened : Opened e.tree e.info
  done : ∃ s', amend E e.keep old e.me e.version e.bags (HeadBag.open e.tree e.info) = (.ok (), s') ∧ e.after.tree = s'.tree
  name : e.after.name = e.me.name
  again : ∃ b, openBag cfg e.after.tree = .ok b ∧ b.tagFile = py!"bag-info.txt" ∧ e.after.info = b.info

/-- The head bag of the last edition, or the bag it all began with. -/
def latest (first : Amendee) (es : List Edition) : Amendee :=
  match es.getLast? with
  | none => first
  | some e => e.after

/-- Editions published one after another, oldest first. -/
inductive Editions (E : SaveEnv) (cfg : ReadCfg) (first : Amendee) : List Edition → Prop where
  | none : Editions E cfg first []
  | next {es : List Edition} {e : Edition} (before : Editions E cfg first es)
      (now : Published E cfg (latest first es) e) : Editions E cfg first (es ++ [e])

/-- The version of a bag: what it says, or 1 if it is not a head bag. -/
def VersionIs (info : Info) (v : Str) : Prop :=
  dget info py!"Multibag-Head-Version" = some (.one v) ∨ (py!"Multibag-Head-Version" ∉ dkeys info ∧ v = py!"1")

/-- The metadata of the bag it began with can be taken over: a profile version that the library writes, at most once,
and one-line texts. -/
structure Startable (info : Info) : Prop where
  profile : verLt (profileVersion info) py!"0.3" = false
  once : fields info py!"Multibag-Version" = [] ∨ ∃ v, fields info py!"Multibag-Version" = [v]
  texts : ∀ v ∈ profileVersion info :: fields info py!"Multibag-Head-Deprecates", OneLine v
  version : ∃ v, VersionIs info v ∧ OneLine v

/-- The metadata of an edition can be written: one-line texts, labels once, and a version. -/
structure Edition.Lettered (e : Edition) : Prop where
  keys : (dkeys e.info).Nodup
  clean : CleanInfo e.info
  version : OneLine e.version
  given : e.version ≠ []

/-- What an edition adds to the member list. -/
def Edition.records (e : Edition) : List MemberInfo := e.bags.map record ++ [headRecord e.me]

/-- The bags of an edition by name, with their contents before it was made. -/
def Edition.parts (e : Edition) : List (Str × Tree) := withTrees e.bags e.me e.tree

/-- The same bags as they are stored afterwards. -/
def Edition.stored (e : Edition) : List (Str × Tree) :=
  e.bags.map (fun b => (b.name, b.tree)) ++ [(e.me.name, e.after.tree)]

/-- The members of the aggregation it all began with: as its head bag lists them, or just the one bag. -/
inductive Beginning (first : Amendee) : List MemberInfo → List (Str × Tree) → Prop where
  | head {oms : List MemberInfo} {bags : List (Str × Tree)} (h : py!"Multibag-Head-Version" ∈ dkeys first.info)
      (ho : iterMembers first.mode first.tree first.info = .ok oms) (hn : oms.map (·.name) = bags.map Prod.fst) :
      Beginning first oms bags
  | single (h : py!"Multibag-Head-Version" ∉ dkeys first.info) :
      Beginning first [⟨first.name, none, none, []⟩] [(first.name, first.tree)]

/-- Where the payload file `q` was in the aggregation it all began with. -/
inductive LookedUp (first : Amendee) (q : Str) : Option Str → Prop where
  | head {oes : List (Str × Str)} (h : py!"Multibag-Head-Version" ∈ dkeys first.info)
      (ho : iterLookup first.mode first.tree first.info = .ok oes) : LookedUp first q (lastFor oes q)
  | own (h : py!"Multibag-Head-Version" ∉ dkeys first.info) (hp : Payload first.tree q) : LookedUp first q (some first.name)
  | nowhere (h : py!"Multibag-Head-Version" ∉ dkeys first.info) (hp : ¬ Payload first.tree q) : LookedUp first q none

end Verif.Spec
