import Verif.Model.History
/-!
# The lists that `member_bags()` hands out

`member_bags()` returns the list that the object itself keeps (access/multibag.py:235), not a copy.  Here lists are objects:
each has a number, and the object knows the number of its list.  The other queries return lists of their own
(`member_bag_names`, `files_in_member`, `deleted_paths`: access/multibag.py:242, 293-298, 321).

Simplification: the `MemberInfo` records in the lists are values; the caller does not change them in place.
-/

namespace Verif

/-- A head bag object and the member lists that exist: `lists` by number, `cur` the one that is `_memberbags`. -/
structure LiveBag where
  base : HeadBag
  lists : List (List MemberInfo)
  cur : Option Nat

namespace LiveBag

/-- The list with a number. -/
def list (w : LiveBag) (k : Nat) : List MemberInfo := w.lists.getD k []

/-- The object as `Model/HeadBag.lean` has it, where lists are values. -/
def here (w : LiveBag) : HeadBag := { w.base with members := w.cur.map w.list }

/-- A new object (access/multibag.py:144-158). -/
def start (tree : Tree) (info : Info) : LiveBag := { base := HeadBag.open tree info, lists := [], cur := none }

/-- A list is changed in place. -/
def put (w : LiveBag) (k : Nat) (l : List MemberInfo) : LiveBag := { w with lists := w.lists.set k l }

/-- A new list becomes that of the object. -/
def fresh (w : LiveBag) (l : List MemberInfo) : LiveBag := { w with lists := w.lists ++ [l], cur := some w.lists.length }

/-- `member_bags` (access/multibag.py:225-235, 367-381): the number of the list that is returned.  If the file is missing it is
a new empty list, which the object does not keep. -/
def memberBags (w : LiveBag) (reread : Bool) : Except PyErr Nat × LiveBag :=
  if reread || w.cur.isNone then
    match iterMembers .codecs w.base.tree w.base.info with
    | .ok ms => (.ok w.lists.length, w.fresh ms)
    | .error .missingFile => (.ok w.lists.length, { w with lists := w.lists ++ [[]] })
    | .error e => (.error e, w)
  else (.ok (w.cur.getD 0), w)

/-- `set_member_bags` (access/multibag.py:409-419): a copy of the argument. -/
def setMemberBags (w : LiveBag) (ms : List MemberInfo) : LiveBag := w.fresh ms

/-- The positions of the entries with a name (access/multibag.py:515-516). -/
def positions (ms : List MemberInfo) (bag : Str) : List Nat :=
  (List.range ms.length).filter (fun i => (ms[i]?).any (fun m => decide (m.name = bag)))

/-- Deleting them, the last one first (access/multibag.py:517-518). -/
def deleteAll (ms : List MemberInfo) (idxs : List Nat) : List MemberInfo := idxs.reverse.foldl (fun l i => l.eraseIdx i) ms

/-- `remove_member_bag` (access/multibag.py:500-523): the list is changed in place. -/
def removeMemberBag (w : LiveBag) (bag : Str) : Except PyErr Unit × LiveBag :=
  let w := match w.cur with
    | none => w
    | some k => w.put k (deleteAll (w.list k) (positions (w.list k) bag))
  match w.base.filesInMember bag with
  | (.error e, s) => (.error e, { w with base := s })
  | (.ok files, s) => ((s.forgetFiles files).1, { w with base := (s.forgetFiles files).2 })

/-- Loading the list before an update (access/multibag.py:399-402). -/
def ensureMembers (w : LiveBag) : Except PyErr Unit × LiveBag :=
  match w.cur with
  | some _ => (.ok (), w)
  | none =>
    match w.memberBags false with
    | (.error e, w) => (.error e, w)
    | (.ok _, w) => (.ok (), match w.cur with | some _ => w | none => w.fresh [])

/-- `add_member_bag` (access/multibag.py:383-407): the list is changed in place. -/
def addMemberBag (w : LiveBag) (m : MemberInfo) (override : Bool) : Except PyErr Unit × LiveBag :=
  match w.ensureMembers with
  | (.error e, w) => (.error e, w)
  | (.ok _, w) =>
    match (if override then w.removeMemberBag m.name else (.ok (), w)) with
    | (.error e, w) => (.error e, w)
    | (.ok _, w) =>
      match w.cur with
      | some k => (.ok (), w.put k (w.list k ++ [m]))
      | none => (.ok (), w)

/-- A call.  Those that do not concern the member list, and saving it, are as in `Model/History.lean`. -/
def call (w : LiveBag) : Op → Except PyErr Unit × LiveBag
  | .addMember m ov => w.addMemberBag m ov
  | .setMembers ms => (.ok (), w.setMemberBags ms)
  | .removeMember b => w.removeMemberBag b
  | .memberBags => ((w.memberBags false).1.map (fun _ => ()), (w.memberBags false).2)
  | .reloadMembers => ((w.memberBags true).1.map (fun _ => ()), (w.memberBags true).2)
  | op => ((step w.here op).1, { w with base := (step w.here op).2 })

end LiveBag

/-- What a program does with a head bag: a call, or a change of a list that it was handed. -/
inductive LiveOp where
  | call (op : Op)
  | edit (k : Nat) (f : List MemberInfo → List MemberInfo)

/-- One step of the program. -/
def LiveBag.act (w : LiveBag) : LiveOp → LiveBag
  | .call op => (w.call op).2
  | .edit k f => w.put k (f (w.list k))

/-- The steps one after the other, going on after exceptions. -/
def LiveBag.acts (w : LiveBag) : List LiveOp → LiveBag
  | [] => w
  | a :: rest => (w.act a).acts rest

/-- `for m in l: body(m)`, for a list `l` that the body may change: Python takes the entry at the next position, as long as
there is one.  An exception ends the loop, and is not described. -/
inductive ForIn (k : Nat) (body : MemberInfo → LiveBag → Except PyErr Unit × LiveBag) : Nat → LiveBag → LiveBag → Prop
  | done {i w} (h : (w.list k).length ≤ i) : ForIn k body i w w
  | next {i w w' w'' m} (h : (w.list k)[i]? = some m) (hb : body m w = (.ok (), w')) (hr : ForIn k body (i + 1) w' w'') :
      ForIn k body i w w''

end Verif
