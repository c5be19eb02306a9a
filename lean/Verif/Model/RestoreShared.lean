import Verif.Model.RestoreCall
/-!
# Restores on a file system that others use as well

`restore_bag` (multibag/restore.py:330-357) with paths and without a function to fetch bags, operation by operation.
Between any two operations other processes may have changed the file system: each operation works on what it finds.

Simplifications: each operation takes place at one moment (reading the manifests of a bag, listing its files, removing a
directory tree and copying a file are several system calls); an operation that fails changes nothing; what is in an
archive is fixed (`archives`), and the head bag is read as it was opened if it is one.
-/

namespace Verif

/-- A process: it has ended, or its next operation changes the file system it finds, and how it goes on depends on what
that was. -/
inductive Doing (α : Type) where
  | done (r : Except PyErr α)
  | next (op : Tree → Except PyErr Tree) (then_ : Tree → Doing α)

/-- The next operation of a process on a file system. -/
def Doing.turn {α : Type} : Doing α → Tree → Doing α × Tree
  | .done r, t => (.done r, t)
  | .next op k, t =>
    match op t with
    | .error e => (.done (.error e), t)
    | .ok t' => (k t, t')

/-- One process after the other, if there is no exception. -/
def Doing.bind {α β : Type} : Doing α → (α → Doing β) → Doing β
  | .done (.error e), _ => .done (.error e)
  | .done (.ok a), g => g a
  | .next op k, g => .next op (fun t => (k t).bind g)

/-- A question to the file system. -/
def ask {α : Type} (f : Tree → Except PyErr α) : Doing α := .next .ok (fun t => .done (f t))

/-- A change. -/
def change (f : Tree → Except PyErr Tree) : Doing Unit := .next f (fun _ => .done (.ok ()))

/-- Nothing to do. -/
def Doing.ret {α : Type} (a : α) : Doing α := .done (.ok a)

/-! ## Copying from one bag -/

/-- One operation of restore.py:190-219 without overwriting, as `doAct`; `D` is the destination and `src` the bag as the
file system has it.  The result says which file was copied. -/
def actDoing (D : Path) (src : Tree → Option Tree) : Act → Doing (List Str)
  | .stat p => ask (fun t => if t.exists (D ++ p) then .ok [] else .error .osError)
  | .file p =>
    (ask (fun t => .ok (t.exists (D ++ p)))).bind (fun there =>
      if there then .ret []
      else (change (fun t =>
        match (src t).bind (fun s => s.read p) with
        | none => .error .osError
        | some c => t.write (D ++ p) c)).bind (fun _ => .ret [slashPath p]))
  | .dir p =>
    (ask (fun t => .ok (t.exists (D ++ p)))).bind (fun there =>
      if there then .ret [] else (change (fun t => t.mkdir (D ++ p))).bind (fun _ => .ret []))

/-- restore.py:185-219. -/
def actsDoing (D : Path) (src : Tree → Option Tree) : List Act → List Str → Doing (List Str)
  | [], updated => .ret updated
  | a :: rest, updated => (actDoing D src a).bind (fun u => actsDoing D src rest (updated ++ u))

/-- Write one manifest, unless there is nothing to list (restore.py:244-256). -/
def writeManifestDoing (D : Path) (kind alg : Str) (es : List (Str × Str)) : Doing Unit :=
  if es = [] then .ret ()
  else change (fun t => t.write (D ++ manPath kind alg) (es.map (fun ph => hashLine ph.2 ph.1)).flatten)

/-- restore.py:243-256. -/
def writeManifestsDoing (D : Path) : ByAlg → Doing Unit
  | [] => .ret ()
  | (alg, ps) :: rest =>
    (writeManifestDoing D py!"manifest" alg (ps.filter (fun ph => startsWith py!"data/" ph.1))).bind (fun _ =>
      (writeManifestDoing D py!"tagmanifest" alg (ps.filter (fun ph => !startsWith py!"data/" ph.1))).bind (fun _ =>
        writeManifestsDoing D rest))

/-- `_update_manifests` (restore.py:227-256). -/
def updateManifestsDoing (cfg : ReadCfg) (D : Path) (src : Entries) (updated : List Str) : Doing Unit :=
  (ask (fun t => openBag cfg (t.below D))).bind (fun b =>
    match mergeAll b.entries (collect src updated) with
    | .error e => .done (.error e)
    | .ok m => writeManifestsDoing D m)

/-- A bag as the file system has it. -/
def bagNow (src : Tree → Option Tree) (t : Tree) : Except PyErr Tree :=
  match src t with
  | none => .error .osError
  | some s => .ok s

/-- `_restore_from` (restore.py:174-225). -/
def restoreFromDoing (E : RestoreEnv) (D : Path) (path : Str) (src : Tree → Option Tree) (skip : List Str) : Doing Unit :=
  if path = E.base.bagpath then .ret ()
  else (ask (fun t =>
      match bagNow src t with
      | .error e => .error e
      | .ok s => openBag { E.base with bagpath := path } s)).bind (fun sb =>
    (ask (fun t =>
      match bagNow src t with
      | .error e => .error e
      | .ok s => .ok (E.walk s))).bind (fun w =>
    (actsDoing D src (actsOf skip w) []).bind (fun updated =>
      if updated = [] then .ret () else updateManifestsDoing E.base D sb.entries updated)))

/-! ## The members -/

/-- What is needed to find member bags (restore.py:118-148). -/
structure Finder where
  restorer : Restorer
  exts : List Str
  cwd : Str
  archives : Path → Option Tree

/-- Where `get_member_bag` finds a bag that can be read (restore.py:118-148). -/
def Finder.path (F : Finder) (name : Str) (t : Tree) : Option Str :=
  (F.restorer.source F.exts F.cwd t F.archives name).map (fun s => s.path)

/-- What is at the absolute path of a member bag: the directory, or what is in the archive. -/
def Finder.bag (F : Finder) (path : Str) (t : Tree) : Option Tree :=
  if t.isdir (comps path) then some (t.below (comps path)) else F.archives (comps path)

/-- The loop of restore.py:306-307 over `restore_member` (restore.py:150-172). -/
def membersDoing (E : RestoreEnv) (F : Finder) (D : Path) (skip : List Str) : List Str → Doing Unit
  | [] => .ret ()
  | n :: rest =>
    (ask (fun t => .ok (F.path n t))).bind (fun p =>
      match p with
      | none => .done (.error .osError)
      | some p => (restoreFromDoing E D p (F.bag p) skip).bind (fun _ => membersDoing E F D skip rest))

/-- The loop over the members (restore.py:269-277). -/
def collectFetchDoing (E : RestoreEnv) (F : Finder) : List Str → List (Str × Str) → Doing (List (Str × Str))
  | [], fetch => .ret fetch
  | n :: rest, fetch =>
    (ask (fun t => .ok (F.path n t))).bind (fun p =>
      match p with
      | none => .done (.error .valueError)
      | some p =>
        (ask (fun t =>
          match bagNow (F.bag p) t with
          | .error e => .error e
          | .ok s => openBag { E.base with bagpath := p } s)).bind (fun _ =>
        (ask (fun t =>
          match bagNow (F.bag p) t with
          | .error e => .error e
          | .ok s => .ok (s.read [py!"fetch.txt"]))).bind (fun text =>
          collectFetchDoing E F rest (match text with
            | none => fetch
            | some text => addFetch text fetch))))

/-- `restore_fetch` (restore.py:259-282). -/
def restoreFetchDoing (E : RestoreEnv) (F : Finder) (D : Path) (members : List Str) : Doing Unit :=
  (collectFetchDoing E F members []).bind (fun fetch =>
    if fetch = [] then .ret ()
    else change (fun t => t.write (D ++ [py!"fetch.txt"]) (fetch.map Prod.snd).flatten))

/-! ## Saving the restored bag -/

/-- Rewriting of the tag manifests, as `writeTagManifests`. -/
def writeTagManifestsDoing (sum : Str → Str → Str) (D : Path) : List Str → Doing Unit
  | [] => .ret ()
  | alg :: rest =>
    (ask (fun t => .ok (taggedFiles (t.below D)))).bind (fun files =>
      (change (fun t => t.write (D ++ manPath py!"tagmanifest" alg)
        (files.map (fun pc => hashLine (sum alg pc.2) (joinPath pc.1))).flatten)).bind (fun _ =>
        writeTagManifestsDoing sum D rest))

/-- `Bag.save()` of the external `bagit` package, as `saveBag`. -/
def saveDoing (E : RestoreEnv) (D : Path) (b : RBag) : Doing RBag :=
  (change (fun t => t.write (D ++ [b.tagFile]) (fieldsText (tagFields b.info)))).bind (fun _ =>
    (writeTagManifestsDoing E.sum D b.algorithms).bind (fun _ =>
      ask (fun t =>
        match loadManifests E.base b.version b.encoding (t.below D) with
        | .error e => .error e
        | .ok (algs, es) => .ok { b with tree := t.below D, algorithms := b.algorithms ++ algs, entries := es })))

/-- restore.py:314-321. -/
def removeTagsDoing (E : RestoreEnv) (D : Path) (b : RBag) : Doing RBag :=
  (change (fun t => t.rmtree (D ++ [py!"multibag"]))).bind (fun _ =>
    saveDoing E D { b with info := multibagKeys.foldl ddel b.info })

/-- restore.py:323-327. -/
def updateSizesDoing (E : RestoreEnv) (D : Path) (b : RBag) : Doing RBag :=
  (ask (fun t => .ok (oxumText E.blen (t.below D)))).bind (fun oxum =>
    (saveDoing E D { b with info := dset b.info py!"Payload-Oxum" (.one oxum) }).bind (fun b =>
      (ask (fun t => .ok (E.sizeText (t.below D) b.info))).bind (fun size =>
        saveDoing E D { b with info := dset b.info py!"Bag-Size" (.one size) })))

/-- The last part of `restore` (restore.py:313-327) with both options. -/
def finishDoing (E : RestoreEnv) (D : Path) : Doing Unit :=
  (ask (fun t => openBag E.base (t.below D))).bind (fun b =>
    (removeTagsDoing E D b).bind (fun b => (updateSizesDoing E D b).bind (fun _ => .ret ())))

/-! ## The whole procedure -/

/-- The head bag as the file system has it, if it is a directory; an archive was opened before. -/
def headNow (H : RHead) (t : Tree) : Option Tree :=
  if t.isdir (comps H.path) then some (t.below (comps H.path)) else some H.tree

/-- The first part of `restore` (restore.py:294-302). -/
def startDoing (E : RestoreEnv) (D : Path) (H : RHead) (skip : List Str) : Doing Unit :=
  (ask (fun t =>
    match bagNow (headNow H) t with
    | .error e => .error e
    | .ok s => .ok (s.read aggregationInfo))).bind (fun text =>
  (match text with
    | none => Doing.ret ()
    | some c => change (fun t => t.write (D ++ [py!"bag-info.txt"]) (copiedText H.mode c))).bind (fun _ =>
  if H.path = E.base.bagpath then .ret () else restoreFromDoing E D H.path (headNow H) skip))

/-- `_create_dest_bag` if there is no destination (restore.py:111-116, 291-292). -/
def createDoing (r : Restorer) (cwd : Str) : Doing Unit :=
  (ask (fun t => .ok (diskExists cwd t r.destdir))).bind (fun there =>
    if there then .ret ()
    else (ask (fun t => .ok (diskExists cwd t r.destdir))).bind (fun there =>
      (if there then Doing.ret () else change (fun t => t.mkdir (comps (abspath cwd r.destdir)))).bind (fun _ =>
      (ask (fun t => .ok (r.lacksCache cwd t))).bind (fun lacks =>
        if lacks then change (fun t => t.makedirsFrom [] (comps (abspath cwd r.cachedir))) else .ret ()))))

/-- `restore` (restore.py:284-327) with both options. -/
def restoreDoing (E : RestoreEnv) (F : Finder) (D : Path) (H : RHead) : Doing Unit :=
  (ask (fun t =>
    match bagNow (headNow H) t with
    | .error e => .error e
    | .ok s => iterDeleted H.mode s H.info)).bind (fun deleted =>
  (ask (fun t =>
    match bagNow (headNow H) t with
    | .error e => .error e
    | .ok s => iterMembers H.mode s H.info)).bind (fun ms =>
  (createDoing F.restorer F.cwd).bind (fun _ =>
  (startDoing E D H (pySet deleted)).bind (fun _ =>
  (membersDoing E F D (pySet deleted) (otherMembers H (ms.map (fun m => m.name)))).bind (fun _ =>
  (if otherMembers H (ms.map (fun m => m.name)) = [] then Doing.ret ()
    else restoreFetchDoing E F D (otherMembers H (ms.map (fun m => m.name)))).bind (fun _ =>
  finishDoing E D))))))

/-- A call `restore_bag(headbag, destbag, compdir)` (restore.py:330-357). -/
structure RestoreJob where
  env : RestoreEnv
  cwd : Str
  exts : List Str
  archives : Path → Option Tree
  dirs : Tree → List Path
  headbag : Str
  destbag : Option Str
  compdir : Option Str

/-- What it returns, and the file system it leaves, when it runs alone. -/
def RestoreJob.alone (j : RestoreJob) (t : Tree) : Except PyErr (RBag × Tree) :=
  restoreBag j.env j.cwd j.exts j.archives j.dirs j.headbag j.destbag j.compdir t

/-- The call, operation by operation (restore.py:65-97, 330-357).  As in `restoreBag` the head bag is opened after the
questions about it and the destination have been answered. -/
def RestoreJob.doing (j : RestoreJob) : Doing RBag :=
  (ask (fun t => Restorer.make j.cwd t (isHeadFrom j.cwd (diskPlaces j.cwd j.archives j.dirs t) j.env.base)
    (.location j.headbag) j.destbag j.compdir false)).bind (fun r =>
  (ask (fun t => headAt j.cwd (diskPlaces j.cwd j.archives j.dirs t) j.env.base j.headbag)).bind (fun H =>
  let E := j.env.into r.destdir (fun _ => none)
  let D := comps (abspath j.cwd r.destdir)
  (restoreDoing E { restorer := r, exts := j.exts, cwd := j.cwd, archives := j.archives } D H).bind (fun _ =>
  ask (fun t => openBag E.base (t.below D)))))

/-! ## Several processes -/

section
variable {ι : Type} [DecidableEq ι] {α : Type}

/-- One of the processes has a turn. -/
def turnOf (i : ι) (s : (ι → Doing α) × Tree) : (ι → Doing α) × Tree :=
  (fun k => if k = i then ((s.1 i).turn s.2).1 else s.1 k, ((s.1 i).turn s.2).2)

/-- They take turns as `order` says. -/
def takeTurns : List ι → (ι → Doing α) × Tree → (ι → Doing α) × Tree
  | [], s => s
  | i :: rest, s => takeTurns rest (turnOf i s)

end

end Verif
