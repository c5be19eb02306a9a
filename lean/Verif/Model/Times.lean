import Verif.Model.Restore
/-!
# Modification times of a restored bag (multibag/restore.py:174-327)

`Model/Restore.lean` leaves out modification times.  Here is the same procedure with the times of the files and directories
of the destination.  A directory's time changes when an entry is made in it or removed from it, a file's when it is
written; `os.utime` sets it.  Every change of the file system takes place at a time of a clock, of which nothing is assumed.
Times are whole numbers of some unit since 1970.

The manifests, the metadata file, the fetch list and the tag manifests are written in the same way as in
`Model/Restore.lean`.  The directory a bag is restored into exists at the start.
-/

namespace Verif

/-- A directory tree with the modification time of each of its paths, and how often it was changed. -/
structure Timed where
  tree : Tree
  time : Path → Nat
  tick : Nat

/-- The tree becomes `t` by a change that sets the times of `ps`. -/
def Timed.changed (now : Nat → Nat) (d : Timed) (t : Tree) (ps : List Path) : Timed :=
  { tree := t, time := fun q => if q ∈ ps then now d.tick else d.time q, tick := d.tick + 1 }

/-- A file is written: an entry is made in its directory if there was none. -/
def Timed.write (now : Nat → Nat) (d : Timed) (p : Path) (c : Str) : Except PyErr Timed :=
  match d.tree.write p c with
  | .error e => .error e
  | .ok t => .ok (d.changed now t (if d.tree.exists p then [p] else [p, p.dropLast]))

/-- `os.mkdir`. -/
def Timed.mkdir (now : Nat → Nat) (d : Timed) (p : Path) : Except PyErr Timed :=
  match d.tree.mkdir p with
  | .error e => .error e
  | .ok t => .ok (d.changed now t [p, p.dropLast])

/-- `os.remove`. -/
def Timed.remove (now : Nat → Nat) (d : Timed) (p : Path) : Except PyErr Timed :=
  match d.tree.remove p with
  | .error e => .error e
  | .ok t => .ok (d.changed now t [p.dropLast])

/-- `shutil.rmtree`. -/
def Timed.rmtree (now : Nat → Nat) (d : Timed) (p : Path) : Except PyErr Timed :=
  match d.tree.rmtree p with
  | .error e => .error e
  | .ok t => .ok (d.changed now t [p.dropLast])

/-- `os.utime`. -/
def Timed.utime (d : Timed) (p : Path) (t : Nat) : Timed := { d with time := fun q => if q = p then t else d.time q }

/-- `os.utime(destf, (time.time(), times.mtime))` (restore.py:204-206, 217-219).  `times` is a named tuple and so is true
whatever it contains; a time that is missing (`None`) is an error. -/
def Timed.copyTime (d : Timed) (p : Path) : Option Nat → Except PyErr Timed
  | none => .error .typeError
  | some t => .ok (d.utime p t)

/-- The destination and the paths of the files copied so far (see `Copying`). -/
structure TCopying where
  dest : Timed
  updated : List Str

/-- One operation (restore.py:190-219), see `doAct`.  `mt` is `timesfor` (access/extended.py:596-605). -/
def doActTimed (now : Nat → Nat) (overwrite : Bool) (src : Tree) (mt : Path → Option Nat) (s : TCopying) :
    Act → Except PyErr TCopying
  | .stat p => if s.dest.tree.exists p then .ok s else .error .osError
  | .file p =>
    match (if overwrite && s.dest.tree.exists p then s.dest.remove now p else .ok s.dest) with
    | .error e => .error e
    | .ok d =>
      if d.tree.exists p then .ok { s with dest := d }
      else match src.read p with
        | none => .error .osError
        | some c =>
          match d.write now p c with
          | .error e => .error e
          | .ok d =>
            match d.copyTime p (mt p) with
            | .error e => .error e
            | .ok d => .ok { dest := d, updated := s.updated ++ [slashPath p] }
  | .dir p =>
    if s.dest.tree.exists p then .ok s
    else match s.dest.mkdir now p with
      | .error e => .error e
      | .ok d =>
        match d.copyTime p (mt p) with
        | .error e => .error e
        | .ok d => .ok { s with dest := d }

/-- Operations one after the other. -/
def runActsTimed (now : Nat → Nat) (overwrite : Bool) (src : Tree) (mt : Path → Option Nat) :
    List Act → TCopying → Except PyErr TCopying
  | [], s => .ok s
  | a :: rest, s =>
    match doActTimed now overwrite src mt s a with
    | .error e => .error e
    | .ok s => runActsTimed now overwrite src mt rest s

/-- What is done in one directory of the walk (restore.py:192-219). -/
def childActs (skip : List Str) (s : WalkStep) : List Act :=
  (s.2.2.filter (fun f => joinPath (s.1 ++ [f]) ∉ skip)).map (fun f => .file (s.1 ++ [f])) ++
  (s.2.1.filter (fun f => joinPath (s.1 ++ [f]) ∉ skip)).map (fun f => .dir (s.1 ++ [f]))

/-- One step of the walk (restore.py:186-222): the time of the directory is put back, unless it is zero (`if rmtime`). -/
def stepTimed (now : Nat → Nat) (overwrite : Bool) (src : Tree) (mt : Path → Option Nat) (skip : List Str) (s : TCopying)
    (st : WalkStep) : Except PyErr TCopying :=
  if skipDir skip st.1 then .ok s
  else match runActsTimed now overwrite src mt (.stat st.1 :: childActs skip st) s with
    | .error e => .error e
    | .ok s' =>
      .ok (if s.dest.time st.1 = 0 then s' else { s' with dest := s'.dest.utime st.1 (s.dest.time st.1) })

/-- The walk (restore.py:185-222). -/
def walkTimed (now : Nat → Nat) (overwrite : Bool) (src : Tree) (mt : Path → Option Nat) (skip : List Str) :
    List WalkStep → TCopying → Except PyErr TCopying
  | [], s => .ok s
  | st :: rest, s =>
    match stepTimed now overwrite src mt skip s st with
    | .error e => .error e
    | .ok s => walkTimed now overwrite src mt skip rest s

/-- Write one manifest, unless there is nothing to list (restore.py:244-256), see `writeManifest`. -/
def writeManifestTimed (now : Nat → Nat) (d : Timed) (kind alg : Str) (es : List (Str × Str)) : Except PyErr Timed :=
  if es = [] then .ok d
  else d.write now (manPath kind alg) (es.map (fun ph => hashLine ph.2 ph.1)).flatten

/-- The loop that writes the manifests (restore.py:243-256), see `writeManifests`. -/
def writeManifestsTimed (now : Nat → Nat) (d : Timed) : ByAlg → Except PyErr Timed
  | [] => .ok d
  | (alg, ps) :: rest =>
    match writeManifestTimed now d py!"manifest" alg (ps.filter (fun ph => startsWith py!"data/" ph.1)) with
    | .error e => .error e
    | .ok d =>
      match writeManifestTimed now d py!"tagmanifest" alg (ps.filter (fun ph => !startsWith py!"data/" ph.1)) with
      | .error e => .error e
      | .ok d => writeManifestsTimed now d rest

/-- `_update_manifests` (restore.py:227-256), see `updateManifests`. -/
def updateManifestsTimed (now : Nat → Nat) (cfg : ReadCfg) (src : Entries) (updated : List Str) (d : Timed) :
    Except PyErr Timed :=
  match openBag cfg d.tree with
  | .error e => .error e
  | .ok b =>
    match mergeAll b.entries (collect src updated) with
    | .error e => .error e
    | .ok m => writeManifestsTimed now d m

/-- `_restore_from` (restore.py:174-225), see `restoreFrom`.  `mt` gives the times of the bag at a location. -/
def restoreFromTimed (now : Nat → Nat) (mt : Str → Path → Option Nat) (E : RestoreEnv) (src : RSource) (skip : List Str)
    (overwrite : Bool) (d : Timed) : Except PyErr Timed :=
  if src.path = E.base.bagpath then .ok d
  else match openBag { E.base with bagpath := src.path } src.tree with
  | .error e => .error e
  | .ok sb =>
    match walkTimed now overwrite src.tree (mt src.path) skip (E.walk src.tree) { dest := d, updated := [] } with
    | .error e => .error e
    | .ok s =>
      if s.updated = [] then .ok s.dest
      else updateManifestsTimed now E.base sb.entries s.updated s.dest

/-- The loop of restore.py:306-307 over `restore_member` (restore.py:150-163). -/
def restoreMembersTimed (now : Nat → Nat) (mt : Str → Path → Option Nat) (E : RestoreEnv) (skip : List Str) :
    List Str → Timed → Except PyErr Timed
  | [], d => .ok d
  | n :: rest, d =>
    match E.find n with
    | none => .error .osError
    | some src =>
      match restoreFromTimed now mt E src skip false d with
      | .error e => .error e
      | .ok d => restoreMembersTimed now mt E skip rest d

/-- `restore_fetch` (restore.py:259-282), see `restoreFetch`. -/
def restoreFetchTimed (now : Nat → Nat) (E : RestoreEnv) (members : List Str) (d : Timed) : Except PyErr Timed :=
  match collectFetch E members [] with
  | .error e => .error e
  | .ok [] => .ok d
  | .ok fetch => d.write now [py!"fetch.txt"] (fetch.map Prod.snd).flatten

/-- Rewriting of the tag manifests, see `writeTagManifests`. -/
def writeTagManifestsTimed (now : Nat → Nat) (sum : Str → Str → Str) : List Str → Timed → Except PyErr Timed
  | [], d => .ok d
  | alg :: rest, d =>
    match d.write now (manPath py!"tagmanifest" alg)
        ((taggedFiles d.tree).map (fun pc => hashLine (sum alg pc.2) (joinPath pc.1))).flatten with
    | .error e => .error e
    | .ok d => writeTagManifestsTimed now sum rest d

/-- `Bag.save()`, see `saveBag`; `d` is the directory of the bag `b`. -/
def saveBagTimed (now : Nat → Nat) (E : RestoreEnv) (b : RBag) (d : Timed) : Except PyErr (RBag × Timed) :=
  match d.write now [b.tagFile] (fieldsText (tagFields b.info)) with
  | .error e => .error e
  | .ok d =>
    match writeTagManifestsTimed now E.sum b.algorithms d with
    | .error e => .error e
    | .ok d =>
      match loadManifests E.base b.version b.encoding d.tree with
      | .error e => .error e
      | .ok (algs, es) => .ok ({ b with tree := d.tree, algorithms := b.algorithms ++ algs, entries := es }, d)

/-- restore.py:314-321, see `removeTags`. -/
def removeTagsTimed (now : Nat → Nat) (E : RestoreEnv) (b : RBag) (d : Timed) : Except PyErr (RBag × Timed) :=
  match d.rmtree now [py!"multibag"] with
  | .error e => .error e
  | .ok d => saveBagTimed now E { b with tree := d.tree, info := multibagKeys.foldl ddel b.info } d

/-- restore.py:323-327, see `updateSizes`. -/
def updateSizesTimed (now : Nat → Nat) (E : RestoreEnv) (b : RBag) (d : Timed) : Except PyErr (RBag × Timed) :=
  match saveBagTimed now E { b with info := dset b.info py!"Payload-Oxum" (.one (oxumText E.blen b.tree)) } d with
  | .error e => .error e
  | .ok (b, d) => saveBagTimed now E { b with info := dset b.info py!"Bag-Size" (.one (E.sizeText b.tree b.info)) } d

/-- The first part of `restore` (restore.py:294-302), see `startRestore`. -/
def startRestoreTimed (now : Nat → Nat) (mt : Str → Path → Option Nat) (E : RestoreEnv) (H : RHead) (skip : List Str)
    (d : Timed) : Except PyErr Timed :=
  match ((match H.tree.read aggregationInfo with
    | none => .ok d
    | some c => d.write now [py!"bag-info.txt"] (copiedText H.mode c)) : Except PyErr Timed) with
  | .error e => .error e
  | .ok d =>
    if H.path = E.base.bagpath then .ok d else restoreFromTimed now mt E ⟨H.path, H.tree⟩ skip false d

/-- The last part of `restore` (restore.py:313-327), see `finishRestore`. -/
def finishRestoreTimed (now : Nat → Nat) (E : RestoreEnv) (updSizes removeMb : Bool) (d : Timed) : Except PyErr Timed :=
  match openBag E.base d.tree with
  | .error e => .error e
  | .ok b =>
    match (if removeMb then removeTagsTimed now E b d else .ok (b, d)) with
    | .error e => .error e
    | .ok (b, d) =>
      match (if updSizes then updateSizesTimed now E b d else .ok (b, d)) with
      | .error e => .error e
      | .ok (_, d) => .ok d

/-- `restore` (restore.py:284-327) with modification times, see `restore`. -/
def restoreTimed (now : Nat → Nat) (mt : Str → Path → Option Nat) (E : RestoreEnv) (H : RHead) (updSizes removeMb : Bool)
    (d : Timed) : Except PyErr Timed :=
  match iterDeleted H.mode H.tree H.info with
  | .error e => .error e
  | .ok deleted =>
    match iterMembers H.mode H.tree H.info with
    | .error e => .error e
    | .ok ms =>
      match startRestoreTimed now mt E H (pySet deleted) d with
      | .error e => .error e
      | .ok d =>
        let others := otherMembers H (ms.map (fun m => m.name))
        match restoreMembersTimed now mt E (pySet deleted) others d with
        | .error e => .error e
        | .ok d =>
          match (if others = [] then .ok d else restoreFetchTimed now E others d) with
          | .error e => .error e
          | .ok d => finishRestoreTimed now E updSizes removeMb d

end Verif
