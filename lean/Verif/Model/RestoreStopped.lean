import Verif.Model.Restore
import Verif.Model.AmendStopped
/-!
# The states the destination goes through while a bag is restored (multibag/restore.py)

Beside each operation of `Verif.Model.Restore` that writes to the destination, the list of the states of the destination
in the order in which they occur.  If the operation fails, the states end there.  Opening a file for writing empties it;
its contents then arrive from the beginning on.

Simplifications: the operating system does not reorder the writes to different files; removing a file and making a
directory are one step each.
-/

namespace Verif

/-- The states within one operation (restore.py:190-219). -/
def actTorn (overwrite : Bool) (src : Tree) (s : Copying) : Act → List Tree
  | .file p =>
    match (if overwrite && s.dest.exists p then s.dest.remove p else .ok s.dest) with
    | .error _ => []
    | .ok d =>
      d :: if d.exists p then []
      else match src.read p with
        | none => []
        | some c => tornWrites d p c
  | _ => []

/-- The states while files are copied from one bag (restore.py:185-219). -/
def actStates (overwrite : Bool) (src : Tree) : List Act → Copying → List Tree
  | [], s => [s.dest]
  | a :: rest, s =>
    s.dest :: actTorn overwrite src s a ++
      match doAct overwrite src s a with
      | .error _ => []
      | .ok s => actStates overwrite src rest s

/-- Writing one manifest (restore.py:244-256). -/
def writeManifestStates (dest : Tree) (kind alg : Str) (es : List (Str × Str)) : List Tree :=
  if es = [] then [dest]
  else tornWrites dest (manPath kind alg) (es.map (fun ph => hashLine ph.2 ph.1)).flatten

/-- Writing the manifests (restore.py:243-256). -/
def writeManifestsStates (dest : Tree) : ByAlg → List Tree
  | [] => [dest]
  | (alg, ps) :: rest =>
    let d1 := writeManifest dest py!"manifest" alg (ps.filter (fun ph => startsWith py!"data/" ph.1))
    writeManifestStates dest py!"manifest" alg (ps.filter (fun ph => startsWith py!"data/" ph.1)) ++
      match d1 with
      | .error _ => []
      | .ok d1 =>
        writeManifestStates d1 py!"tagmanifest" alg (ps.filter (fun ph => !startsWith py!"data/" ph.1)) ++
          match writeManifest d1 py!"tagmanifest" alg (ps.filter (fun ph => !startsWith py!"data/" ph.1)) with
          | .error _ => []
          | .ok d2 => writeManifestsStates d2 rest

/-- `_update_manifests` (restore.py:227-256). -/
def updateManifestsStates (cfg : ReadCfg) (src : Entries) (updated : List Str) (dest : Tree) : List Tree :=
  match openBag cfg dest with
  | .error _ => [dest]
  | .ok b =>
    match mergeAll b.entries (collect src updated) with
    | .error _ => [dest]
    | .ok m => writeManifestsStates dest m

/-- `_restore_from` (restore.py:174-225). -/
def restoreFromStates (E : RestoreEnv) (src : RSource) (skip : List Str) (overwrite : Bool) (dest : Tree) : List Tree :=
  if src.path = E.base.bagpath then [dest]
  else match openBag { E.base with bagpath := src.path } src.tree with
  | .error _ => [dest]
  | .ok sb =>
    actStates overwrite src.tree (actsOf skip (E.walk src.tree)) { dest, updated := [] } ++
      match runActs overwrite src.tree (actsOf skip (E.walk src.tree)) { dest, updated := [] } with
      | .error _ => []
      | .ok s => if s.updated = [] then [s.dest] else updateManifestsStates E.base sb.entries s.updated s.dest

/-- The loop over the members (restore.py:306-307). -/
def restoreMembersStates (E : RestoreEnv) (skip : List Str) : List Str → Tree → List Tree
  | [], dest => [dest]
  | n :: rest, dest =>
    match E.find n with
    | none => [dest]
    | some src =>
      restoreFromStates E src skip false dest ++
        match restoreFrom E src skip false dest with
        | .error _ => []
        | .ok dest => restoreMembersStates E skip rest dest

/-- `restore_fetch` (restore.py:259-282). -/
def restoreFetchStates (E : RestoreEnv) (members : List Str) (dest : Tree) : List Tree :=
  match collectFetch E members [] with
  | .error _ => [dest]
  | .ok [] => [dest]
  | .ok fetch => tornWrites dest [py!"fetch.txt"] (fetch.map Prod.snd).flatten

/-- `Bag.save()` of the external `bagit` package. -/
def saveBagStates (E : RestoreEnv) (b : RBag) : List Tree :=
  b.tree :: tornWrites b.tree [b.tagFile] (fieldsText (tagFields b.info)) ++
    match b.tree.write [b.tagFile] (fieldsText (tagFields b.info)) with
    | .error _ => []
    | .ok t => writeTagManifestsStates E.sum b.algorithms t

/-- `shutil.rmtree`: the entries below `p` go one after the other, the last ones of the tree first. -/
def Tree.rmtreeStates (t : Tree) (p : Path) : List Tree :=
  let victims := ((t.filter (fun e => p.isPrefixOf e.1)).map Prod.fst).reverse
  (List.range (victims.length + 1)).map (fun n => t.filter (fun e => e.1 ∉ victims.take n))

/-- restore.py:314-321. -/
def removeTagsStates (E : RestoreEnv) (b : RBag) : List Tree :=
  match b.tree.rmtree [py!"multibag"] with
  | .error _ => [b.tree]
  | .ok t => b.tree.rmtreeStates [py!"multibag"] ++
      saveBagStates E { b with tree := t, info := multibagKeys.foldl ddel b.info }

/-- restore.py:323-327. -/
def updateSizesStates (E : RestoreEnv) (b : RBag) : List Tree :=
  let b0 : RBag := { b with info := dset b.info py!"Payload-Oxum" (.one (oxumText E.blen b.tree)) }
  saveBagStates E b0 ++
    match saveBag E b0 with
    | .error _ => []
    | .ok b => saveBagStates E { b with info := dset b.info py!"Bag-Size" (.one (E.sizeText b.tree b.info)) }

/-- The last part of `restore` (restore.py:313-327). -/
def finishRestoreStates (E : RestoreEnv) (updSizes removeMb : Bool) (dest : Tree) : List Tree :=
  match openBag E.base dest with
  | .error _ => [dest]
  | .ok b =>
    (if removeMb then removeTagsStates E b else [b.tree]) ++
      match (if removeMb then removeTags E b else .ok b) with
      | .error _ => []
      | .ok b => if updSizes then updateSizesStates E b else [b.tree]

/-- The first part of `restore` (restore.py:294-302). -/
def startRestoreStates (E : RestoreEnv) (H : RHead) (skip : List Str) (dest : Tree) : List Tree :=
  dest :: (match H.tree.read aggregationInfo with
    | none => []
    | some c => tornWrites dest [py!"bag-info.txt"] (copiedText H.mode c)) ++
  match ((match H.tree.read aggregationInfo with
    | none => .ok dest
    | some c => dest.write [py!"bag-info.txt"] (copiedText H.mode c)) : Except PyErr Tree) with
  | .error _ => []
  | .ok dest =>
    if H.path = E.base.bagpath then [dest] else restoreFromStates E ⟨H.path, H.tree⟩ skip false dest

/-- `restore` (restore.py:284-327): the states of the destination, from the first to the last. -/
def restoreStates (E : RestoreEnv) (H : RHead) (updSizes removeMb : Bool) (dest : Tree) : List Tree :=
  match iterDeleted H.mode H.tree H.info with
  | .error _ => [dest]
  | .ok deleted =>
    match iterMembers H.mode H.tree H.info with
    | .error _ => [dest]
    | .ok ms =>
      startRestoreStates E H (pySet deleted) dest ++
      match startRestore E H (pySet deleted) dest with
      | .error _ => []
      | .ok dest =>
        let others := otherMembers H (ms.map (fun m => m.name))
        restoreMembersStates E (pySet deleted) others dest ++
        match restoreMembers E (pySet deleted) others dest with
        | .error _ => []
        | .ok dest =>
          (if others = [] then [dest] else restoreFetchStates E others dest) ++
          match (if others = [] then .ok dest else restoreFetch E others dest) with
          | .error _ => []
          | .ok dest => finishRestoreStates E updSizes removeMb dest

end Verif
