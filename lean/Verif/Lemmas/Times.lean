import Verif.Lemmas.RestoreWhole
import Verif.Spec.Times
/-!
# Restoring with modification times: the tree is the same, and what becomes of the times
-/

namespace Verif

open Spec

/-! ## The tree is that of the procedure without times -/

/-- Forget the times. -/
def untimed : Except PyErr Timed → Except PyErr Tree
  | .error e => .error e
  | .ok d => .ok d.tree

@[simp] theorem untimed_ok (d : Timed) : untimed (.ok d) = .ok d.tree := rfl
@[simp] theorem untimed_error (e : PyErr) : untimed (.error e) = .error e := rfl

theorem untimed_write (now : Nat → Nat) (d : Timed) (p : Path) (c : Str) :
    untimed (d.write now p c) = d.tree.write p c := by
  unfold Timed.write
  cases d.tree.write p c <;> rfl

theorem untimed_mkdir (now : Nat → Nat) (d : Timed) (p : Path) : untimed (d.mkdir now p) = d.tree.mkdir p := by
  unfold Timed.mkdir
  cases d.tree.mkdir p <;> rfl

theorem untimed_remove (now : Nat → Nat) (d : Timed) (p : Path) : untimed (d.remove now p) = d.tree.remove p := by
  unfold Timed.remove
  cases d.tree.remove p <;> rfl

theorem untimed_rmtree (now : Nat → Nat) (d : Timed) (p : Path) : untimed (d.rmtree now p) = d.tree.rmtree p := by
  unfold Timed.rmtree
  cases d.tree.rmtree p <;> rfl

theorem untimed_writeManifest (now : Nat → Nat) (d : Timed) (kind alg : Str) (es : List (Str × Str)) :
    untimed (writeManifestTimed now d kind alg es) = writeManifest d.tree kind alg es := by
  unfold writeManifestTimed writeManifest
  by_cases h : es = []
  · rw [if_pos h, if_pos h]; rfl
  · rw [if_neg h, if_neg h, untimed_write]

theorem untimed_writeManifests (now : Nat → Nat) (m : ByAlg) : ∀ d : Timed,
    untimed (writeManifestsTimed now d m) = writeManifests d.tree m := by
  induction m with
  | nil => intro d; rfl
  | cons e rest ih =>
    intro d
    obtain ⟨alg, ps⟩ := e
    simp only [writeManifestsTimed, writeManifests, ← untimed_writeManifest now]
    cases writeManifestTimed now d py!"manifest" alg (ps.filter (fun ph => startsWith py!"data/" ph.1)) with
    | error e => rfl
    | ok d1 =>
      simp only [untimed_ok, ← untimed_writeManifest now]
      cases writeManifestTimed now d1 py!"tagmanifest" alg (ps.filter (fun ph => !startsWith py!"data/" ph.1)) with
      | error e => rfl
      | ok d2 => exact ih d2

theorem untimed_updateManifests (now : Nat → Nat) (cfg : ReadCfg) (src : Entries) (updated : List Str) (d : Timed) :
    untimed (updateManifestsTimed now cfg src updated d) = updateManifests cfg src updated d.tree := by
  unfold updateManifestsTimed updateManifests
  cases openBag cfg d.tree with
  | error e => rfl
  | ok b =>
    simp only
    cases mergeAll b.entries (collect src updated) with
    | error e => rfl
    | ok m => exact untimed_writeManifests now m d

theorem untimed_restoreFetch (now : Nat → Nat) (E : RestoreEnv) (members : List Str) (d : Timed) :
    untimed (restoreFetchTimed now E members d) = restoreFetch E members d.tree := by
  unfold restoreFetchTimed restoreFetch
  cases collectFetch E members [] with
  | error e => rfl
  | ok f =>
    cases f with
    | nil => rfl
    | cons x l => exact untimed_write now d _ _

theorem untimed_writeTagManifests (now : Nat → Nat) (sum : Str → Str → Str) (algs : List Str) : ∀ d : Timed,
    untimed (writeTagManifestsTimed now sum algs d) = writeTagManifests sum algs d.tree := by
  induction algs with
  | nil => intro d; rfl
  | cons a rest ih =>
    intro d
    simp only [writeTagManifestsTimed, writeTagManifests, ← untimed_write now]
    cases d.write now (manPath py!"tagmanifest" a)
        ((taggedFiles d.tree).map (fun pc => hashLine (sum a pc.2) (joinPath pc.1))).flatten with
    | error e => rfl
    | ok d1 => exact ih d1

/-- Forget the times of an opened bag's directory. -/
def untimedBag : Except PyErr (RBag × Timed) → Except PyErr RBag
  | .error e => .error e
  | .ok (b, _) => .ok b

theorem untimed_saveBag (now : Nat → Nat) (E : RestoreEnv) (b : RBag) (d : Timed) (hb : b.tree = d.tree) :
    untimedBag (saveBagTimed now E b d) = saveBag E b ∧
      ∀ b' d', saveBagTimed now E b d = .ok (b', d') → b'.tree = d'.tree := by
  unfold saveBagTimed saveBag
  rw [hb, ← untimed_write now]
  cases d.write now [b.tagFile] (fieldsText (tagFields b.info)) with
  | error e => exact ⟨rfl, fun _ _ h => by cases h⟩
  | ok d1 =>
    simp only [untimed_ok, ← untimed_writeTagManifests now]
    cases writeTagManifestsTimed now E.sum b.algorithms d1 with
    | error e => exact ⟨rfl, fun _ _ h => by cases h⟩
    | ok d2 =>
      simp only [untimed_ok]
      cases loadManifests E.base b.version b.encoding d2.tree with
      | error e => exact ⟨rfl, fun _ _ h => by cases h⟩
      | ok x => exact ⟨rfl, fun _ _ h => by cases h; rfl⟩

theorem untimed_removeTags (now : Nat → Nat) (E : RestoreEnv) (b : RBag) (d : Timed) (hb : b.tree = d.tree) :
    untimedBag (removeTagsTimed now E b d) = removeTags E b ∧
      ∀ b' d', removeTagsTimed now E b d = .ok (b', d') → b'.tree = d'.tree := by
  unfold removeTagsTimed removeTags
  rw [hb, ← untimed_rmtree now]
  cases d.rmtree now [py!"multibag"] with
  | error e => exact ⟨rfl, fun _ _ h => by cases h⟩
  | ok d1 => exact untimed_saveBag now E _ d1 rfl

theorem untimed_updateSizes (now : Nat → Nat) (E : RestoreEnv) (b : RBag) (d : Timed) (hb : b.tree = d.tree) :
    untimedBag (updateSizesTimed now E b d) = updateSizes E b ∧
      ∀ b' d', updateSizesTimed now E b d = .ok (b', d') → b'.tree = d'.tree := by
  unfold updateSizesTimed updateSizes
  obtain ⟨h1, h2⟩ := untimed_saveBag now E
    { b with info := dset b.info py!"Payload-Oxum" (.one (oxumText E.blen b.tree)) } d hb
  rw [← h1]
  cases hs : saveBagTimed now E { b with info := dset b.info py!"Payload-Oxum" (.one (oxumText E.blen b.tree)) } d with
  | error e => exact ⟨rfl, fun _ _ h => by cases h⟩
  | ok x =>
    obtain ⟨b1, d1⟩ := x
    exact untimed_saveBag now E _ d1 (h2 b1 d1 hs)

theorem openBag_tree {cfg : ReadCfg} {t : Tree} {b : RBag} (h : openBag cfg t = .ok b) : b.tree = t :=
  (openBag_parts h).1

theorem untimed_finishRestore (now : Nat → Nat) (E : RestoreEnv) (us rm : Bool) (d : Timed) :
    untimed (finishRestoreTimed now E us rm d) = finishRestore E us rm d.tree := by
  unfold finishRestoreTimed finishRestore
  cases hb : openBag E.base d.tree with
  | error e => rfl
  | ok b =>
    have ht := openBag_tree hb
    simp only
    have h1 : untimedBag (if rm then removeTagsTimed now E b d else .ok (b, d)) =
          (if rm then removeTags E b else .ok b) ∧
        ∀ b' d', (if rm then removeTagsTimed now E b d else .ok (b, d)) = .ok (b', d') → b'.tree = d'.tree := by
      cases rm with
      | true => exact untimed_removeTags now E b d ht
      | false => exact ⟨rfl, fun _ _ h => by cases h; exact ht⟩
    rw [← h1.1]
    cases h2 : (if rm then removeTagsTimed now E b d else .ok (b, d)) with
    | error e => rfl
    | ok x =>
      obtain ⟨b1, d1⟩ := x
      have ht1 := h1.2 b1 d1 h2
      simp only [untimedBag]
      have h3 : untimedBag (if us then updateSizesTimed now E b1 d1 else .ok (b1, d1)) =
            (if us then updateSizes E b1 else .ok b1) ∧
          ∀ b' d', (if us then updateSizesTimed now E b1 d1 else .ok (b1, d1)) = .ok (b', d') → b'.tree = d'.tree := by
        cases us with
        | true => exact untimed_updateSizes now E b1 d1 ht1
        | false => exact ⟨rfl, fun _ _ h => by cases h; exact ht1⟩
      rw [← h3.1]
      cases h4 : (if us then updateSizesTimed now E b1 d1 else .ok (b1, d1)) with
      | error e => rfl
      | ok x =>
        obtain ⟨b2, d2⟩ := x
        simp only [untimedBag, untimed_ok, h3.2 b2 d2 h4]

/-- The state without times. -/
def TCopying.plain (s : TCopying) : Copying := ⟨s.dest.tree, s.updated⟩

/-- The path an operation is about. -/
def Act.about : Act → Path
  | .stat p => p
  | .file p => p
  | .dir p => p

theorem untimed_doAct {now : Nat → Nat} {ow : Bool} {src : Tree} {mt : Path → Option Nat} {s s' : TCopying} {a : Act}
    (h : doActTimed now ow src mt s a = .ok s') : doAct ow src s.plain a = .ok s'.plain := by
  obtain ⟨sd, su⟩ := s
  change doAct ow src ⟨sd.tree, su⟩ a = _
  cases a with
  | stat p =>
    simp only [doActTimed, doAct, TCopying.plain] at h ⊢
    by_cases hx : sd.tree.exists p = true
    · rw [if_pos hx] at h ⊢; cases h; rfl
    · rw [if_neg hx] at h; cases h
  | file p =>
    simp only [doActTimed, doAct, TCopying.plain] at h ⊢
    have key : untimed (if (ow && sd.tree.exists p) = true then sd.remove now p else .ok sd) =
        (if (ow && sd.tree.exists p) = true then sd.tree.remove p else .ok sd.tree) := by
      by_cases hx : (ow && sd.tree.exists p) = true
      · rw [if_pos hx, if_pos hx, untimed_remove]
      · rw [if_neg hx, if_neg hx]; rfl
    rw [← key]
    cases hr : (if (ow && sd.tree.exists p) = true then sd.remove now p else .ok sd) with
    | error e => rw [hr] at h; cases h
    | ok d =>
      rw [hr] at h
      simp only [untimed_ok] at h ⊢
      by_cases hx : d.tree.exists p = true
      · rw [if_pos hx] at h ⊢; cases h; rfl
      · rw [if_neg hx] at h ⊢
        cases hc : src.read p with
        | none => rw [hc] at h; cases h
        | some c =>
          rw [hc] at h
          simp only [← untimed_write now] at h ⊢
          cases hw : d.write now p c with
          | error e => rw [hw] at h; cases h
          | ok d1 =>
            rw [hw] at h
            simp only [untimed_ok] at h ⊢
            cases hm : mt p with
            | none => rw [hm] at h; cases h
            | some t => rw [hm] at h; cases h; rfl
  | dir p =>
    simp only [doActTimed, doAct, TCopying.plain] at h ⊢
    by_cases hx : sd.tree.exists p = true
    · rw [if_pos hx] at h ⊢; cases h; rfl
    · rw [if_neg hx] at h ⊢
      rw [← untimed_mkdir now]
      cases hw : sd.mkdir now p with
      | error e => rw [hw] at h; cases h
      | ok d1 =>
        rw [hw] at h
        simp only [untimed_ok] at h ⊢
        cases hm : mt p with
        | none => rw [hm] at h; cases h
        | some t => rw [hm] at h; cases h; rfl

/-- If the times are known, an operation succeeds as it does without times. -/
theorem doAct_timed {now : Nat → Nat} {ow : Bool} {src : Tree} {mt : Path → Option Nat} {s : TCopying} {c : Copying} {a : Act}
    (hm : (mt a.about).isSome = true) (h : doAct ow src s.plain a = .ok c) :
    ∃ s', doActTimed now ow src mt s a = .ok s' ∧ s'.plain = c := by
  obtain ⟨τ, hτ⟩ := Option.isSome_iff_exists.1 hm
  suffices ∃ s', doActTimed now ow src mt s a = .ok s' by
    obtain ⟨s', h'⟩ := this
    have := untimed_doAct h'
    rw [h] at this
    exact ⟨s', h', (Except.ok.inj this).symm⟩
  obtain ⟨sd, su⟩ := s
  change doAct ow src ⟨sd.tree, su⟩ a = _ at h
  cases a with
  | stat p =>
    simp only [doActTimed, doAct, TCopying.plain] at h ⊢
    by_cases hx : sd.tree.exists p = true
    · rw [if_pos hx]; exact ⟨_, rfl⟩
    · rw [if_neg hx] at h; cases h
  | file p =>
    simp only [doActTimed, doAct, TCopying.plain] at h ⊢
    have key : untimed (if (ow && sd.tree.exists p) = true then sd.remove now p else .ok sd) =
        (if (ow && sd.tree.exists p) = true then sd.tree.remove p else .ok sd.tree) := by
      by_cases hx : (ow && sd.tree.exists p) = true
      · rw [if_pos hx, if_pos hx, untimed_remove]
      · rw [if_neg hx, if_neg hx]; rfl
    rw [← key] at h
    cases hr : (if (ow && sd.tree.exists p) = true then sd.remove now p else .ok sd) with
    | error e => rw [hr] at h; cases h
    | ok d =>
      rw [hr] at h
      simp only [untimed_ok] at h ⊢
      by_cases hx : d.tree.exists p = true
      · rw [if_pos hx]; exact ⟨_, rfl⟩
      · rw [if_neg hx] at h ⊢
        cases hc : src.read p with
        | none => rw [hc] at h; cases h
        | some c =>
          rw [hc] at h
          simp only [← untimed_write now] at h ⊢
          cases hw : d.write now p c with
          | error e => rw [hw] at h; cases h
          | ok d1 =>
            simp only
            rw [show mt p = some τ from hτ]
            exact ⟨_, rfl⟩
  | dir p =>
    simp only [doActTimed, doAct, TCopying.plain] at h ⊢
    by_cases hx : sd.tree.exists p = true
    · rw [if_pos hx]; exact ⟨_, rfl⟩
    · rw [if_neg hx] at h ⊢
      rw [← untimed_mkdir now] at h
      cases hw : sd.mkdir now p with
      | error e => rw [hw] at h; cases h
      | ok d1 =>
        simp only
        rw [show mt p = some τ from hτ]
        exact ⟨_, rfl⟩

theorem untimed_runActs {now : Nat → Nat} {ow : Bool} {src : Tree} {mt : Path → Option Nat} {acts : List Act} :
    ∀ {s s' : TCopying}, runActsTimed now ow src mt acts s = .ok s' → runActs ow src acts s.plain = .ok s'.plain := by
  induction acts with
  | nil => intro s s' h; cases h; rfl
  | cons a rest ih =>
    intro s s' h
    simp only [runActsTimed, runActs] at h ⊢
    cases h1 : doActTimed now ow src mt s a with
    | error e => rw [h1] at h; cases h
    | ok s1 => rw [h1] at h; rw [untimed_doAct h1]; exact ih h

theorem runActs_timed {now : Nat → Nat} {ow : Bool} {src : Tree} {mt : Path → Option Nat} {acts : List Act}
    (hm : ∀ a ∈ acts, (mt a.about).isSome = true) : ∀ {s : TCopying} {c : Copying}, runActs ow src acts s.plain = .ok c →
      ∃ s', runActsTimed now ow src mt acts s = .ok s' ∧ s'.plain = c := by
  induction acts with
  | nil => intro s c h; cases h; exact ⟨s, rfl, rfl⟩
  | cons a rest ih =>
    intro s c h
    simp only [runActsTimed, runActs] at h ⊢
    cases h1 : doAct ow src s.plain a with
    | error e => rw [h1] at h; cases h
    | ok c1 =>
      rw [h1] at h
      obtain ⟨s1, h2, rfl⟩ := doAct_timed (now := now) (hm a List.mem_cons_self) h1
      rw [h2]
      exact ih (fun a ha => hm a (List.mem_cons_of_mem _ ha)) h

theorem actsOf_cons (skip : List Str) (st : WalkStep) (w : List WalkStep) :
    actsOf skip (st :: w) = (if skipDir skip st.1 then [] else .stat st.1 :: childActs skip st) ++ actsOf skip w := rfl

theorem untimed_step {now : Nat → Nat} {ow : Bool} {src : Tree} {mt : Path → Option Nat} {skip : List Str}
    {s s' : TCopying} {st : WalkStep} (h : stepTimed now ow src mt skip s st = .ok s') :
    runActs ow src (if skipDir skip st.1 then [] else .stat st.1 :: childActs skip st) s.plain = .ok s'.plain := by
  unfold stepTimed at h
  by_cases hk : skipDir skip st.1 = true
  · rw [if_pos hk] at h ⊢; cases h; rfl
  · rw [if_neg hk] at h ⊢
    cases h1 : runActsTimed now ow src mt (.stat st.1 :: childActs skip st) s with
    | error e => rw [h1] at h; cases h
    | ok s1 =>
      rw [h1] at h
      rw [untimed_runActs h1]
      by_cases hz : s.dest.time st.1 = 0
      · simp only [if_pos hz] at h; cases h; rfl
      · simp only [if_neg hz] at h; cases h; rfl

theorem untimed_walk {now : Nat → Nat} {ow : Bool} {src : Tree} {mt : Path → Option Nat} {skip : List Str}
    {w : List WalkStep} : ∀ {s s' : TCopying}, walkTimed now ow src mt skip w s = .ok s' →
      runActs ow src (actsOf skip w) s.plain = .ok s'.plain := by
  induction w with
  | nil => intro s s' h; cases h; rfl
  | cons st rest ih =>
    intro s s' h
    simp only [walkTimed] at h
    cases h1 : stepTimed now ow src mt skip s st with
    | error e => rw [h1] at h; cases h
    | ok s1 =>
      rw [h1] at h
      rw [actsOf_cons, runActs_append, untimed_step h1]
      exact ih h

theorem walk_timed {now : Nat → Nat} {ow : Bool} {src : Tree} {mt : Path → Option Nat} {skip : List Str}
    {w : List WalkStep} (hm : ∀ a ∈ actsOf skip w, (mt a.about).isSome = true) :
    ∀ {s : TCopying} {c : Copying}, runActs ow src (actsOf skip w) s.plain = .ok c →
      ∃ s', walkTimed now ow src mt skip w s = .ok s' ∧ s'.plain = c := by
  induction w with
  | nil => intro s c h; cases h; exact ⟨s, rfl, rfl⟩
  | cons st rest ih =>
    intro s c h
    rw [actsOf_cons] at hm h
    rw [runActs_append] at h
    cases h1 : runActs ow src (if skipDir skip st.1 then [] else .stat st.1 :: childActs skip st) s.plain with
    | error e => rw [h1] at h; cases h
    | ok c1 =>
      rw [h1] at h
      have hs : ∃ s1, stepTimed now ow src mt skip s st = .ok s1 ∧ s1.plain = c1 := by
        suffices ∃ s1, stepTimed now ow src mt skip s st = .ok s1 by
          obtain ⟨s1, h2⟩ := this
          have := untimed_step h2
          rw [h1] at this
          exact ⟨s1, h2, (Except.ok.inj this).symm⟩
        unfold stepTimed
        by_cases hk : skipDir skip st.1 = true
        · rw [if_pos hk]; exact ⟨_, rfl⟩
        · rw [if_neg hk] at h1 hm ⊢
          obtain ⟨s1, h2, _⟩ := runActs_timed (now := now)
            (fun a ha => hm a (List.mem_append.2 (.inl ha))) h1
          rw [h2]
          exact ⟨_, rfl⟩
      obtain ⟨s1, h2, rfl⟩ := hs
      simp only [walkTimed]
      rw [h2]
      exact ih (fun a ha => hm a (List.mem_append.2 (.inr ha))) h

theorem untimed_restoreFrom {now : Nat → Nat} {mt : Str → Path → Option Nat} {E : RestoreEnv} {src : RSource}
    {skip : List Str} {ow : Bool} {d d' : Timed} (h : restoreFromTimed now mt E src skip ow d = .ok d') :
    restoreFrom E src skip ow d.tree = .ok d'.tree := by
  unfold restoreFromTimed at h
  unfold restoreFrom
  by_cases hp : src.path = E.base.bagpath
  · rw [if_pos hp] at h ⊢; cases h; rfl
  · rw [if_neg hp] at h ⊢
    cases hb : openBag { E.base with bagpath := src.path } src.tree with
    | error e => rw [hb] at h; cases h
    | ok sb =>
      rw [hb] at h
      simp only at h ⊢
      cases hw : walkTimed now ow src.tree (mt src.path) skip (E.walk src.tree) { dest := d, updated := [] } with
      | error e => rw [hw] at h; cases h
      | ok s =>
        rw [hw] at h
        have hr := untimed_walk hw
        simp only [TCopying.plain] at hr
        rw [hr]
        simp only at h ⊢
        by_cases hu : s.updated = []
        · rw [if_pos hu] at h ⊢; cases h; rfl
        · rw [if_neg hu] at h ⊢
          rw [← untimed_updateManifests now, h]; rfl

theorem restoreFrom_timed {now : Nat → Nat} {mt : Str → Path → Option Nat} {E : RestoreEnv} {src : RSource}
    {skip : List Str} {ow : Bool} {d : Timed} {t : Tree}
    (hm : ∀ a ∈ actsOf skip (E.walk src.tree), (mt src.path a.about).isSome = true)
    (h : restoreFrom E src skip ow d.tree = .ok t) :
    ∃ d', restoreFromTimed now mt E src skip ow d = .ok d' ∧ d'.tree = t := by
  suffices ∃ d', restoreFromTimed now mt E src skip ow d = .ok d' by
    obtain ⟨d', h1⟩ := this
    have := untimed_restoreFrom h1
    rw [h] at this
    exact ⟨d', h1, (Except.ok.inj this).symm⟩
  unfold restoreFrom at h
  unfold restoreFromTimed
  by_cases hp : src.path = E.base.bagpath
  · rw [if_pos hp]; exact ⟨_, rfl⟩
  · rw [if_neg hp] at h ⊢
    cases hb : openBag { E.base with bagpath := src.path } src.tree with
    | error e => rw [hb] at h; cases h
    | ok sb =>
      rw [hb] at h
      simp only at h ⊢
      cases hr : runActs ow src.tree (actsOf skip (E.walk src.tree)) { dest := d.tree, updated := [] } with
      | error e => rw [hr] at h; cases h
      | ok c =>
        rw [hr] at h
        obtain ⟨s, hw, hs⟩ := walk_timed (now := now) (s := { dest := d, updated := [] }) hm hr
        rw [hw]
        obtain ⟨sd, su⟩ := s
        obtain rfl : c = ⟨sd.tree, su⟩ := hs.symm
        simp only at h ⊢
        by_cases hu : su = []
        · rw [if_pos hu]; exact ⟨_, rfl⟩
        · rw [if_neg hu] at h ⊢
          rw [← untimed_updateManifests now] at h
          cases hx : updateManifestsTimed now E.base sb.entries su sd with
          | error e => rw [hx] at h; cases h
          | ok d' => exact ⟨_, rfl⟩

/-- Copying from one bag after the other. -/
def restoreListTimed (now : Nat → Nat) (mt : Str → Path → Option Nat) (E : RestoreEnv) (skip : List Str) :
    List RSource → Timed → Except PyErr Timed
  | [], d => .ok d
  | s :: rest, d =>
    match restoreFromTimed now mt E s skip false d with
    | .error e => .error e
    | .ok d => restoreListTimed now mt E skip rest d

theorem restoreMembersTimed_eq {now : Nat → Nat} {mt : Str → Path → Option Nat} {E : RestoreEnv} {skip : List Str}
    {names : List Str} {srcs : List RSource} (h : Forall₂ (fun n s => E.find n = some s) names srcs) (d : Timed) :
    restoreMembersTimed now mt E skip names d = restoreListTimed now mt E skip srcs d := by
  induction h generalizing d with
  | nil => rfl
  | cons h1 _ ih =>
    simp only [restoreMembersTimed, restoreListTimed, h1]
    cases restoreFromTimed now mt E _ skip false d with
    | error e => rfl
    | ok d1 => exact ih d1

theorem untimed_restoreList {now : Nat → Nat} {mt : Str → Path → Option Nat} {E : RestoreEnv} {skip : List Str}
    {srcs : List RSource} : ∀ {d d' : Timed}, restoreListTimed now mt E skip srcs d = .ok d' →
      restoreList E skip srcs d.tree = .ok d'.tree := by
  induction srcs with
  | nil => intro d d' h; cases h; rfl
  | cons s rest ih =>
    intro d d' h
    simp only [restoreListTimed, restoreList] at h ⊢
    cases h1 : restoreFromTimed now mt E s skip false d with
    | error e => rw [h1] at h; cases h
    | ok d1 => rw [h1] at h; rw [untimed_restoreFrom h1]; exact ih h

/-! ## What one member contributes -/

/-- If there is a directory at `p`, its time is not zero. -/
def DirTime (p : Path) (d : Timed) : Prop := d.tree.isdir p = true → d.time p ≠ 0

/-- From `d` to `d'`: what existed is unchanged, except for the time of `r`; what is new has the time `mt` says. -/
structure KeptBut (r : Path) (src : Tree) (mt : Path → Option Nat) (d d' : Timed) : Prop where
  old : ∀ q, q ≠ [] → d.tree.exists q = true → dget d'.tree q = dget d.tree q ∧ (q ≠ r → d'.time q = d.time q)
  new : ∀ q, q ≠ [] → d.tree.exists q ≠ true → d'.tree.exists q = true →
    q ≠ r ∧ mt q = some (d'.time q) ∧ (d'.tree.isdir q = true → src.isdir q = true)
  par : d'.time r = d.time r ∨ d.tree.isdir r = true

theorem KeptBut.refl (r : Path) (src : Tree) (mt : Path → Option Nat) (d : Timed) : KeptBut r src mt d d :=
  ⟨fun _ _ _ => ⟨rfl, fun _ => rfl⟩, fun _ _ h1 h2 => absurd h2 h1, .inl rfl⟩

theorem KeptBut.trans {r : Path} {src : Tree} {mt : Path → Option Nat} {d d' d'' : Timed} (h : KeptBut r src mt d d')
    (h' : KeptBut r src mt d' d'') : KeptBut r src mt d d'' := by
  constructor
  · intro q hq he
    obtain ⟨h1, h2⟩ := h.old q hq he
    obtain ⟨h3, h4⟩ := h'.old q hq (by rw [exists_of_dget h1]; exact he)
    exact ⟨h3.trans h1, fun hr => (h4 hr).trans (h2 hr)⟩
  · intro q hq he he'
    by_cases hm : d'.tree.exists q = true
    · obtain ⟨h1, h2, h3⟩ := h.new q hq he hm
      obtain ⟨h4, h5⟩ := h'.old q hq hm
      rw [isdir_of_dget h4, h5 h1]
      exact ⟨h1, h2, h3⟩
    · exact h'.new q hq hm he'
  · rcases h.par with h1 | h1
    · rcases h'.par with h2 | h2
      · exact .inl (h2.trans h1)
      · right
        by_cases hr : r = []
        · subst hr; rfl
        · by_cases he : d.tree.exists r = true
          · rw [← isdir_of_dget (h.old r hr he).1]; exact h2
          · exact absurd rfl (h.new r hr he (by rcases isdir_iff.1 h2 with e | e <;> simp [Tree.exists, e])).1
    · exact .inr h1

theorem dropLast_snoc {r : Path} {f : Str} : (r ++ [f]).dropLast = r := List.dropLast_concat

/-- Making one new thing below `r` and setting its time. -/
theorem KeptBut.made {now : Nat → Nat} {src : Tree} {mt : Path → Option Nat} {d : Timed} {r p : Path} {n : Node} {τ : Nat}
    (hp : p.dropLast = r) (hp0 : p ≠ []) (hx : d.tree.exists p ≠ true) (hr : d.tree.isdir r = true) (hm : mt p = some τ)
    (hn : n = Node.dir → src.isdir p = true) :
    KeptBut r src mt d ((d.changed now (dset d.tree p n) [p, p.dropLast]).utime p τ) := by
  have hpr : p ≠ r := by
    intro e
    have := congrArg List.length (hp.trans e.symm)
    rw [List.length_dropLast] at this
    have : p.length ≠ 0 := fun e => hp0 (List.length_eq_zero_iff.1 e)
    omega
  have hd : ∀ q, q ≠ p → dget (dset d.tree p n) q = dget d.tree q := fun q hq => by
    rw [dget_dset, if_neg (fun (e : p = q) => hq e.symm)]
  constructor
  · intro q hq he
    have hqp : q ≠ p := fun e => hx (e ▸ he)
    refine ⟨hd q hqp, fun hqr => ?_⟩
    simp only [Timed.utime, Timed.changed]
    rw [if_neg hqp, if_neg]
    rw [hp]
    simp [hqp, hqr]
  · intro q hq he he'
    by_cases hqp : q = p
    · subst hqp
      refine ⟨hpr, ?_, ?_⟩
      · simp only [Timed.utime, if_true]; exact hm
      · intro hi
        simp only [Timed.utime, Timed.changed] at hi
        rcases isdir_iff.1 hi with e | e
        · exact absurd e hp0
        · rw [dget_dset, if_pos rfl] at e
          exact hn (Option.some.inj e)
    · have : Tree.exists (dset d.tree p n) q = d.tree.exists q := exists_of_dget (hd q hqp)
      simp only [Timed.utime, Timed.changed] at he'
      exact absurd (this ▸ he') he
  · exact .inr hr

theorem timed_write_parts {t t' : Tree} {p : Path} {c : Str} (h : t.write p c = .ok t') :
    t' = dset t p (.file c) ∧ t.isdir p.dropLast = true := by
  unfold Tree.write at h
  split at h
  · cases h
  · cases h; simp_all

theorem timed_mkdir_parts {t t' : Tree} {p : Path} (h : t.mkdir p = .ok t') :
    t' = dset t p .dir ∧ t.isdir p.dropLast = true := by
  unfold Tree.mkdir at h
  split at h
  · cases h
  · cases h; simp_all

theorem doActTimed_kept {now : Nat → Nat} {src : Tree} {mt : Path → Option Nat} {s s' : TCopying} {a : Act} {r : Path}
    (ha : ActsOf src [a]) (hr : a = .stat r ∨ (a.about ≠ [] ∧ a.about.dropLast = r))
    (h : doActTimed now false src mt s a = .ok s') : KeptBut r src mt s.dest s'.dest := by
  obtain ⟨sd, su⟩ := s
  cases a with
  | stat p =>
    simp only [doActTimed] at h
    by_cases hx : sd.tree.exists p = true
    · rw [if_pos hx] at h; cases h; exact .refl ..
    · rw [if_neg hx] at h; cases h
  | file p =>
    obtain ⟨hp0, hpr⟩ : p ≠ [] ∧ p.dropLast = r := hr.resolve_left (by intro e; cases e)
    simp only [doActTimed, Bool.false_and, Bool.false_eq_true, if_false] at h
    by_cases hx : sd.tree.exists p = true
    · rw [if_pos hx] at h; cases h; exact .refl ..
    · rw [if_neg hx] at h
      cases hc : src.read p with
      | none => rw [hc] at h; cases h
      | some c =>
        rw [hc] at h
        simp only [Timed.write] at h
        cases hw : sd.tree.write p c with
        | error e => rw [hw] at h; cases h
        | ok t =>
          rw [hw] at h
          simp only [if_neg hx] at h
          cases hm : mt p with
          | none => rw [hm] at h; cases h
          | some τ =>
            rw [hm] at h
            cases h
            obtain ⟨rfl, hd⟩ := timed_write_parts hw
            exact .made hpr hp0 hx (hpr ▸ hd) hm (fun e => by cases e)
  | dir p =>
    obtain ⟨hp0, hpr⟩ : p ≠ [] ∧ p.dropLast = r := hr.resolve_left (by intro e; cases e)
    simp only [doActTimed] at h
    by_cases hx : sd.tree.exists p = true
    · rw [if_pos hx] at h; cases h; exact .refl ..
    · rw [if_neg hx] at h
      simp only [Timed.mkdir] at h
      cases hw : sd.tree.mkdir p with
      | error e => rw [hw] at h; cases h
      | ok t =>
        rw [hw] at h
        simp only at h
        cases hm : mt p with
        | none => rw [hm] at h; cases h
        | some τ =>
          rw [hm] at h
          cases h
          obtain ⟨rfl, hd⟩ := timed_mkdir_parts hw
          exact .made hpr hp0 hx (hpr ▸ hd) hm (fun _ => (ha.dir p List.mem_cons_self).2)

theorem runActsTimed_kept {now : Nat → Nat} {src : Tree} {mt : Path → Option Nat} {r : Path} {acts : List Act}
    (ha : ActsOf src acts) (hr : ∀ a ∈ acts, a = .stat r ∨ (a.about ≠ [] ∧ a.about.dropLast = r)) :
    ∀ {s s' : TCopying}, runActsTimed now false src mt acts s = .ok s' → KeptBut r src mt s.dest s'.dest := by
  induction acts with
  | nil => intro s s' h; cases h; exact .refl ..
  | cons a rest ih =>
    intro s s' h
    simp only [runActsTimed] at h
    cases h1 : doActTimed now false src mt s a with
    | error e => rw [h1] at h; cases h
    | ok s1 =>
      rw [h1] at h
      exact (doActTimed_kept (ha.mono (by simp)) (hr a List.mem_cons_self) h1).trans
        (ih (ha.mono (fun _ h => List.mem_cons_of_mem _ h)) (fun a h => hr a (List.mem_cons_of_mem _ h)) h)

/-- From `d` to `d'`: what existed is unchanged, and at `p` so is its time; what is new at `p` has the time `mt` says. -/
structure KeptTimes (p : Path) (src : Tree) (mt : Path → Option Nat) (d d' : Timed) : Prop where
  old : d.tree.exists p = true → dget d'.tree p = dget d.tree p ∧ d'.time p = d.time p
  new : d.tree.exists p ≠ true → d'.tree.exists p = true →
    mt p = some (d'.time p) ∧ (d'.tree.isdir p = true → src.isdir p = true)

theorem KeptTimes.refl (p : Path) (src : Tree) (mt : Path → Option Nat) (d : Timed) : KeptTimes p src mt d d :=
  ⟨fun _ => ⟨rfl, rfl⟩, fun h1 h2 => absurd h2 h1⟩

theorem KeptTimes.trans {p : Path} {src : Tree} {mt : Path → Option Nat} {d d' d'' : Timed} (h : KeptTimes p src mt d d')
    (h' : KeptTimes p src mt d' d'') : KeptTimes p src mt d d'' := by
  constructor
  · intro he
    obtain ⟨h1, h2⟩ := h.old he
    obtain ⟨h3, h4⟩ := h'.old (by rw [exists_of_dget h1]; exact he)
    exact ⟨h3.trans h1, h4.trans h2⟩
  · intro he he'
    by_cases hm : d'.tree.exists p = true
    · obtain ⟨h2, h3⟩ := h.new he hm
      obtain ⟨h4, h5⟩ := h'.old hm
      rw [isdir_of_dget h4, h5]
      exact ⟨h2, h3⟩
    · exact h'.new hm he'

theorem exists_of_dir {t : Tree} {q : Path} (h : t.isdir q = true) : t.exists q = true := by
  rcases isdir_iff.1 h with e | e <;> simp [Tree.exists, e]

theorem KeptTimes.dirTime {p : Path} {src : Tree} {mt : Path → Option Nat} {d d' : Timed} (h : KeptTimes p src mt d d')
    (hd : DirTime p d) (hm : src.isdir p = true → mt p ≠ some 0) : DirTime p d' := by
  intro hi
  by_cases he : d.tree.exists p = true
  · obtain ⟨h1, h2⟩ := h.old he
    rw [h2]
    exact hd (by rw [← isdir_of_dget h1]; exact hi)
  · obtain ⟨h1, h2⟩ := h.new he (exists_of_dir hi)
    intro e
    rw [e] at h1
    exact hm (h2 hi) h1

theorem stepTimed_kept {now : Nat → Nat} {src : Tree} {mt : Path → Option Nat} {skip : List Str} {s s' : TCopying}
    {st : WalkStep} (ha : skipDir skip st.1 = false → ActsOf src (.stat st.1 :: childActs skip st)) {q : Path} (hq : q ≠ [])
    (hz : DirTime q s.dest) (h : stepTimed now false src mt skip s st = .ok s') : KeptTimes q src mt s.dest s'.dest := by
  unfold stepTimed at h
  by_cases hk : skipDir skip st.1 = true
  · rw [if_pos hk] at h; cases h; exact .refl ..
  · rw [if_neg hk] at h
    cases h1 : runActsTimed now false src mt (.stat st.1 :: childActs skip st) s with
    | error e => rw [h1] at h; cases h
    | ok s1 =>
      have hx : s.dest.tree.exists st.1 = true := by
        simp only [runActsTimed, doActTimed] at h1
        by_cases hx : s.dest.tree.exists st.1 = true
        · exact hx
        · rw [if_neg hx] at h1; cases h1
      have hk1 := runActsTimed_kept (r := st.1) (ha (by simpa using hk)) (by
        intro a ha
        rcases List.mem_cons.1 ha with rfl | ha
        · exact .inl rfl
        · right
          rcases List.mem_append.1 ha with ha | ha
          · obtain ⟨f, _, rfl⟩ := List.mem_map.1 ha
            simp [Act.about]
          · obtain ⟨f, _, rfl⟩ := List.mem_map.1 ha
            simp [Act.about]) h1
      rw [h1] at h
      simp only at h
      have key : s.dest.tree.exists q = true → dget s'.dest.tree q = dget s.dest.tree q ∧
          s'.dest.time q = s.dest.time q := by
        intro he
        obtain ⟨h2, h3⟩ := hk1.old q hq he
        by_cases e0 : s.dest.time st.1 = 0
        · rw [if_pos e0] at h; cases h
          refine ⟨h2, ?_⟩
          by_cases hqr : q = st.1
          · subst hqr
            rcases hk1.par with h4 | h4
            · exact h4
            · exact absurd e0 (hz h4)
          · exact h3 hqr
        · rw [if_neg e0] at h; cases h
          refine ⟨h2, ?_⟩
          simp only [Timed.utime]
          by_cases hqr : q = st.1
          · subst hqr; rw [if_pos rfl]
          · rw [if_neg hqr]; exact h3 hqr
      refine ⟨key, ?_⟩
      intro he he'
      by_cases e0 : s.dest.time st.1 = 0
      · rw [if_pos e0] at h; cases h
        exact (hk1.new q hq he he').2
      · rw [if_neg e0] at h; cases h
        obtain ⟨h2, h3⟩ := hk1.new q hq he he'
        refine ⟨?_, h3.2⟩
        simp only [Timed.utime]
        rw [if_neg h2]; exact h3.1

theorem walkTimed_kept {now : Nat → Nat} {src : Tree} {mt : Path → Option Nat} {skip : List Str} {w : List WalkStep}
    (ha : ActsOf src (actsOf skip w)) {q : Path} (hq : q ≠ []) (hm : src.isdir q = true → mt q ≠ some 0) :
    ∀ {s s' : TCopying}, DirTime q s.dest → walkTimed now false src mt skip w s = .ok s' →
      KeptTimes q src mt s.dest s'.dest := by
  induction w with
  | nil => intro s s' _ h; cases h; exact .refl ..
  | cons st rest ih =>
    intro s s' hz h
    simp only [walkTimed] at h
    rw [actsOf_cons] at ha
    cases h1 : stepTimed now false src mt skip s st with
    | error e => rw [h1] at h; cases h
    | ok s1 =>
      rw [h1] at h
      have hk := stepTimed_kept (fun hk => ha.mono (fun a h => List.mem_append.2 (.inl (by rw [hk]; simpa using h)))) hq hz h1
      exact hk.trans (ih (ha.mono (fun a h => List.mem_append.2 (.inr h))) (hk.dirTime hz hm) h)

/-! ## Changes to the metadata, the manifests and the multibag tag files -/

/-- From `d` to `d'` only what `P` holds of changes, and no directory is made. -/
structure Aside (P : Path → Prop) (d d' : Timed) : Prop where
  same : ∀ q, q ≠ [] → ¬ P q → dget d'.tree q = dget d.tree q ∧ d'.time q = d.time q
  dirs : ∀ q, q ≠ [] → d'.tree.isdir q = true → d.tree.isdir q = true ∧ d'.time q = d.time q

theorem Aside.refl (P : Path → Prop) (d : Timed) : Aside P d d :=
  ⟨fun _ _ _ => ⟨rfl, rfl⟩, fun _ _ h => ⟨h, rfl⟩⟩

theorem Aside.trans {P : Path → Prop} {d d' d'' : Timed} (h : Aside P d d') (h' : Aside P d' d'') : Aside P d d'' := by
  constructor
  · intro q hq hP
    obtain ⟨h1, h2⟩ := h.same q hq hP
    obtain ⟨h3, h4⟩ := h'.same q hq hP
    exact ⟨h3.trans h1, h4.trans h2⟩
  · intro q hq hi
    obtain ⟨h1, h2⟩ := h'.dirs q hq hi
    obtain ⟨h3, h4⟩ := h.dirs q hq h1
    exact ⟨h3, h2.trans h4⟩

theorem Aside.mono {P Q : Path → Prop} {d d' : Timed} (h : Aside P d d') (hP : ∀ q, P q → Q q) : Aside Q d d' :=
  ⟨fun q hq hQ => h.same q hq (fun hx => hQ (hP q hx)), h.dirs⟩

theorem Aside.dirTime {P : Path → Prop} {d d' : Timed} (h : Aside P d d') {q : Path} (hq : q ≠ []) (hd : DirTime q d) :
    DirTime q d' := by
  intro hi
  obtain ⟨h1, h2⟩ := h.dirs q hq hi
  rw [h2]; exact hd h1

theorem Aside.write {now : Nat → Nat} {P : Path → Prop} {d d' : Timed} {n c : Str} (hP : P [n])
    (h : d.write now [n] c = .ok d') : Aside P d d' := by
  unfold Timed.write at h
  cases hw : d.tree.write [n] c with
  | error e => rw [hw] at h; cases h
  | ok t =>
    rw [hw] at h
    cases h
    obtain ⟨rfl, hd⟩ := timed_write_parts hw
    have ht : ∀ q, q ≠ [] → q ≠ [n] → (d.changed now (dset d.tree [n] (.file c))
        (if d.tree.exists [n] = true then [[n]] else [[n], List.dropLast [n]])).time q = d.time q := by
      intro q hq hn
      simp only [Timed.changed]
      rw [if_neg]
      split <;> simp [hq, hn]
    constructor
    · intro q hq hn
      have hn' : q ≠ [n] := fun e => hn (e ▸ hP)
      refine ⟨?_, ht q hq hn'⟩
      simp only [Timed.changed]
      rw [dget_dset, if_neg (fun (e : [n] = q) => hn' e.symm)]
    · intro q hq hi
      simp only [Timed.changed] at hi
      by_cases hn : q = [n]
      · subst hn
        rcases isdir_iff.1 hi with e | e
        · cases e
        · rw [dget_dset, if_pos rfl] at e; cases e
      · refine ⟨?_, ht q hq hn⟩
        rw [isdir_iff] at hi ⊢
        rw [dget_dset, if_neg (fun (e : [n] = q) => hn e.symm)] at hi
        exact hi

theorem Aside.rmtree {now : Nat → Nat} {P : Path → Prop} {d d' : Timed} {n : Str} (hP : ∀ q, [n] <+: q → P q)
    (h : d.rmtree now [n] = .ok d') : Aside P d d' := by
  unfold Timed.rmtree at h
  cases hw : d.tree.rmtree [n] with
  | error e => rw [hw] at h; cases h
  | ok t =>
    rw [hw] at h
    cases h
    constructor
    · intro q hq hn
      have hn' : ¬ (List.isPrefixOf [n] q = true) := fun e => hn (hP q (List.isPrefixOf_iff_prefix.1 e))
      refine ⟨?_, ?_⟩
      · simp only [Timed.changed]
        rw [rmtree_dget hw, if_neg hn']
      · simp [Timed.changed, hq]
    · intro q hq hi
      simp only [Timed.changed] at hi
      refine ⟨?_, by simp [Timed.changed, hq]⟩
      rw [isdir_iff] at hi ⊢
      rw [rmtree_dget hw] at hi
      split at hi
      · rcases hi with e | e
        · exact .inl e
        · cases e
      · exact hi

theorem Aside.writeManifest {now : Nat → Nat} {d d' : Timed} {kind alg : Str} {es : List (Str × Str)}
    (hk : kind = py!"manifest" ∨ kind = py!"tagmanifest") (h : writeManifestTimed now d kind alg es = .ok d') :
    Aside ManifestFile d d' := by
  unfold writeManifestTimed at h
  by_cases he : es = []
  · rw [if_pos he] at h; cases h; exact .refl ..
  · rw [if_neg he] at h
    refine Aside.write ⟨alg, ?_⟩ h
    rcases hk with rfl | rfl
    · exact .inl rfl
    · exact .inr rfl

theorem Aside.writeManifests {now : Nat → Nat} {m : ByAlg} : ∀ {d d' : Timed}, writeManifestsTimed now d m = .ok d' →
    Aside ManifestFile d d' := by
  induction m with
  | nil => intro d d' h; cases h; exact .refl ..
  | cons e rest ih =>
    intro d d' h
    obtain ⟨alg, ps⟩ := e
    simp only [writeManifestsTimed] at h
    cases h1 : writeManifestTimed now d py!"manifest" alg (ps.filter (fun ph => startsWith py!"data/" ph.1)) with
    | error e => rw [h1] at h; cases h
    | ok d1 =>
      rw [h1] at h
      simp only at h
      cases h2 : writeManifestTimed now d1 py!"tagmanifest" alg (ps.filter (fun ph => !startsWith py!"data/" ph.1)) with
      | error e => rw [h2] at h; cases h
      | ok d2 =>
        rw [h2] at h
        exact ((Aside.writeManifest (.inl rfl) h1).trans (Aside.writeManifest (.inr rfl) h2)).trans (ih h)

theorem Aside.updateManifests {now : Nat → Nat} {cfg : ReadCfg} {src : Entries} {updated : List Str} {d d' : Timed}
    (h : updateManifestsTimed now cfg src updated d = .ok d') : Aside ManifestFile d d' := by
  unfold updateManifestsTimed at h
  cases hb : openBag cfg d.tree with
  | error e => rw [hb] at h; cases h
  | ok b =>
    rw [hb] at h
    simp only at h
    cases hm : mergeAll b.entries (collect src updated) with
    | error e => rw [hm] at h; cases h
    | ok m => rw [hm] at h; exact Aside.writeManifests h

theorem manifest_special {q : Path} (h : ManifestFile q) : Special q := .inr (.inr (.inr (.inl h)))

theorem Aside.restoreFetch {now : Nat → Nat} {E : RestoreEnv} {members : List Str} {d d' : Timed}
    (h : restoreFetchTimed now E members d = .ok d') : Aside Special d d' := by
  unfold restoreFetchTimed at h
  cases hc : collectFetch E members [] with
  | error e => rw [hc] at h; cases h
  | ok f =>
    rw [hc] at h
    cases f with
    | nil => cases h; exact .refl ..
    | cons x l => exact Aside.write (.inr (.inr (.inl rfl))) h

theorem Aside.writeTagManifests {now : Nat → Nat} {sum : Str → Str → Str} {algs : List Str} : ∀ {d d' : Timed},
    writeTagManifestsTimed now sum algs d = .ok d' → Aside ManifestFile d d' := by
  induction algs with
  | nil => intro d d' h; cases h; exact .refl ..
  | cons a rest ih =>
    intro d d' h
    simp only [writeTagManifestsTimed] at h
    cases h1 : d.write now (manPath py!"tagmanifest" a)
        ((taggedFiles d.tree).map (fun pc => hashLine (sum a pc.2) (joinPath pc.1))).flatten with
    | error e => rw [h1] at h; cases h
    | ok d1 =>
      rw [h1] at h
      exact (Aside.write ⟨a, .inr rfl⟩ h1).trans (ih h)

theorem Aside.saveBag {now : Nat → Nat} {E : RestoreEnv} {b b' : RBag} {d d' : Timed} (hb : TagName b.tagFile)
    (h : saveBagTimed now E b d = .ok (b', d')) : Aside Special d d' ∧ b'.tagFile = b.tagFile := by
  unfold saveBagTimed at h
  cases h1 : d.write now [b.tagFile] (fieldsText (tagFields b.info)) with
  | error e => rw [h1] at h; cases h
  | ok d1 =>
    rw [h1] at h
    simp only at h
    cases h2 : writeTagManifestsTimed now E.sum b.algorithms d1 with
    | error e => rw [h2] at h; cases h
    | ok d2 =>
      rw [h2] at h
      simp only at h
      cases h3 : loadManifests E.base b.version b.encoding d2.tree with
      | error e => rw [h3] at h; cases h
      | ok x =>
        rw [h3] at h
        cases h
        refine ⟨(Aside.write ?_ h1).trans ((Aside.writeTagManifests h2).mono (fun _ => manifest_special)), rfl⟩
        rcases hb with e | e
        · exact .inl (by rw [e])
        · exact .inr (.inl (by rw [e]))

theorem Aside.finishRestore {now : Nat → Nat} {E : RestoreEnv} {us rm : Bool} {d d' : Timed}
    (h : finishRestoreTimed now E us rm d = .ok d') : Aside Special d d' := by
  unfold finishRestoreTimed at h
  cases hb : openBag E.base d.tree with
  | error e => rw [hb] at h; cases h
  | ok b =>
    have hn : TagName b.tagFile := by
      obtain ⟨_, _, ht, _⟩ := openBag_parts hb
      exact tagFileName_cases ht
    rw [hb] at h
    simp only at h
    cases h1 : (if rm = true then removeTagsTimed now E b d else .ok (b, d)) with
    | error e => rw [h1] at h; cases h
    | ok x =>
      obtain ⟨b1, d1⟩ := x
      have k1 : Aside Special d d1 ∧ b1.tagFile = b.tagFile := by
        cases rm with
        | false => cases h1; exact ⟨.refl .., rfl⟩
        | true =>
          rw [if_pos rfl] at h1
          unfold removeTagsTimed at h1
          cases h2 : d.rmtree now [py!"multibag"] with
          | error e => rw [h2] at h1; cases h1
          | ok d2 =>
            rw [h2] at h1
            obtain ⟨k, e⟩ := Aside.saveBag (b := { b with tree := d2.tree, info := multibagKeys.foldl ddel b.info }) hn h1
            exact ⟨(Aside.rmtree (fun q hq => .inr (.inr (.inr (.inr hq)))) h2).trans k, e⟩
      rw [h1] at h
      simp only at h
      cases h2 : (if us = true then updateSizesTimed now E b1 d1 else .ok (b1, d1)) with
      | error e => rw [h2] at h; cases h
      | ok x =>
        obtain ⟨b2, d2⟩ := x
        rw [h2] at h
        cases h
        refine k1.1.trans ?_
        cases us with
        | false => cases h2; exact .refl ..
        | true =>
          rw [if_pos rfl] at h2
          unfold updateSizesTimed at h2
          cases h3 : saveBagTimed now E { b1 with info := dset b1.info py!"Payload-Oxum" (.one (oxumText E.blen b1.tree)) } d1 with
          | error e => rw [h3] at h2; cases h2
          | ok x =>
            obtain ⟨b3, d3⟩ := x
            rw [h3] at h2
            obtain ⟨k3, e3⟩ := Aside.saveBag (b := { b1 with info := _ }) (by rw [← k1.2] at hn; exact hn) h3
            obtain ⟨k4, e4⟩ := Aside.saveBag (b := { b3 with info := _ })
              (by rw [← k1.2] at hn; exact e3 ▸ hn) h2
            exact k3.trans k4

/-! ## The whole restore -/

theorem restoreFromTimed_times {now : Nat → Nat} {mt : Str → Path → Option Nat} {E : RestoreEnv} (hE : EnvOk E)
    {src : RSource} (hs : WfTree src.tree) (hp : src.path ≠ E.base.bagpath) {skip : List Str} (he : [] ∉ skip)
    {d d' : Timed} {q : Path} (hq : q ≠ []) (hz : DirTime q d) (hm : src.tree.isdir q = true → mt src.path q ≠ some 0)
    (h : restoreFromTimed now mt E src skip false d = .ok d') :
    DirTime q d' ∧ (¬ ManifestFile q →
      (d.tree.exists q = true → d'.time q = d.time q) ∧
      (d.tree.exists q ≠ true → d'.tree.exists q = true → mt src.path q = some (d'.time q))) := by
  unfold restoreFromTimed at h
  rw [if_neg hp] at h
  cases hb : openBag { E.base with bagpath := src.path } src.tree with
  | error e => rw [hb] at h; cases h
  | ok sb =>
    rw [hb] at h
    simp only at h
    cases hw : walkTimed now false src.tree (mt src.path) skip (E.walk src.tree) { dest := d, updated := [] } with
    | error e => rw [hw] at h; cases h
    | ok s =>
      rw [hw] at h
      simp only at h
      have hk := walkTimed_kept (actsOf_ok hs (hE.walk _ hs) he) hq hm (s := { dest := d, updated := [] }) hz hw
      have ha : Aside ManifestFile s.dest d' := by
        by_cases hu : s.updated = []
        · rw [if_pos hu] at h; cases h; exact .refl ..
        · rw [if_neg hu] at h; exact Aside.updateManifests h
      refine ⟨ha.dirTime hq (hk.dirTime hz hm), fun hM => ?_⟩
      obtain ⟨a1, a2⟩ := ha.same q hq hM
      rw [a2, exists_of_dget a1]
      exact ⟨fun hx => (hk.old hx).2, fun hx hy => (hk.new hx hy).1⟩

theorem exists_none {t : Tree} {q : Path} (hq : q ≠ []) : t.exists q ≠ true ↔ dget t q = none := by
  unfold Tree.exists
  cases dget t q <;> simp [hq]

theorem exists_some {t : Tree} {q : Path} (hq : q ≠ []) : t.exists q = true ↔ dget t q ≠ none := by
  unfold Tree.exists
  cases dget t q <;> simp [hq]

theorem restoreListTimed_times {now : Nat → Nat} {mt : Str → Path → Option Nat} {E : RestoreEnv} (hE : EnvOk E)
    {skip : List Str} (he : [] ∉ skip) {srcs : List RSource}
    (hs : ∀ s ∈ srcs, WfTree s.tree ∧ s.path ≠ E.base.bagpath)
    {q : Path} (hq : q ≠ []) (hM : ¬ ManifestFile q)
    (hm : ∀ s ∈ srcs, s.tree.isdir q = true → mt s.path q ≠ some 0) :
    ∀ {d d' : Timed}, DirTime q d → restoreListTimed now mt E skip srcs d = .ok d' →
        (d.tree.exists q = true → d'.time q = d.time q) ∧
        (d.tree.exists q ≠ true → ¬ Deleted skip q → ∀ pre s post, srcs = pre ++ s :: post →
          s.tree.exists q = true → (∀ x ∈ pre, x.tree.exists q ≠ true) → mt s.path q = some (d'.time q)) := by
  induction srcs with
  | nil =>
    intro d d' _ h
    cases h
    exact ⟨fun _ => rfl, fun _ _ pre s post e => by cases pre <;> cases e⟩
  | cons s0 rest ih =>
    intro d d' hz h
    simp only [restoreListTimed] at h
    cases h1 : restoreFromTimed now mt E s0 skip false d with
    | error e => rw [h1] at h; cases h
    | ok d1 =>
      rw [h1] at h
      obtain ⟨hw0, hp0⟩ := hs s0 List.mem_cons_self
      obtain ⟨z1, t1⟩ := restoreFromTimed_times hE hw0 hp0 he hq hz (hm s0 List.mem_cons_self) h1
      obtain ⟨o1, n1⟩ := t1 hM
      obtain ⟨r1, r2, r3⟩ := restoreFrom_read hE hw0 he (untimed_restoreFrom h1) hp0 hq hM
      obtain ⟨o2, n2⟩ := ih (fun s h => hs s (List.mem_cons_of_mem _ h)) (fun s h => hm s (List.mem_cons_of_mem _ h))
        z1 h
      constructor
      · intro hx
        rw [o2 (by rw [exists_of_dget (r1 ((exists_some hq).1 hx))]; exact hx), o1 hx]
      · intro hx hdel pre s post hl hsx hpre
        have hd1 := r3 ((exists_none hq).1 hx) hdel
        cases pre with
        | nil =>
          cases hl
          have hx1 : d1.tree.exists q = true := by rw [exists_of_dget hd1]; exact hsx
          rw [o2 hx1]
          exact n1 hx hx1
        | cons x pre =>
          cases hl
          refine n2 ?_ hdel pre s post rfl hsx (fun y hy => hpre y (List.mem_cons_of_mem _ hy))
          rw [exists_of_dget hd1]
          exact hpre _ List.mem_cons_self

theorem startTimed_parts {now : Nat → Nat} {mt : Str → Path → Option Nat} {E : RestoreEnv} {H : RHead} {skip : List Str}
    {d d1 : Timed} (h : startRestoreTimed now mt E H skip d = .ok d1) :
    ∃ d0, ((H.tree.read aggregationInfo = none ∧ d0 = d) ∨
        ∃ c, H.tree.read aggregationInfo = some c ∧ d.write now [py!"bag-info.txt"] (copiedText H.mode c) = .ok d0) ∧
      (if H.path = E.base.bagpath then .ok d0 else restoreFromTimed now mt E ⟨H.path, H.tree⟩ skip false d0) = .ok d1 := by
  unfold startRestoreTimed at h
  cases hr : H.tree.read aggregationInfo with
  | none =>
    simp only [hr] at h
    exact ⟨d, .inl ⟨rfl, rfl⟩, h⟩
  | some c =>
    simp only [hr] at h
    cases hw : d.write now [py!"bag-info.txt"] (copiedText H.mode c) with
    | error e => rw [hw] at h; cases h
    | ok d0 =>
      rw [hw] at h
      exact ⟨d0, .inr ⟨c, rfl, hw⟩, h⟩

/-- The parts of a restore with times. -/
theorem restoreTimed_parts {now : Nat → Nat} {mt : Str → Path → Option Nat} {E : RestoreEnv} {H : RHead} {us rm : Bool}
    {d out : Timed} (h : restoreTimed now mt E H us rm d = .ok out) {deleted : List Str}
    (hd : iterDeleted H.mode H.tree H.info = .ok deleted) {ms : List MemberInfo}
    (hm : iterMembers H.mode H.tree H.info = .ok ms) {srcs : List RSource}
    (hf : Forall₂ (fun n s => E.find n = some s) (otherMembers H (ms.map (fun m => m.name))) srcs) :
    ∃ d0 d2, Aside (fun q => q = [py!"bag-info.txt"]) d d0 ∧
      restoreListTimed now mt E (pySet deleted) (sourcesOf E H srcs) d0 = .ok d2 ∧ Aside Special d2 out := by
  unfold restoreTimed at h
  rw [hd] at h
  simp only at h
  rw [hm] at h
  simp only at h
  cases h1 : startRestoreTimed now mt E H (pySet deleted) d with
  | error e => rw [h1] at h; cases h
  | ok d1 =>
    rw [h1] at h
    simp only at h
    rw [restoreMembersTimed_eq hf] at h
    cases h2 : restoreListTimed now mt E (pySet deleted) srcs d1 with
    | error e => rw [h2] at h; cases h
    | ok d2 =>
      rw [h2] at h
      simp only at h
      cases h3 : (if otherMembers H (ms.map (fun m => m.name)) = [] then .ok d2
          else restoreFetchTimed now E (otherMembers H (ms.map (fun m => m.name))) d2) with
      | error e => rw [h3] at h; cases h
      | ok d3 =>
        rw [h3] at h
        simp only at h
        have k3 : Aside Special d2 d3 := by
          by_cases e : otherMembers H (ms.map (fun m => m.name)) = []
          · rw [if_pos e] at h3; cases h3; exact .refl ..
          · rw [if_neg e] at h3; exact Aside.restoreFetch h3
        obtain ⟨d0, k0, k1⟩ := startTimed_parts h1
        refine ⟨d0, d2, ?_, ?_, k3.trans (Aside.finishRestore h)⟩
        · rcases k0 with ⟨_, rfl⟩ | ⟨c, _, k0⟩
          · exact .refl ..
          · exact Aside.write rfl k0
        · unfold sourcesOf
          by_cases e : H.path = E.base.bagpath
          · rw [if_pos e] at k1 ⊢; cases k1; exact h2
          · rw [if_neg e] at k1 ⊢
            simp only [restoreListTimed, k1]
            exact h2

theorem untimed_start {now : Nat → Nat} {mt : Str → Path → Option Nat} {E : RestoreEnv} {H : RHead} {skip : List Str}
    {d d' : Timed} (h : startRestoreTimed now mt E H skip d = .ok d') : startRestore E H skip d.tree = .ok d'.tree := by
  obtain ⟨d0, k0, k1⟩ := startTimed_parts h
  have k2 : (if H.path = E.base.bagpath then .ok d0.tree else restoreFrom E ⟨H.path, H.tree⟩ skip false d0.tree) =
      .ok d'.tree := by
    by_cases e : H.path = E.base.bagpath
    · rw [if_pos e] at k1 ⊢; cases k1; rfl
    · rw [if_neg e] at k1 ⊢; exact untimed_restoreFrom k1
  unfold startRestore
  rcases k0 with ⟨hr, rfl⟩ | ⟨c, hr, k0⟩
  · simp only [hr]; exact k2
  · simp only [hr]
    rw [← untimed_write now, k0]
    exact k2

theorem start_timed {now : Nat → Nat} {mt : Str → Path → Option Nat} {E : RestoreEnv} {H : RHead} {skip : List Str}
    {d : Timed} {t : Tree}
    (hm : ∀ a ∈ actsOf skip (E.walk H.tree), (mt H.path a.about).isSome = true)
    (h : startRestore E H skip d.tree = .ok t) :
    ∃ d', startRestoreTimed now mt E H skip d = .ok d' ∧ d'.tree = t := by
  suffices ∃ d', startRestoreTimed now mt E H skip d = .ok d' by
    obtain ⟨d', h1⟩ := this
    have := untimed_start h1
    rw [h] at this
    exact ⟨d', h1, (Except.ok.inj this).symm⟩
  have key : ∀ d0 : Timed,
      (if H.path = E.base.bagpath then .ok d0.tree else restoreFrom E ⟨H.path, H.tree⟩ skip false d0.tree) = .ok t →
      ∃ d', (if H.path = E.base.bagpath then .ok d0 else restoreFromTimed now mt E ⟨H.path, H.tree⟩ skip false d0) =
        .ok d' := by
    intro d0 h
    by_cases e : H.path = E.base.bagpath
    · rw [if_pos e]; exact ⟨_, rfl⟩
    · rw [if_neg e] at h ⊢
      obtain ⟨d', h1, _⟩ := restoreFrom_timed (now := now) (mt := mt) (src := ⟨H.path, H.tree⟩) hm h
      exact ⟨d', h1⟩
  unfold startRestore at h
  unfold startRestoreTimed
  cases hr : H.tree.read aggregationInfo with
  | none => simp only [hr] at h ⊢; exact key d h
  | some c =>
    simp only [hr] at h ⊢
    rw [← untimed_write now] at h
    cases hw : d.write now [py!"bag-info.txt"] (copiedText H.mode c) with
    | error e => rw [hw] at h; cases h
    | ok d0 => rw [hw] at h; exact key d0 h

theorem untimed_restoreMembers {now : Nat → Nat} {mt : Str → Path → Option Nat} {E : RestoreEnv} {skip : List Str}
    {names : List Str} : ∀ {d d' : Timed}, restoreMembersTimed now mt E skip names d = .ok d' →
      restoreMembers E skip names d.tree = .ok d'.tree := by
  induction names with
  | nil => intro d d' h; cases h; rfl
  | cons n rest ih =>
    intro d d' h
    simp only [restoreMembersTimed, restoreMembers, restoreMember] at h ⊢
    cases hf : E.find n with
    | none => rw [hf] at h; cases h
    | some s =>
      rw [hf] at h
      simp only at h ⊢
      cases h1 : restoreFromTimed now mt E s skip false d with
      | error e => rw [h1] at h; cases h
      | ok d1 => rw [h1] at h; rw [untimed_restoreFrom h1]; exact ih h

theorem restoreMembers_timed {now : Nat → Nat} {mt : Str → Path → Option Nat} {E : RestoreEnv} {skip : List Str}
    {names : List Str} (hm : ∀ n ∈ names, ∀ s, E.find n = some s → ∀ a ∈ actsOf skip (E.walk s.tree),
      (mt s.path a.about).isSome = true) :
    ∀ {d : Timed} {t : Tree}, restoreMembers E skip names d.tree = .ok t →
      ∃ d', restoreMembersTimed now mt E skip names d = .ok d' ∧ d'.tree = t := by
  induction names with
  | nil => intro d t h; cases h; exact ⟨d, rfl, rfl⟩
  | cons n rest ih =>
    intro d t h
    simp only [restoreMembersTimed, restoreMembers, restoreMember] at h ⊢
    cases hf : E.find n with
    | none => rw [hf] at h; cases h
    | some s =>
      rw [hf] at h
      simp only at h ⊢
      cases h1 : restoreFrom E s skip false d.tree with
      | error e => rw [h1] at h; cases h
      | ok t1 =>
        rw [h1] at h
        obtain ⟨d1, h2, rfl⟩ := restoreFrom_timed (now := now) (hm n List.mem_cons_self s hf) h1
        rw [h2]
        exact ih (fun n hn => hm n (List.mem_cons_of_mem _ hn)) h

theorem untimed_fetchStep (now : Nat → Nat) (E : RestoreEnv) (others : List Str) (d : Timed) :
    untimed (if others = [] then .ok d else restoreFetchTimed now E others d) =
      (if others = [] then .ok d.tree else restoreFetch E others d.tree) := by
  by_cases e : others = []
  · rw [if_pos e, if_pos e]; rfl
  · rw [if_neg e, if_neg e, untimed_restoreFetch]

/-- Without the times, a restore is the one of `restore`. -/
theorem untimed_restore {now : Nat → Nat} {mt : Str → Path → Option Nat} {E : RestoreEnv} {H : RHead} {us rm : Bool}
    {d d' : Timed} (h : restoreTimed now mt E H us rm d = .ok d') : restore E H us rm d.tree = .ok d'.tree := by
  unfold restoreTimed at h
  unfold restore
  cases hd : iterDeleted H.mode H.tree H.info with
  | error e => rw [hd] at h; cases h
  | ok deleted =>
    rw [hd] at h
    simp only at h ⊢
    cases hm : iterMembers H.mode H.tree H.info with
    | error e => rw [hm] at h; cases h
    | ok ms =>
      rw [hm] at h
      simp only at h ⊢
      cases h1 : startRestoreTimed now mt E H (pySet deleted) d with
      | error e => rw [h1] at h; cases h
      | ok d1 =>
        rw [h1] at h
        rw [untimed_start h1]
        simp only at h ⊢
        cases h2 : restoreMembersTimed now mt E (pySet deleted) (otherMembers H (ms.map (fun m => m.name))) d1 with
        | error e => rw [h2] at h; cases h
        | ok d2 =>
          rw [h2] at h
          rw [untimed_restoreMembers h2]
          simp only at h ⊢
          rw [← untimed_fetchStep now]
          cases h3 : (if otherMembers H (ms.map (fun m => m.name)) = [] then .ok d2
              else restoreFetchTimed now E (otherMembers H (ms.map (fun m => m.name))) d2) with
          | error e => rw [h3] at h; cases h
          | ok d3 =>
            rw [h3] at h
            simp only [untimed_ok] at h ⊢
            rw [← untimed_finishRestore now, h]; rfl

theorem restore_timed {now : Nat → Nat} {mt : Str → Path → Option Nat} {E : RestoreEnv} {H : RHead} {us rm : Bool}
    {d : Timed} {t : Tree} {deleted : List Str} (hd : iterDeleted H.mode H.tree H.info = .ok deleted)
    {ms : List MemberInfo} (hm : iterMembers H.mode H.tree H.info = .ok ms)
    (hh : ∀ a ∈ actsOf (pySet deleted) (E.walk H.tree), (mt H.path a.about).isSome = true)
    (hs : ∀ n ∈ otherMembers H (ms.map (fun m => m.name)), ∀ s, E.find n = some s →
      ∀ a ∈ actsOf (pySet deleted) (E.walk s.tree), (mt s.path a.about).isSome = true)
    (h : restore E H us rm d.tree = .ok t) : ∃ d', restoreTimed now mt E H us rm d = .ok d' ∧ d'.tree = t := by
  suffices ∃ d', restoreTimed now mt E H us rm d = .ok d' by
    obtain ⟨d', h1⟩ := this
    have := untimed_restore h1
    rw [h] at this
    exact ⟨d', h1, (Except.ok.inj this).symm⟩
  unfold restore at h
  unfold restoreTimed
  rw [hd] at h ⊢
  simp only at h ⊢
  rw [hm] at h ⊢
  simp only at h ⊢
  cases h1 : startRestore E H (pySet deleted) d.tree with
  | error e => rw [h1] at h; cases h
  | ok t1 =>
    rw [h1] at h
    obtain ⟨d1, k1, rfl⟩ := start_timed (now := now) hh h1
    rw [k1]
    simp only at h ⊢
    cases h2 : restoreMembers E (pySet deleted) (otherMembers H (ms.map (fun m => m.name))) d1.tree with
    | error e => rw [h2] at h; cases h
    | ok t2 =>
      rw [h2] at h
      obtain ⟨d2, k2, rfl⟩ := restoreMembers_timed (now := now) hs h2
      rw [k2]
      simp only at h ⊢
      rw [← untimed_fetchStep now] at h
      cases h3 : (if otherMembers H (ms.map (fun m => m.name)) = [] then .ok d2
          else restoreFetchTimed now E (otherMembers H (ms.map (fun m => m.name))) d2) with
      | error e => rw [h3] at h; cases h
      | ok d3 =>
        rw [h3] at h
        simp only [untimed_ok] at h ⊢
        rw [← untimed_finishRestore now] at h
        cases h4 : finishRestoreTimed now E us rm d3 with
        | error e => rw [h4] at h; cases h
        | ok d4 => exact ⟨_, rfl⟩

/-- Operations concern what the source has. -/
theorem acts_exist {t : Tree} (ht : WfTree t) {w : List WalkStep} (hw : IsWalk t w) {skip : List Str} (he : [] ∉ skip)
    {a : Act} (ha : a ∈ actsOf skip w) : t.exists a.about = true := by
  have hok := actsOf_ok ht hw he
  cases a with
  | stat p =>
    obtain ⟨s, hs, _, h⟩ := mem_actsOf.1 ha
    rcases h with h | ⟨f, _, _, h⟩ | ⟨f, _, _, h⟩
    · cases h
      exact exists_of_dir ((hw.dirs _).1 ⟨s, hs, rfl⟩)
    · cases h
    · cases h
  | file p =>
    obtain ⟨_, c, hc⟩ := hok.file p ha
    have : t.isfile p = true := by rw [isfile_read, hc]; rfl
    rw [isfile_iff] at this
    obtain ⟨c, hc⟩ := this
    simp [Tree.exists, Act.about, hc]
  | dir p => exact exists_of_dir (hok.dir p ha).2

end Verif
