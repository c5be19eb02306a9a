import Verif.Lemmas.RestoreStopped
import Verif.Lemmas.Link
import Verif.Props.Restore
import Verif.Model.Restorer
/-!
# Restores that stop or fail, and are run again (C53, C104)
-/

namespace Verif

open Spec

/-! ## C53: stopped at any point -/

theorem alike_of_dget {t t' : Tree} {p : Path} (h : dget t p = dget t' p) : AlikeAt t t' p :=
  ⟨read_of_dget h, exists_of_dget h, isdir_of_dget h⟩

theorem saveBag_last {E : RestoreEnv} {b b' : RBag} (h : saveBag E b = .ok b') : b'.tree ∈ saveBagStates E b := by
  unfold saveBag at h
  unfold saveBagStates
  cases hw : b.tree.write [b.tagFile] (fieldsText (tagFields b.info)) with
  | error e => rw [hw] at h; cases h
  | ok t =>
    rw [hw] at h
    simp only at h ⊢
    cases hm : writeTagManifests E.sum b.algorithms t with
    | error e => rw [hm] at h; cases h
    | ok t1 =>
      rw [hm] at h
      simp only at h
      cases hl : loadManifests E.base b.version b.encoding t1 with
      | error e => rw [hl] at h; cases h
      | ok r =>
        rw [hl] at h
        cases h
        exact List.mem_append_right _ (manifests_last hm)

/-- The states of a run that succeeds begin with what there was and include what it leaves. -/
theorem restoreStates_ends {E : RestoreEnv} {H : RHead} {us rm : Bool} {d out : Tree} (h : restore E H us rm d = .ok out) :
    (restoreStates E H us rm d).head? = some d ∧ out ∈ restoreStates E H us rm d := by
  obtain ⟨deleted, ms, d1, d2, d3, e1, e2, e3, e4, e5, e6⟩ := restore_parts h
  unfold restoreStates
  simp only [e1, e2, e3, e4, e5]
  refine ⟨by unfold startRestoreStates; simp, ?_⟩
  refine List.mem_append_right _ (List.mem_append_right _ (List.mem_append_right _ ?_))
  unfold finishRestore at e6
  unfold finishRestoreStates
  cases hb : openBag E.base d3 with
  | error e => rw [hb] at e6; cases e6
  | ok b =>
    rw [hb] at e6
    simp only at e6 ⊢
    cases hr : (if rm = true then removeTags E b else .ok b) with
    | error e => rw [hr] at e6; cases e6
    | ok b1 =>
      rw [hr] at e6
      simp only at e6 ⊢
      refine List.mem_append_right _ ?_
      cases us with
      | false =>
        rw [if_neg Bool.false_ne_true] at e6 ⊢
        simp only at e6
        cases e6
        exact List.mem_singleton.2 rfl
      | true =>
        rw [if_pos rfl] at e6 ⊢
        cases hu : updateSizes E b1 with
        | error e => rw [hu] at e6; cases e6
        | ok b2 =>
          rw [hu] at e6
          cases e6
          unfold updateSizes at hu
          unfold updateSizesStates
          simp only
          cases hs : saveBag E { b1 with info := dset b1.info py!"Payload-Oxum" (.one (oxumText E.blen b1.tree)) } with
          | error e => rw [hs] at hu; cases hu
          | ok b3 =>
            rw [hs] at hu
            exact List.mem_append_right _ (saveBag_last hu)

theorem stage_of_run {E : RestoreEnv} (hE : EnvOk E) {H : RHead} {srcs : List RSource} (hA : Aggregation E H srcs)
    {us rm : Bool} {d x : Tree} {deleted : List Str} (hd : iterDeleted H.mode H.tree H.info = .ok deleted)
    (hx : x ∈ restoreStates E H us rm d) : Stage (pySet deleted) d (sourcesOf E H srcs.reverse) x := by
  obtain ⟨ms, h1, h2⟩ := aggregation_parts hA
  exact restoreStates_stage hE (fun _ _ h => h) hd h1 h2 hA.head
    (fun s hs => ⟨hA.wf s (List.mem_reverse.1 hs), hA.outside s (List.mem_reverse.1 hs)⟩) hx

/-- C53, what is left: if a restore is stopped at any point, also in the middle of copying a file, each path is as it
was at the start or as the whole run leaves it, except for at most one file, which holds the beginning of what the whole
run leaves there. -/
theorem C53_stopped {E : RestoreEnv} (hE : EnvOk E) {H : RHead} {srcs : List RSource} (hA : Aggregation E H srcs)
    {us rm : Bool} {d out : Tree} (h : restore E H us rm d = .ok out) {x : Tree} (hx : x ∈ restoreStates E H us rm d) :
    ∃ q, ∀ p, p ≠ [] → ¬ Special p → AlikeAt x d p ∨ AlikeAt x out p ∨
      (p = q ∧ d.exists p = false ∧ ∃ c k, out.read p = some c ∧ x.read p = some (c.take k)) := by
  obtain ⟨deleted, ms, _, _, _, hd, _⟩ := restore_parts h
  obtain ⟨q, hq⟩ := stage_of_run hE hA hd hx
  refine ⟨q, fun p hne hp => ?_⟩
  obtain ⟨k1, k2, k3⟩ := restored_dget hE hA h hd hne hp
  rcases hq p hne hp with e | ⟨e, hdel, e' | ⟨rfl, c, k, hc, e'⟩⟩
  · exact .inl (alike_of_dget e)
  · rw [deleted_pySet] at hdel
    exact .inr (.inl (alike_of_dget (e'.trans (k3 e hdel).symm)))
  · rw [deleted_pySet] at hdel
    refine .inr (.inr ⟨rfl, ?_, c, k, ?_, ?_⟩)
    · cases hh : d.exists p with
      | false => rfl
      | true => exact absurd e ((exists_iff hne).1 hh)
    · rw [Tree.read, k3 e hdel, hc]
    · rw [Tree.read, e']

/-- C53, running it again: after a stop at any point of a restore to a directory other than the head bag's, a run that
succeeds leaves each file and directory as if the first had not been stopped, except that a file of which only the
beginning had been copied stays as it is.  Missing: manifests, metadata and fetch list (`C53_negation`), the file copied
in part (`C53_negation_torn`), and that the second run succeeds (`C53_negation_bagit`). -/
theorem C53_rerun_partial {E : RestoreEnv} (hE : EnvOk E) {H : RHead} {srcs : List RSource} (hA : Aggregation E H srcs)
    (_ho : H.path ≠ E.base.bagpath) {us rm : Bool} {d out : Tree} (h : restore E H us rm d = .ok out) {x : Tree}
    (hx : x ∈ restoreStates E H us rm d) {us' rm' : Bool} {out' : Tree} (h' : restore E H us' rm' x = .ok out') :
    ∃ q, ∀ p, p ≠ [] → ¬ Special p → AlikeAt out' out p ∨
      (p = q ∧ d.exists p = false ∧ ∃ c k, out.read p = some c ∧ x.read p = some (c.take k) ∧ out'.read p = x.read p) := by
  obtain ⟨deleted, ms, _, _, _, hd, _⟩ := restore_parts h
  obtain ⟨q, hq⟩ := stage_of_run hE hA hd hx
  refine ⟨q, fun p hne hp => ?_⟩
  obtain ⟨k1, k2, k3⟩ := restored_dget hE hA h hd hne hp
  obtain ⟨l1, l2, l3⟩ := restored_dget hE hA h' hd hne hp
  rcases hq p hne hp with e | ⟨e, hdel, e' | ⟨rfl, c, k, hc, e'⟩⟩
  · left
    apply alike_of_dget
    rw [e] at l1 l2 l3
    by_cases hn : dget d p = none
    · by_cases hdel : Deleted deleted p
      · rw [l2 hn hdel, k2 hn hdel]
      · rw [l3 hn hdel, k3 hn hdel]
    · rw [l1 hn, k1 hn]
  · rw [deleted_pySet] at hdel
    left
    apply alike_of_dget
    rw [k3 e hdel]
    by_cases hn : dget x p = none
    · exact l3 hn hdel
    · rw [l1 hn, e']
  · rw [deleted_pySet] at hdel
    right
    refine ⟨rfl, ?_, c, k, ?_, ?_, ?_⟩
    · cases hh : d.exists p with
      | false => rfl
      | true => exact absurd e ((exists_iff hne).1 hh)
    · rw [Tree.read, k3 e hdel, hc]
    · rw [Tree.read, e']
    · exact read_of_dget (l1 (by rw [e']; simp))

/-- A state of the sample's restore: the second bag's file has arrived in part. -/
def Sample.tornState : Tree :=
  [([py!"bag-info.txt"], .file py!"Contact-Name: Jo\nMultibag-Version: 0.4\n"),
   ([py!"bagit.txt"], .file bagitText),
   ([py!"manifest-md5.txt"], .file py!"d4 data/a\n"),
   ([py!"data"], .dir), ([py!"multibag"], .dir), ([py!"data", py!"a"], .file py!"new!"),
   ([py!"multibag", py!"member-bags.tsv"], .file py!"m1\nhb\n"),
   ([py!"multibag", py!"deleted.txt"], .file py!"data/x\n"),
   ([py!"multibag", py!"aggregation-info.txt"], .file py!"Contact-Name: Jo\nMultibag-Version: 0.4\n"),
   ([py!"data", py!"b"], .file py!"b")]

theorem Sample.tornState_mem : tornState ∈ restoreStates renv head true true [] := by decide +kernel

/-- The hypotheses of `C53_stopped` and of `C53_rerun_partial` are met, by a state in which a file has arrived in part. -/
example : ∃ q, ∀ p, p ≠ [] → ¬ Special p → AlikeAt Sample.tornState [] p ∨ AlikeAt Sample.tornState Sample.restored p ∨
    (p = q ∧ Tree.exists [] p = false ∧ ∃ c k, Sample.restored.read p = some c ∧ Sample.tornState.read p = some (c.take k)) :=
  C53_stopped Sample.renv_ok Sample.aggregation Sample.restore_sample Sample.tornState_mem

example : ∃ out', restore Sample.renv Sample.head true true Sample.tornState = .ok out' ∧
    ∃ q, ∀ p, p ≠ [] → ¬ Special p → AlikeAt out' Sample.restored p ∨
      (p = q ∧ Tree.exists [] p = false ∧ ∃ c k, Sample.restored.read p = some c ∧
        Sample.tornState.read p = some (c.take k) ∧ out'.read p = Sample.tornState.read p) := by
  obtain ⟨out', h, _⟩ : ∃ out', restore Sample.renv Sample.head true true Sample.tornState = .ok out' ∧
      (true = true) := Sample.ok_of_check (f := fun _ => true) (by decide +kernel)
  exact ⟨out', h, C53_rerun_partial Sample.renv_ok Sample.aggregation (by decide) Sample.restore_sample
    Sample.tornState_mem h⟩

/-- C53 is false of the code: a file that had arrived in part when a restore was stopped stays so when it is run again
and succeeds. -/
theorem C53_negation_torn : ∃ (E : RestoreEnv) (H : RHead) (srcs : List RSource) (out x out' : Tree),
    EnvOk E ∧ Aggregation E H srcs ∧ H.path ≠ E.base.bagpath ∧
    restore E H true true [] = .ok out ∧ x ∈ restoreStates E H true true [] ∧ restore E H true true x = .ok out' ∧
    out.read [py!"data", py!"b"] = some py!"bb" ∧ out'.read [py!"data", py!"b"] = some py!"b" := by
  obtain ⟨out', h1, h2⟩ : ∃ out', restore Sample.renv Sample.head true true Sample.tornState = .ok out' ∧
      decide (out'.read [py!"data", py!"b"] = some py!"b") = true := Sample.ok_of_check (by decide +kernel)
  rw [decide_eq_true_eq] at h2
  exact ⟨Sample.renv, Sample.head, _, _, _, out', Sample.renv_ok, Sample.aggregation, by decide,
    Sample.restore_sample, Sample.tornState_mem, h1, rfl, h2⟩

/-- The sample's restore, stopped when `bagit.txt` was just opened for writing. -/
def Sample.tornBagit : Tree :=
  [([py!"bag-info.txt"], .file py!"Contact-Name: Jo\nMultibag-Version: 0.4\n"), ([py!"bagit.txt"], .file [])]

/-- C53 is false of the code: if a restore is stopped while it copies `bagit.txt`, it cannot be run again. -/
theorem C53_negation_bagit : ∃ (E : RestoreEnv) (H : RHead) (srcs : List RSource) (out x : Tree),
    EnvOk E ∧ Aggregation E H srcs ∧ H.path ≠ E.base.bagpath ∧
    restore E H true true [] = .ok out ∧ x ∈ restoreStates E H true true [] ∧
    ∃ e, restore E H true true x = .error e := by
  have h : ∃ e, restore Sample.renv Sample.head true true Sample.tornBagit = .error e := by
    have : (match restore Sample.renv Sample.head true true Sample.tornBagit with
      | .ok _ => false
      | .error _ => true) = true := by decide +kernel
    cases hr : restore Sample.renv Sample.head true true Sample.tornBagit with
    | ok _ => rw [hr] at this; cases this
    | error e => exact ⟨e, rfl⟩
  exact ⟨Sample.renv, Sample.head, _, _, Sample.tornBagit, Sample.renv_ok, Sample.aggregation, by decide,
    Sample.restore_sample, by decide +kernel, h⟩

/-! ## C104: a missing member is supplied later -/

/-- No path that was there is gone. -/
def Grows (d d' : Tree) : Prop := ∀ p, d.exists p = true → d'.exists p = true

theorem Grows.refl (d : Tree) : Grows d d := fun _ h => h

theorem Grows.trans {a b c : Tree} (h1 : Grows a b) (h2 : Grows b c) : Grows a c := fun p h => h2 p (h1 p h)

theorem exists_nil (t : Tree) : t.exists [] = true := rfl

theorem grows_dset (d : Tree) (p : Path) (n : Node) : Grows d (dset d p n) := by
  intro q h
  by_cases hq : q = []
  · subst hq; exact exists_nil _
  · rw [exists_iff hq] at h ⊢
    rw [dget_dset]
    split
    · simp
    · exact h

theorem grows_write {d d' : Tree} {p : Path} {c : Str} (h : d.write p c = .ok d') : Grows d d' := by
  obtain ⟨rfl, _⟩ := Tree.write_ok h
  exact grows_dset d p _

theorem exists_dset (d : Tree) (p : Path) (n : Node) : Tree.exists (dset d p n) p = true := by
  by_cases hp : p = []
  · subst hp; exact exists_nil _
  · rw [exists_iff hp, dget_dset, if_pos rfl]
    simp

/-- The path an operation is about. -/
def Act.path : Act → Path
  | .stat p => p
  | .file p => p
  | .dir p => p

theorem doAct_grows {src : Tree} {s s' : Copying} {a : Act} (h : doAct false src s a = .ok s') :
    Grows s.dest s'.dest ∧ s'.dest.exists a.path = true := by
  cases a with
  | stat p =>
    simp only [doAct] at h
    split at h
    · rename_i he
      cases h
      exact ⟨Grows.refl _, he⟩
    · cases h
  | dir p =>
    simp only [doAct] at h
    split at h
    · rename_i he
      cases h
      exact ⟨Grows.refl _, he⟩
    · cases hm : s.dest.mkdir p with
      | error e => rw [hm] at h; cases h
      | ok d =>
        rw [hm] at h
        cases h
        unfold Tree.mkdir at hm
        split at hm
        · cases hm
        · cases hm
          exact ⟨grows_dset _ _ _, exists_dset _ _ _⟩
  | file p =>
    simp only [doAct, Bool.false_and, if_neg Bool.false_ne_true] at h
    split at h
    · rename_i he
      cases h
      exact ⟨Grows.refl _, he⟩
    · split at h
      · cases h
      · rename_i c _
        cases hw : s.dest.write p c with
        | error e => rw [hw] at h; cases h
        | ok d =>
          rw [hw] at h
          cases h
          refine ⟨grows_write hw, ?_⟩
          obtain ⟨rfl, _⟩ := Tree.write_ok hw
          exact exists_dset _ _ _

theorem runActs_grows {src : Tree} {acts : List Act} {s s' : Copying} (h : runActs false src acts s = .ok s') :
    Grows s.dest s'.dest ∧ ∀ a ∈ acts, s'.dest.exists a.path = true := by
  induction acts generalizing s with
  | nil => cases h; exact ⟨Grows.refl _, fun a h => by cases h⟩
  | cons a acts ih =>
    simp only [runActs] at h
    cases hd : doAct false src s a with
    | error e => rw [hd] at h; cases h
    | ok s1 =>
      rw [hd] at h
      obtain ⟨g1, e1⟩ := doAct_grows hd
      obtain ⟨g2, e2⟩ := ih h
      refine ⟨g1.trans g2, fun b hb => ?_⟩
      rcases List.mem_cons.1 hb with rfl | hb
      · exact g2 _ e1
      · exact e2 b hb

/-- Where everything is there already, nothing is done. -/
theorem runActs_idle {src : Tree} {acts : List Act} {s : Copying} (h : ∀ a ∈ acts, s.dest.exists a.path = true) :
    runActs false src acts s = .ok s := by
  induction acts with
  | nil => rfl
  | cons a acts ih =>
    have he := h a List.mem_cons_self
    have : doAct false src s a = .ok s := by
      cases a with
      | stat p => simp only [Act.path] at he; simp [doAct, he]
      | dir p => simp only [Act.path] at he; simp [doAct, he]
      | file p => simp only [Act.path] at he; simp [doAct, he]
    simp only [runActs, this]
    exact ih (fun a ha => h a (List.mem_cons_of_mem _ ha))

theorem writeManifests_grows {m : ByAlg} {d d' : Tree} (h : writeManifests d m = .ok d') : Grows d d' := by
  have one : ∀ {kind alg : Str} {es : List (Str × Str)} {d d' : Tree}, writeManifest d kind alg es = .ok d' → Grows d d' := by
    intro kind alg es d d' h
    unfold writeManifest at h
    split at h
    · cases h; exact Grows.refl _
    · exact grows_write h
  induction m generalizing d with
  | nil => cases h; exact Grows.refl _
  | cons am m ih =>
    obtain ⟨alg, ps⟩ := am
    simp only [writeManifests] at h
    split at h
    · cases h
    · rename_i d1 h1
      split at h
      · cases h
      · rename_i d2 h2
        exact ((one h1).trans (one h2)).trans (ih h)

theorem restoreFrom_grows {E : RestoreEnv} {src : RSource} {skip : List Str} {d d' : Tree}
    (h : restoreFrom E src skip false d = .ok d') : Grows d d' := by
  by_cases hp : src.path = E.base.bagpath
  · unfold restoreFrom at h
    rw [if_pos hp] at h
    cases h
    exact Grows.refl _
  · obtain ⟨sb, s, hb, hr, hu⟩ := restoreFrom_parts h hp
    have g := (runActs_grows hr).1
    rcases hu with ⟨_, rfl⟩ | ⟨_, hu⟩
    · exact g
    · refine g.trans ?_
      unfold updateManifests at hu
      split at hu
      · cases hu
      · split at hu
        · cases hu
        · exact writeManifests_grows hu

/-- Restoring again from a bag that was restored before changes nothing. -/
theorem restoreFrom_again {E : RestoreEnv} {src : RSource} {skip : List Str} {d d' d'' : Tree}
    (h : restoreFrom E src skip false d = .ok d') (hg : Grows d' d'') : restoreFrom E src skip false d'' = .ok d'' := by
  by_cases hp : src.path = E.base.bagpath
  · unfold restoreFrom
    rw [if_pos hp]
  · obtain ⟨sb, s, hb, hr, hu⟩ := restoreFrom_parts h hp
    have hs : Grows s.dest d' := by
      rcases hu with ⟨_, rfl⟩ | ⟨_, hu⟩
      · exact Grows.refl _
      · unfold updateManifests at hu
        split at hu
        · cases hu
        · split at hu
          · cases hu
          · exact writeManifests_grows hu
    have := runActs_idle (src := src.tree) (s := ⟨d'', []⟩) (fun a ha => hg _ (hs _ ((runActs_grows hr).2 a ha)))
    unfold restoreFrom
    rw [if_neg hp, hb]
    simp only [this, if_true]

theorem restoreMembers_grows {E : RestoreEnv} {skip : List Str} {names : List Str} {d d' : Tree}
    (h : restoreMembers E skip names d = .ok d') : Grows d d' := by
  induction names generalizing d with
  | nil => cases h; exact Grows.refl _
  | cons n names ih =>
    simp only [restoreMembers, restoreMember] at h
    cases hf : E.find n with
    | none => rw [hf] at h; cases h
    | some src =>
      rw [hf] at h
      simp only at h
      cases h1 : restoreFrom E src skip false d with
      | error e => rw [h1] at h; cases h
      | ok d1 =>
        rw [h1] at h
        exact (restoreFrom_grows h1).trans (ih h)

theorem restoreMembers_again {E : RestoreEnv} {skip : List Str} {names : List Str} {d d' d'' : Tree}
    (h : restoreMembers E skip names d = .ok d') (hg : Grows d' d'') : restoreMembers E skip names d'' = .ok d'' := by
  induction names generalizing d with
  | nil => rfl
  | cons n names ih =>
    simp only [restoreMembers, restoreMember] at h ⊢
    cases hf : E.find n with
    | none => rw [hf] at h; cases h
    | some src =>
      rw [hf] at h
      simp only at h ⊢
      cases h1 : restoreFrom E src skip false d with
      | error e => rw [h1] at h; cases h
      | ok d1 =>
        rw [h1] at h
        rw [restoreFrom_again h1 ((restoreMembers_grows h).trans hg)]
        exact ih h

theorem restoreMembers_append {E : RestoreEnv} {skip : List Str} (l m : List Str) (d : Tree) :
    restoreMembers E skip (l ++ m) d =
      match restoreMembers E skip l d with
      | .error e => .error e
      | .ok d => restoreMembers E skip m d := by
  induction l generalizing d with
  | nil => rfl
  | cons n l ih =>
    simp only [List.cons_append, restoreMembers]
    cases restoreMember E n skip false d with
    | error e => rfl
    | ok d1 => exact ih d1

theorem runActs_keeps {src : Tree} {acts : List Act} {s s' : Copying} (h : runActs false src acts s = .ok s') {p : Path}
    (hp : p ≠ []) (hc : dget s.dest p ≠ none) : dget s'.dest p = dget s.dest p := by
  induction acts generalizing s with
  | nil => cases h; rfl
  | cons a acts ih =>
    simp only [runActs] at h
    cases hd : doAct false src s a with
    | error e => rw [hd] at h; cases h
    | ok s1 =>
      rw [hd] at h
      have e := doAct_ok hd hp
      unfold actEffect at e
      rw [if_neg (fun k => by rcases k.2 with k | k; exact Bool.false_ne_true k; exact hc k), if_neg (fun k => hc k.2)] at e
      rw [ih h (by rw [e]; exact hc), e]

theorem baginfo_kept {E : RestoreEnv} {src : RSource} {skip : List Str} {d d' : Tree}
    (h : restoreFrom E src skip false d = .ok d') (hc : dget d [py!"bag-info.txt"] ≠ none) :
    dget d' [py!"bag-info.txt"] = dget d [py!"bag-info.txt"] := by
  by_cases hp : src.path = E.base.bagpath
  · unfold restoreFrom at h
    rw [if_pos hp] at h
    cases h
    rfl
  · obtain ⟨sb, s, hb, hr, hu⟩ := restoreFrom_parts h hp
    have e := runActs_keeps hr (by decide) hc
    rcases hu with ⟨_, rfl⟩ | ⟨_, hu⟩
    · exact e
    · have hl := (openBag_parts hb).2.1
      rw [updateManifests_frame hu (fun e he => ((entries_inv hl).2 e he).2), e]
      rintro ⟨a, k | k⟩ <;> simp at k

theorem baginfo_members {E : RestoreEnv} {skip : List Str} {names : List Str} {d d' : Tree}
    (h : restoreMembers E skip names d = .ok d') (hc : dget d [py!"bag-info.txt"] ≠ none) :
    dget d' [py!"bag-info.txt"] = dget d [py!"bag-info.txt"] := by
  induction names generalizing d with
  | nil => cases h; rfl
  | cons n names ih =>
    simp only [restoreMembers, restoreMember] at h
    cases hf : E.find n with
    | none => rw [hf] at h; cases h
    | some src =>
      rw [hf] at h
      simp only at h
      cases h1 : restoreFrom E src skip false d with
      | error e => rw [h1] at h; cases h
      | ok d1 =>
        rw [h1] at h
        have e := baginfo_kept h1 hc
        rw [ih h (by rw [e]; exact hc), e]

/-- Beginning a restore again changes nothing. -/
theorem startRestore_again {E : RestoreEnv} {H : RHead} {skip : List Str} {d d1 x : Tree} {names : List Str}
    (h : startRestore E H skip d = .ok d1) (hx : restoreMembers E skip names d1 = .ok x) :
    startRestore E H skip x = .ok x := by
  obtain ⟨d0, hi, hr⟩ := startRestore_parts h
  have h1 : ∀ c, H.tree.read aggregationInfo = some c → x.write [py!"bag-info.txt"] (copiedText H.mode c) = .ok x := by
    intro c ha
    have hb := (startRestore_init hi).2.2 c ha
    have hb1 : dget d1 [py!"bag-info.txt"] = some (.file (copiedText H.mode c)) := by
      split at hr
      · subst hr; exact hb
      · rw [baginfo_kept hr (by rw [hb]; simp), hb]
    have hb2 : dget x [py!"bag-info.txt"] = some (.file (copiedText H.mode c)) := by
      rw [baginfo_members hx (by rw [hb1]; simp), hb1]
    have hnd : x.isdir [py!"bag-info.txt"] = false := by
      cases hh : x.isdir [py!"bag-info.txt"] with
      | false => rfl
      | true =>
        rcases isdir_iff.1 hh with k | k
        · cases k
        · rw [hb2] at k; cases k
    have hroot : x.isdir (List.dropLast [py!"bag-info.txt"]) = true := isdir_iff.2 (.inl rfl)
    simp only [Tree.write, hnd, hroot, Bool.not_true, Bool.or_self, if_neg Bool.false_ne_true]
    rw [Sim.dset_self hb2]
  have h2 : (if H.path = E.base.bagpath then .ok x else restoreFrom E ⟨H.path, H.tree⟩ skip false x) = .ok x := by
    split at hr
    · rename_i e; rw [if_pos e]
    · rename_i e
      rw [if_neg e]
      exact restoreFrom_again hr (restoreMembers_grows hx)
  unfold startRestore
  cases ha : H.tree.read aggregationInfo with
  | none => exact h2
  | some c =>
    simp only [h1 c ha]
    exact h2

/-- A member that is not found comes after members that are. -/
theorem first_missing {find : Str → Option RSource} {names : List Str} {n : Str} (hn : n ∈ names) (hm : find n = none) :
    ∃ pre m post, names = pre ++ m :: post ∧ find m = none ∧ ∀ k ∈ pre, find k ≠ none := by
  induction names with
  | nil => cases hn
  | cons k names ih =>
    cases hk : find k with
    | none => exact ⟨[], k, names, rfl, hk, fun _ h => by cases h⟩
    | some s =>
      rcases List.mem_cons.1 hn with rfl | hn
      · rw [hm] at hk; cases hk
      · obtain ⟨pre, m, post, e, h1, h2⟩ := ih hn
        refine ⟨k :: pre, m, post, by rw [e]; rfl, h1, fun j hj => ?_⟩
        rcases List.mem_cons.1 hj with rfl | hj
        · rw [hk]; simp
        · exact h2 j hj

theorem restoreMembers_sub {E : RestoreEnv} {find' : Str → Option RSource} {skip : List Str} {names : List Str}
    (h : ∀ k ∈ names, find' k = E.find k) (d : Tree) :
    restoreMembers { E with find := find' } skip names d = restoreMembers E skip names d := by
  induction names generalizing d with
  | nil => rfl
  | cons n names ih =>
    have h1 : restoreMember { E with find := find' } n skip false d = restoreMember E n skip false d := by
      unfold restoreMember
      show (match find' n with | none => _ | some src => _) = _
      rw [h n List.mem_cons_self]
      rfl
    simp only [restoreMembers, h1]
    cases restoreMember E n skip false d with
    | error e => rfl
    | ok d1 => exact ih (fun k hk => h k (List.mem_cons_of_mem _ hk)) d1

theorem membersStates_ne_nil (E : RestoreEnv) (skip : List Str) (names : List Str) (d : Tree) :
    restoreMembersStates E skip names d ≠ [] := by
  cases names with
  | nil => simp [restoreMembersStates]
  | cons n names =>
    simp only [restoreMembersStates]
    cases E.find n with
    | none => simp
    | some src =>
      simp only
      intro h
      have := (List.append_eq_nil_iff.1 h).1
      unfold restoreFromStates at this
      split at this
      · cases this
      · split at this
        · cases this
        · have := (List.append_eq_nil_iff.1 this).1
          revert this
          cases actsOf skip (E.walk src.tree) <;> simp [actStates]

theorem membersStates_last {E : RestoreEnv} {skip : List Str} {pre post : List Str} {m : Str} {d x : Tree}
    (h : restoreMembers E skip pre d = .ok x) (hm : E.find m = none) :
    (restoreMembersStates E skip (pre ++ m :: post) d).getLast? = some x ∧
    restoreMembers E skip (pre ++ m :: post) d = .error .osError := by
  induction pre generalizing d with
  | nil =>
    cases h
    simp [restoreMembersStates, restoreMembers, restoreMember, hm]
  | cons n pre ih =>
    simp only [restoreMembers, restoreMember] at h
    simp only [List.cons_append, restoreMembersStates, restoreMembers, restoreMember]
    cases hf : E.find n with
    | none => rw [hf] at h; cases h
    | some src =>
      rw [hf] at h
      simp only at h ⊢
      cases h1 : restoreFrom E src skip false d with
      | error e => rw [h1] at h; cases h
      | ok d1 =>
        rw [h1] at h
        simp only
        obtain ⟨k1, k2⟩ := ih h
        rw [List.getLast?_append, k1]
        exact ⟨rfl, k2⟩

/-- C104: if a restore to a directory other than the head bag's fails because member bags cannot be found, it raises an
error and leaves a state from which, when the missing bags are supplied, running it again gives exactly what a restore
gives that has all member bags from the start: files, manifests, metadata and fetch list. -/
theorem C104_supplied {E : RestoreEnv} {find' : Str → Option RSource}
    (hsub : ∀ n s, E.find n = some s → find' n = some s) {H : RHead} (_ho : H.path ≠ E.base.bagpath) {us rm : Bool}
    {d out : Tree} (h : restore { E with find := find' } H us rm d = .ok out)
    {ms : List MemberInfo} (hms : iterMembers H.mode H.tree H.info = .ok ms)
    (hmiss : ∃ n ∈ otherMembers H (ms.map (fun m => m.name)), E.find n = none) :
    restore E H us rm d = .error .osError ∧
    ∃ x, (restoreStates E H us rm d).getLast? = some x ∧ restore { E with find := find' } H us rm x = .ok out := by
  obtain ⟨deleted, ms', d1, d2, d3, e1, e2, e3, e4, e5, e6⟩ := restore_parts h
  rw [hms] at e2
  cases e2
  have e3' : startRestore E H (pySet deleted) d = .ok d1 := e3
  obtain ⟨n, hn, hmn⟩ := hmiss
  obtain ⟨pre, m, post, hsplit, hm, hpre⟩ := first_missing hn hmn
  rw [hsplit, restoreMembers_append] at e4
  cases hp : restoreMembers { E with find := find' } (pySet deleted) pre d1 with
  | error e => rw [hp] at e4; cases e4
  | ok x =>
    rw [hp] at e4
    simp only at e4
    have hpE : restoreMembers E (pySet deleted) pre d1 = .ok x := by
      rw [← hp]
      refine (restoreMembers_sub (fun k hk => ?_) d1).symm
      cases hf : E.find k with
      | none => exact absurd hf (hpre k hk)
      | some s => exact hsub k s hf
    obtain ⟨l1, l2⟩ := membersStates_last (post := post) hpE hm
    rw [← hsplit] at l1 l2
    refine ⟨?_, x, ?_, ?_⟩
    · unfold restore
      simp only [e1, hms, e3', l2]
    · unfold restoreStates
      simp only [e1, hms, e3', l2, List.append_nil]
      rw [List.getLast?_append, l1]
      rfl
    · have s1 : startRestore { E with find := find' } H (pySet deleted) x = .ok x := startRestore_again e3 hp
      have s2 : restoreMembers { E with find := find' } (pySet deleted) (otherMembers H (ms.map (fun m => m.name))) x = .ok d2 := by
        rw [hsplit, restoreMembers_append, restoreMembers_again hp (Grows.refl x)]
        exact e4
      unfold restore
      simp only [e1, hms, s1, s2]
      rw [e5]
      exact e6

namespace Sample

/-- The sample's store while the member is missing. -/
def renvMissing : RestoreEnv := { renv with find := fun _ => none }

/-- The hypotheses of `C104_supplied` are met. -/
example : restore renvMissing head true true [] = .error .osError ∧
    ∃ x, (restoreStates renvMissing head true true []).getLast? = some x ∧ restore renv head true true x = .ok restored :=
  C104_supplied (E := renvMissing) (find' := renv.find) (fun _ _ h => by cases h) (by decide) restore_sample
    (ms := [⟨py!"m1", none, none, []⟩, ⟨py!"hb", none, none, []⟩]) rfl ⟨py!"m1", by decide, rfl⟩

/-- The sample's head bag, to be restored in place. -/
def headHere : RHead := { head with path := py!"/out" }

/-- What is left of it if the member is missing. -/
def leftHere : Tree :=
  [([py!"bagit.txt"], .file bagitText),
   ([py!"bag-info.txt"], .file py!"Contact-Name: Jo\nMultibag-Version: 0.4\n"),
   ([py!"data"], .dir), ([py!"data", py!"a"], .file py!"new!"),
   ([py!"manifest-md5.txt"], .file py!"d4 data/a\n"),
   ([py!"multibag"], .dir), ([py!"multibag", py!"member-bags.tsv"], .file py!"m1\nhb\n"),
   ([py!"multibag", py!"deleted.txt"], .file py!"data/x\n"),
   ([py!"multibag", py!"aggregation-info.txt"], .file py!"Contact-Name: Jo\nMultibag-Version: 0.4\n")]

end Sample

/-- C104 is false of a restore in place: a head bag that can be restored when its member is there loses its metadata in
a restore that fails because the member is missing.  It does not say any more that it is a head bag, so that no restorer
for its location can be made again. -/
theorem C104_negation_in_place : ∃ (E : RestoreEnv) (find' : Str → Option RSource) (H : RHead) (out x : Tree) (b0 b : RBag),
    (∀ n s, E.find n = some s → find' n = some s) ∧ H.path = E.base.bagpath ∧
    restore { E with find := find' } H true true H.tree = .ok out ∧
    restore E H true true H.tree = .error .osError ∧ (restoreStates E H true true H.tree).getLast? = some x ∧
    openBag E.base H.tree = .ok b0 ∧ dmem b0.info py!"Multibag-Head-Version" = true ∧
    openBag E.base x = .ok b ∧ dmem b.info py!"Multibag-Head-Version" = false ∧
    ∀ (cwd : Str) (disk : Tree) (isHead : Str → Except PyErr Bool) (dest comp : Option Str) (fetcher : Bool),
      diskExists cwd disk H.path = true → isHead H.path = .ok (dmem b.info py!"Multibag-Head-Version") →
      Restorer.make cwd disk isHead (.location H.path) dest comp fetcher = .error .multibagError := by
  obtain ⟨out, h1, -⟩ : ∃ out, restore Sample.renv Sample.headHere true true Sample.hb = .ok out ∧ (true = true) :=
    Sample.ok_of_check (f := fun _ => true) (by decide +kernel)
  obtain ⟨b0, h2, h3⟩ : ∃ b, openBag Sample.renvMissing.base Sample.hb = .ok b ∧
      dmem b.info py!"Multibag-Head-Version" = true :=
    Sample.ok_of_check (f := fun (b : RBag) => dmem b.info py!"Multibag-Head-Version") (by decide +kernel)
  obtain ⟨b, h4, h5⟩ : ∃ b, openBag Sample.renvMissing.base Sample.leftHere = .ok b ∧
      (!dmem b.info py!"Multibag-Head-Version") = true :=
    Sample.ok_of_check (f := fun (b : RBag) => !dmem b.info py!"Multibag-Head-Version") (by decide +kernel)
  have h5 : dmem b.info py!"Multibag-Head-Version" = false := by simpa using h5
  refine ⟨Sample.renvMissing, Sample.renv.find, Sample.headHere, out, Sample.leftHere, b0, b, (by intro n s h; cases h), rfl,
    h1, by rfl, by decide +kernel, h2, h3, h4, h5, ?_⟩
  intro cwd disk isHead dest comp fetcher hex hi
  rw [h5] at hi
  unfold Restorer.make
  simp only [hex, hi, Bool.not_true, if_neg Bool.false_ne_true]

end Verif
