import Verif.Model.RestoreStopped
import Verif.Lemmas.AmendStopped
import Verif.Lemmas.RestoreWhole
/-!
# What the states during a restore have in common
-/

namespace Verif

open Spec

theorem special_manifest (a : Str) : Special (manPath py!"manifest" a) := .inr (.inr (.inr (.inl ⟨a, .inl rfl⟩)))

theorem special_tagmanifest (a : Str) : Special (manPath py!"tagmanifest" a) := .inr (.inr (.inr (.inl ⟨a, .inr rfl⟩)))

/-! ## Manifests -/

theorem writeManifestStates_same {d x : Tree} {kind alg : Str} {es : List (Str × Str)} (hk : Special (manPath kind alg))
    (hx : x ∈ writeManifestStates d kind alg es) : EqOutside Special d x := by
  unfold writeManifestStates at hx
  split at hx
  · rw [List.mem_singleton] at hx
    subst hx
    exact EqOutside.refl _
  · exact eqOutside_torn hk hx

theorem writeManifest_same {d x : Tree} {kind alg : Str} {es : List (Str × Str)} (hk : Special (manPath kind alg))
    (hx : writeManifest d kind alg es = .ok x) : EqOutside Special d x := by
  unfold writeManifest at hx
  split at hx
  · cases hx; exact EqOutside.refl _
  · exact EqOutside.write hx hk

theorem writeManifestsStates_same {m : ByAlg} {d x : Tree} (hx : x ∈ writeManifestsStates d m) : EqOutside Special d x := by
  induction m generalizing d with
  | nil =>
    simp only [writeManifestsStates, List.mem_singleton] at hx
    subst hx
    exact EqOutside.refl _
  | cons am m ih =>
    obtain ⟨alg, ps⟩ := am
    simp only [writeManifestsStates, List.mem_append] at hx
    rcases hx with hx | hx
    · exact writeManifestStates_same (special_manifest alg) hx
    · split at hx
      · cases hx
      · rename_i d1 h1
        have e1 := writeManifest_same (special_manifest alg) h1
        rcases List.mem_append.1 hx with hx | hx
        · exact e1.trans (writeManifestStates_same (special_tagmanifest alg) hx)
        · split at hx
          · cases hx
          · rename_i d2 h2
            exact (e1.trans (writeManifest_same (special_tagmanifest alg) h2)).trans (ih hx)

theorem updateManifestsStates_same {cfg : ReadCfg} {es : Entries} {upd : List Str} {d x : Tree}
    (hx : x ∈ updateManifestsStates cfg es upd d) : EqOutside Special d x := by
  unfold updateManifestsStates at hx
  split at hx
  · rw [List.mem_singleton] at hx
    subst hx
    exact EqOutside.refl _
  · split at hx
    · rw [List.mem_singleton] at hx
      subst hx
      exact EqOutside.refl _
    · exact writeManifestsStates_same hx

/-! ## The end -/

theorem infoPath_special {p : Path} (h : InfoPath p) : Special p := by
  rcases h with rfl | ⟨a, rfl⟩
  · exact .inl rfl
  · exact special_tagmanifest a

theorem tagName_special {f : Str} (h : TagName f) : Special [f] := by
  rcases h with rfl | rfl
  · exact .inl rfl
  · exact .inr (.inl rfl)

theorem saveBagStates_same {E : RestoreEnv} {b : RBag} (hb : TagName b.tagFile) {x : Tree} (hx : x ∈ saveBagStates E b) :
    EqOutside Special b.tree x := by
  unfold saveBagStates at hx
  rw [List.cons_append, List.mem_cons, List.mem_append] at hx
  rcases hx with rfl | hx | hx
  · exact EqOutside.refl _
  · exact eqOutside_torn (tagName_special hb) hx
  · split at hx
    · cases hx
    · rename_i t h
      exact (EqOutside.write h (tagName_special hb)).trans
        ((manifests_same _ _ _ x hx).mono (fun _ => infoPath_special))

theorem rmtreeStates_same {t x : Tree} {p : Path} (hx : x ∈ t.rmtreeStates p) : EqOutside (fun q => p <+: q) t x := by
  unfold Tree.rmtreeStates at hx
  simp only [List.mem_map, List.mem_range] at hx
  obtain ⟨n, -, rfl⟩ := hx
  intro q hq
  have hv : q ∉ (((t.filter (fun e => p.isPrefixOf e.1)).map Prod.fst).reverse).take n := by
    intro h
    have := List.mem_of_mem_take h
    rw [List.mem_reverse, List.mem_map] at this
    obtain ⟨e, he, rfl⟩ := this
    rw [List.mem_filter] at he
    exact hq (List.isPrefixOf_iff_prefix.1 he.2)
  generalize (((t.filter (fun e => p.isPrefixOf e.1)).map Prod.fst).reverse).take n = v at hv
  induction t with
  | nil => rfl
  | cons e t ih =>
    rw [List.filter_cons]
    split
    · simp only [dget]
      split
      · rfl
      · exact ih
    · rename_i hm
      have hne : e.1 ≠ q := by
        intro e'
        apply hm
        rw [decide_eq_true_eq, e']
        exact hv
      rw [ih]
      simp only [dget]
      rw [if_neg hne]

theorem removeTags_same {E : RestoreEnv} {b b' : RBag} (hb : SaveOk E b) (h : removeTags E b = .ok b') :
    EqOutside Special b.tree b'.tree ∧ SaveOk E b' := by
  unfold removeTags at h
  split at h
  · cases h
  · rename_i t ht
    have hs : SaveOk E { b with tree := t, info := multibagKeys.foldl ddel b.info } := ⟨hb.tag, hb.algs⟩
    obtain ⟨h1, _, _, h4, _⟩ := saveBag_spec h hs
    refine ⟨fun p hp => ?_, h1⟩
    rw [h4 p (special_saved hb.tag hp), rmtree_dget ht, if_neg]
    exact fun h => hp (.inr (.inr (.inr (.inr (by simpa using h)))))

theorem removeTagsStates_same {E : RestoreEnv} {b : RBag} (hb : TagName b.tagFile) {x : Tree} (hx : x ∈ removeTagsStates E b) :
    EqOutside Special b.tree x := by
  unfold removeTagsStates at hx
  split at hx
  · rw [List.mem_singleton] at hx
    subst hx
    exact EqOutside.refl _
  · rename_i t ht
    rcases List.mem_append.1 hx with hx | hx
    · exact (rmtreeStates_same hx).mono (fun p h => .inr (.inr (.inr (.inr h))))
    · refine EqOutside.trans (fun p hp => ?_) (saveBagStates_same (b := { b with tree := t, info := multibagKeys.foldl ddel b.info }) hb hx)
      show dget t p = _
      rw [rmtree_dget ht, if_neg]
      exact fun h => hp (.inr (.inr (.inr (.inr (by simpa using h)))))

theorem updateSizesStates_same {E : RestoreEnv} {b : RBag} (hb : SaveOk E b) {x : Tree} (hx : x ∈ updateSizesStates E b) :
    EqOutside Special b.tree x := by
  unfold updateSizesStates at hx
  simp only [List.mem_append] at hx
  have hs : SaveOk E { b with info := dset b.info py!"Payload-Oxum" (.one (oxumText E.blen b.tree)) } := ⟨hb.tag, hb.algs⟩
  rcases hx with hx | hx
  · exact saveBagStates_same (b := { b with info := dset b.info py!"Payload-Oxum" (.one (oxumText E.blen b.tree)) }) hb.tag hx
  · split at hx
    · cases hx
    · rename_i b1 h1
      obtain ⟨k1, k2, _, k4, _⟩ := saveBag_spec h1 hs
      refine EqOutside.trans (fun p hp => k4 p (special_saved hb.tag hp))
        (saveBagStates_same (b := { b1 with info := dset b1.info py!"Bag-Size" (.one (E.sizeText b1.tree b1.info)) }) k1.tag hx)

theorem finishStates_same {E : RestoreEnv} {us rm : Bool} {d x : Tree} (hx : x ∈ finishRestoreStates E us rm d) :
    EqOutside Special d x := by
  unfold finishRestoreStates at hx
  cases hb : openBag E.base d with
  | error e =>
    rw [hb] at hx
    rw [List.mem_singleton.1 hx]
    exact EqOutside.refl _
  | ok b =>
    rw [hb] at hx
    obtain ⟨hbt, hbl, htf, _⟩ := openBag_parts hb
    have hb0 : SaveOk E b := ⟨tagFileName_cases htf, algorithms_sub hbl⟩
    simp only [List.mem_append] at hx
    rw [← hbt]
    rcases hx with hx | hx
    · split at hx
      · exact removeTagsStates_same hb0.tag hx
      · rw [List.mem_singleton.1 hx]
        exact EqOutside.refl _
    · split at hx
      · cases hx
      · rename_i b1 h1
        have hb1 : EqOutside Special b.tree b1.tree ∧ SaveOk E b1 := by
          split at h1
          · exact removeTags_same hb0 h1
          · cases h1; exact ⟨EqOutside.refl _, hb0⟩
        split at hx
        · exact hb1.1.trans (updateSizesStates_same hb1.2 hx)
        · rw [List.mem_singleton.1 hx]
          exact hb1.1

/-! ## Copying -/

/-- The states while copying: some operations are done, and one file may have arrived in part. -/
theorem actStates_cases {src : Tree} {acts : List Act} {s : Copying} {x : Tree} (hx : x ∈ actStates false src acts s) :
    ∃ done later s', acts = done ++ later ∧ runActs false src done s = .ok s' ∧
      (x = s'.dest ∨ ∃ q c k, .file q ∈ later ∧ s'.dest.exists q = false ∧ src.read q = some c ∧
        s'.dest.write q (c.take k) = .ok x) := by
  induction acts generalizing s with
  | nil =>
    simp only [actStates, List.mem_singleton] at hx
    exact ⟨[], [], s, rfl, rfl, .inl hx⟩
  | cons a acts ih =>
    simp only [actStates, List.cons_append, List.mem_cons, List.mem_append] at hx
    rcases hx with hx | hx | hx
    · exact ⟨[], a :: acts, s, rfl, rfl, .inl hx⟩
    · cases a with
      | stat p => cases hx
      | dir p => cases hx
      | file p =>
        simp only [actTorn, Bool.false_and, if_neg Bool.false_ne_true, List.mem_cons] at hx
        rcases hx with hx | hx
        · exact ⟨[], .file p :: acts, s, rfl, rfl, .inl hx⟩
        · split at hx
          · cases hx
          · rename_i hne
            split at hx
            · cases hx
            · rename_i c hc
              obtain ⟨k, _, hk⟩ := mem_tornWrites.1 hx
              exact ⟨[], .file p :: acts, s, rfl, rfl, .inr ⟨p, c, k, List.mem_cons_self, by simpa using hne, hc, hk⟩⟩
    · cases hd : doAct false src s a with
      | error e => rw [hd] at hx; cases hx
      | ok s1 =>
        rw [hd] at hx
        obtain ⟨done, later, s', e, hr, hcase⟩ := ih hx
        refine ⟨a :: done, later, s', by rw [e]; rfl, ?_, hcase⟩
        simp only [runActs, hd]
        exact hr

/-! ## How far a restore has come -/

/-- What a destination holds when restoring from the bags of `l` to `d` has come to some point: each path is as at the
start or as the first of the bags that has it; one file may have arrived in part. -/
def Stage (skip : List Str) (d : Tree) (l : List RSource) (x : Tree) : Prop :=
  ∃ q, ∀ p, p ≠ [] → ¬ Special p → dget x p = dget d p ∨
    (dget d p = none ∧ ¬ Deleted skip p ∧
      (dget x p = firstAt l p ∨ (p = q ∧ ∃ c k, firstAt l p = some (.file c) ∧ dget x p = some (.file (c.take k)))))

/-- All bags of `l` are copied. -/
def Whole (skip : List Str) (d : Tree) (l : List RSource) (x : Tree) : Prop :=
  ∀ p, p ≠ [] → ¬ Special p → (dget d p ≠ none → dget x p = dget d p) ∧
    (dget d p = none → Deleted skip p → dget x p = none) ∧
    (dget d p = none → ¬ Deleted skip p → dget x p = firstAt l p)

theorem Stage.init (skip : List Str) {d x : Tree} (l : List RSource) (h : EqOutside Special d x) : Stage skip d l x :=
  ⟨[], fun p _ hp => .inl (h p hp)⟩

theorem Whole.nil (skip : List Str) {d x : Tree} (h : EqOutside Special d x) : Whole skip d [] x :=
  fun p _ hp => ⟨fun _ => h p hp, fun e _ => (h p hp).trans e, fun e _ => (h p hp).trans e⟩

theorem Stage.outside {skip : List Str} {d x y : Tree} {l : List RSource} (h : Stage skip d l x) (hy : EqOutside Special x y) :
    Stage skip d l y := by
  obtain ⟨q, h⟩ := h
  refine ⟨q, fun p hne hp => ?_⟩
  rw [hy p hp]
  exact h p hne hp

theorem Whole.outside {skip : List Str} {d x y : Tree} {l : List RSource} (h : Whole skip d l x) (hy : EqOutside Special x y) :
    Whole skip d l y := by
  intro p hne hp
  rw [hy p hp]
  exact h p hne hp

theorem Whole.stage {skip : List Str} {d x : Tree} {l : List RSource} (h : Whole skip d l x) : Stage skip d l x := by
  refine ⟨[], fun p hne hp => ?_⟩
  obtain ⟨h1, h2, h3⟩ := h p hne hp
  by_cases hd : dget d p = none
  · by_cases hx : Deleted skip p
    · exact .inl ((h2 hd hx).trans hd.symm)
    · exact .inr ⟨hd, hx, .inl (h3 hd hx)⟩
  · exact .inl (h1 hd)

theorem firstAt_cat (l m : List RSource) (p : Path) : firstAt (l ++ m) p = (firstAt l p).or (firstAt m p) := by
  induction l with
  | nil => simp [firstAt]
  | cons s l ih => simp only [List.cons_append, firstAt, ih, Option.or_assoc]

theorem Whole.then {skip : List Str} {d d1 x : Tree} {l m : List RSource} (h1 : Whole skip d l d1) (h2 : Stage skip d1 m x) :
    Stage skip d (l ++ m) x := by
  obtain ⟨q, h2⟩ := h2
  refine ⟨q, fun p hne hp => ?_⟩
  obtain ⟨w1, w2, w3⟩ := h1 p hne hp
  rw [firstAt_cat]
  by_cases hd : dget d p = none
  · rcases h2 p hne hp with e | ⟨e, hx, h⟩
    · by_cases hx : Deleted skip p
      · exact .inl ((e.trans (w2 hd hx)).trans hd.symm)
      · cases hf : firstAt l p with
        | none => exact .inl ((e.trans (w3 hd hx)).trans (hf.trans hd.symm))
        | some n => exact .inr ⟨hd, hx, .inl ((e.trans (w3 hd hx)).trans hf)⟩
    · rw [w3 hd hx] at e
      rw [e, Option.none_or]
      exact .inr ⟨hd, hx, h⟩
  · rcases h2 p hne hp with e | ⟨e, _, _⟩
    · exact .inl (e.trans (w1 hd))
    · rw [w1 hd] at e
      exact absurd e hd

/-- A stage with fewer bags is one with more. -/
theorem Stage.more {skip : List Str} {d x : Tree} {l : List RSource} (h : Stage skip d l x) (m : List RSource) :
    Stage skip d (l ++ m) x := by
  obtain ⟨q, h⟩ := h
  refine ⟨q, fun p hne hp => ?_⟩
  rw [firstAt_cat]
  rcases h p hne hp with e | ⟨e, hx, e' | ⟨rfl, c, k, hc, e'⟩⟩
  · exact .inl e
  · cases hf : firstAt l p with
    | none => exact .inl (e'.trans (hf.trans e.symm))
    | some n => exact .inr ⟨e, hx, .inl (e'.trans hf)⟩
  · exact .inr ⟨e, hx, .inr ⟨rfl, c, k, by rw [hc]; rfl, e'⟩⟩

theorem restoreFrom_whole {E : RestoreEnv} (hE : EnvOk E) {src : RSource} (hs : WfTree src.tree) {skip : List Str}
    (he : [] ∉ skip) {d d' : Tree} (h : restoreFrom E src skip false d = .ok d') (hp : src.path ≠ E.base.bagpath) :
    Whole skip d [src] d' := by
  intro p hne hs'
  have hm : ¬ ManifestFile p := fun hm => hs' (.inr (.inr (.inr (.inl hm))))
  have := restoreFrom_read hE hs he h hp hne hm
  refine ⟨this.1, this.2.1, fun h1 h2 => ?_⟩
  rw [this.2.2 h1 h2]
  simp [firstAt]

theorem actStates_stage {E : RestoreEnv} (hE : EnvOk E) {src : RSource} (hs : WfTree src.tree) {skip : List Str}
    (he : [] ∉ skip) {d x : Tree} {u : List Str}
    (hx : x ∈ actStates false src.tree (actsOf skip (E.walk src.tree)) ⟨d, u⟩) : Stage skip d [src] x := by
  obtain ⟨done, later, s', e, hr, hcase⟩ := actStates_cases hx
  have ha := actsOf_ok hs (hE.walk _ hs) he
  have hw := hE.walk _ hs
  have hdone : ∀ a ∈ done, a ∈ actsOf skip (E.walk src.tree) := fun a h => by rw [e]; exact List.mem_append_left _ h
  have hlater : ∀ a ∈ later, a ∈ actsOf skip (E.walk src.tree) := fun a h => by rw [e]; exact List.mem_append_right _ h
  have at' : ∀ p, p ≠ [] → dget s'.dest p = dget d p ∨
      (dget d p = none ∧ ¬ Deleted skip p ∧ dget s'.dest p = firstAt [src] p) := by
    intro p hne
    have h1 := runActs_ok (ha.mono hdone) hr hne
    unfold actEffect at h1
    by_cases hf : .file p ∈ done ∧ (false = true ∨ dget d p = none)
    · rw [if_pos hf] at h1
      obtain ⟨hf, hn⟩ := hf
      obtain ⟨hi, hdel⟩ := (file_mem_acts hs hw he).1 (hdone _ hf)
      obtain ⟨c, hc⟩ := isfile_iff.1 hi
      refine .inr ⟨hn.resolve_left Bool.false_ne_true, hdel, ?_⟩
      rw [h1]
      simp [firstAt, Tree.read, hc]
    · rw [if_neg hf] at h1
      by_cases hd : .dir p ∈ done ∧ dget d p = none
      · rw [if_pos hd] at h1
        obtain ⟨_, hi, hdel⟩ := (dir_mem_acts hs hw he).1 (hdone _ hd.1)
        refine .inr ⟨hd.2, hdel, ?_⟩
        rw [h1]
        rcases isdir_iff.1 hi with k | k
        · exact absurd k hne
        · simp [firstAt, k]
      · rw [if_neg hd] at h1
        exact .inl h1
  rcases hcase with rfl | ⟨q, c, k, hq, hne', hc, hwr⟩
  · refine ⟨[], fun p hne _ => ?_⟩
    rcases at' p hne with h | ⟨h1, h2, h3⟩
    · exact .inl h
    · exact .inr ⟨h1, h2, .inl h3⟩
  · obtain ⟨rfl, _⟩ := Tree.write_ok hwr
    obtain ⟨hi, hdel⟩ := (file_mem_acts hs hw he).1 (hlater _ hq)
    refine ⟨q, fun p hne _ => ?_⟩
    rw [dget_dset]
    by_cases hpq : q = p
    · subst hpq
      rw [if_pos rfl]
      have hnone : dget s'.dest q = none := by
        cases hg : dget s'.dest q with
        | none => rfl
        | some n =>
          have := (exists_iff hne).2 (by rw [hg]; simp : dget s'.dest q ≠ none)
          rw [hne'] at this
          cases this
      have hf : firstAt [src] q = some (.file c) := by
        obtain ⟨c', hc'⟩ := isfile_iff.1 hi
        rw [Tree.read, hc'] at hc
        cases hc
        simp [firstAt, hc']
      have hd : dget d q = none := by
        rcases at' q hne with h | ⟨h, _, _⟩
        · exact h.symm.trans hnone
        · exact h
      exact .inr ⟨hd, hdel, .inr ⟨rfl, c, k, hf, rfl⟩⟩
    · rw [if_neg hpq]
      rcases at' p hne with h | ⟨h1, h2, h3⟩
      · exact .inl h
      · exact .inr ⟨h1, h2, .inl h3⟩

theorem runActs_last {src : Tree} {acts : List Act} {s s' : Copying} (h : runActs false src acts s = .ok s') :
    s'.dest ∈ actStates false src acts s := by
  induction acts generalizing s with
  | nil => cases h; exact List.mem_singleton.2 rfl
  | cons a acts ih =>
    simp only [runActs] at h
    cases hd : doAct false src s a with
    | error e => rw [hd] at h; cases h
    | ok s1 =>
      rw [hd] at h
      simp only [actStates, hd]
      exact List.mem_append_right _ (ih h)

theorem restoreFromStates_stage {E : RestoreEnv} (hE : EnvOk E) {src : RSource} (hs : WfTree src.tree) {skip : List Str}
    (he : [] ∉ skip) {d x : Tree} (hx : x ∈ restoreFromStates E src skip false d) : Stage skip d [src] x := by
  unfold restoreFromStates at hx
  split at hx
  · rw [List.mem_singleton.1 hx]
    exact Stage.init _ _ (EqOutside.refl _)
  · split at hx
    · rw [List.mem_singleton.1 hx]
      exact Stage.init _ _ (EqOutside.refl _)
    · rename_i sb hb
      rcases List.mem_append.1 hx with hx | hx
      · exact actStates_stage hE hs he hx
      · split at hx
        · cases hx
        · rename_i s hr
          have h1 := actStates_stage hE hs he (runActs_last hr)
          split at hx
          · rw [List.mem_singleton.1 hx]
            exact h1
          · exact h1.outside (updateManifestsStates_same hx)

theorem membersStates_stage {E : RestoreEnv} (hE : EnvOk E) {skip : List Str} (he : [] ∉ skip) {names : List Str}
    {srcs : List RSource} {find' : Str → Option RSource} (hsub : ∀ n s, E.find n = some s → find' n = some s)
    (hf : Forall₂ (fun n s => find' n = some s) names srcs)
    (hs : ∀ s ∈ srcs, WfTree s.tree ∧ s.path ≠ E.base.bagpath) {d x : Tree}
    (hx : x ∈ restoreMembersStates E skip names d) : Stage skip d srcs x := by
  induction hf generalizing d with
  | nil =>
    rw [List.mem_singleton.1 hx]
    exact Stage.init _ _ (EqOutside.refl _)
  | @cons n s names srcs hn hf ih =>
    simp only [restoreMembersStates] at hx
    cases hfind : E.find n with
    | none =>
      rw [hfind] at hx
      rw [List.mem_singleton.1 hx]
      exact Stage.init _ _ (EqOutside.refl _)
    | some src =>
      have : src = s := by
        have := hsub n src hfind
        rw [hn] at this
        injection this with this
        exact this.symm
      subst this
      rw [hfind] at hx
      simp only at hx
      obtain ⟨hw, ho⟩ := hs src List.mem_cons_self
      rcases List.mem_append.1 hx with hx | hx
      · exact (restoreFromStates_stage hE hw he hx).more srcs
      · split at hx
        · cases hx
        · rename_i d1 h1
          exact (restoreFrom_whole hE hw he h1 ho).then (ih (fun s hs' => hs s (List.mem_cons_of_mem _ hs')) hx)

theorem Whole.trans {skip : List Str} {d d1 x : Tree} {l m : List RSource} (h1 : Whole skip d l d1) (h2 : Whole skip d1 m x) :
    Whole skip d (l ++ m) x := by
  intro p hne hp
  obtain ⟨a1, a2, a3⟩ := h1 p hne hp
  obtain ⟨b1, b2, b3⟩ := h2 p hne hp
  refine ⟨fun hd => ?_, fun hd hx => b2 (a2 hd hx) hx, fun hd hx => ?_⟩
  · rw [b1 (by rw [a1 hd]; exact hd), a1 hd]
  · have e := a3 hd hx
    rw [firstAt_cat]
    cases hg : firstAt l p with
    | none => rw [hg] at e; rw [b3 e hx, Option.none_or]
    | some n => rw [hg] at e; rw [b1 (by rw [e]; simp), e]; rfl

theorem members_whole {E : RestoreEnv} (hE : EnvOk E) {skip : List Str} (he : [] ∉ skip) {names : List Str}
    {srcs : List RSource} {find' : Str → Option RSource} (hsub : ∀ n s, E.find n = some s → find' n = some s)
    (hf : Forall₂ (fun n s => find' n = some s) names srcs)
    (hs : ∀ s ∈ srcs, WfTree s.tree ∧ s.path ≠ E.base.bagpath) {d x : Tree}
    (hx : restoreMembers E skip names d = .ok x) : Whole skip d srcs x := by
  induction hf generalizing d with
  | nil =>
    cases hx
    exact Whole.nil _ (EqOutside.refl _)
  | @cons n s names srcs hn hf ih =>
    simp only [restoreMembers, restoreMember] at hx
    cases hfind : E.find n with
    | none => rw [hfind] at hx; cases hx
    | some src =>
      have : src = s := by
        have := hsub n src hfind
        rw [hn] at this
        injection this with this
        exact this.symm
      subst this
      rw [hfind] at hx
      simp only at hx
      obtain ⟨hw, ho⟩ := hs src List.mem_cons_self
      cases h1 : restoreFrom E src skip false d with
      | error e => rw [h1] at hx; cases hx
      | ok d1 =>
        rw [h1] at hx
        exact (restoreFrom_whole hE hw he h1 ho).trans (ih (fun s hs' => hs s (List.mem_cons_of_mem _ hs')) hx)

/-- Whatever a restore to a directory other than the head bag's has done so far: no more than what a restore with all
members would do. -/
theorem restoreStates_stage {E : RestoreEnv} (hE : EnvOk E) {H : RHead} {us rm : Bool} {d x : Tree}
    {find' : Str → Option RSource} (hsub : ∀ n s, E.find n = some s → find' n = some s)
    {deleted : List Str} (hd : iterDeleted H.mode H.tree H.info = .ok deleted)
    {ms : List MemberInfo} (hm : iterMembers H.mode H.tree H.info = .ok ms) {srcs : List RSource}
    (hf : Forall₂ (fun n s => find' n = some s) (otherMembers H (ms.map (fun m => m.name))) srcs)
    (hH : WfTree H.tree) (hs : ∀ s ∈ srcs, WfTree s.tree ∧ s.path ≠ E.base.bagpath)
    (hx : x ∈ restoreStates E H us rm d) : Stage (pySet deleted) d (sourcesOf E H srcs) x := by
  have hnil : [] ∉ pySet deleted := by
    rw [mem_pySet]; exact nil_notMem_deleted hd
  unfold restoreStates at hx
  rw [hd] at hx
  simp only [hm] at hx
  have init : ∀ (d0 : Tree), (match H.tree.read aggregationInfo with
      | none => .ok d
      | some c => d.write [py!"bag-info.txt"] (copiedText H.mode c)) = Except.ok d0 → EqOutside Special d d0 := by
    intro d0 h
    split at h
    · cases h; exact EqOutside.refl _
    · exact EqOutside.write h (.inl rfl)
  rcases List.mem_append.1 hx with hx | hx
  · unfold startRestoreStates at hx
    rw [List.cons_append, List.mem_cons, List.mem_append] at hx
    rcases hx with rfl | hx | hx
    · exact Stage.init _ _ (EqOutside.refl _)
    · split at hx
      · cases hx
      · exact Stage.init _ _ (eqOutside_torn (.inl rfl) hx)
    · split at hx
      · cases hx
      · rename_i d0 h0
        have e0 := init d0 h0
        unfold sourcesOf
        split at hx
        · rw [List.mem_singleton.1 hx]
          exact Stage.init _ _ e0
        · rename_i ho
          rw [if_neg ho]
          exact ((Whole.nil _ e0).then (restoreFromStates_stage hE hH hnil hx)).more srcs
  · cases h1 : startRestore E H (pySet deleted) d with
    | error e => rw [h1] at hx; cases hx
    | ok d1 =>
      rw [h1] at hx
      simp only at hx
      obtain ⟨pre, hpre, hw1⟩ : ∃ pre, sourcesOf E H srcs = pre ++ srcs ∧ Whole (pySet deleted) d pre d1 := by
        obtain ⟨d0, hi, hr⟩ := startRestore_parts h1
        have e0 : EqOutside Special d d0 := fun p hp => (startRestore_init hi).1 p (fun e => hp (.inl e))
        unfold sourcesOf
        split at hr
        · rename_i ho
          rw [if_pos ho]
          subst hr
          exact ⟨[], rfl, Whole.nil _ e0⟩
        · rename_i ho
          rw [if_neg ho]
          exact ⟨[⟨H.path, H.tree⟩], rfl, (Whole.nil _ e0).trans (restoreFrom_whole hE hH hnil hr ho)⟩
      rw [hpre]
      rcases List.mem_append.1 hx with hx | hx
      · exact hw1.then (membersStates_stage hE hnil hsub hf hs hx)
      · cases h2 : restoreMembers E (pySet deleted) (otherMembers H (ms.map (fun m => m.name))) d1 with
        | error e => rw [h2] at hx; cases hx
        | ok d2 =>
          rw [h2] at hx
          simp only at hx
          have hw2 := (hw1.trans (members_whole hE hnil hsub hf hs h2)).stage
          rcases List.mem_append.1 hx with hx | hx
          · split at hx
            · rw [List.mem_singleton.1 hx]
              exact hw2
            · refine hw2.outside ?_
              unfold restoreFetchStates at hx
              split at hx
              · rw [List.mem_singleton.1 hx]; exact EqOutside.refl _
              · rw [List.mem_singleton.1 hx]; exact EqOutside.refl _
              · exact eqOutside_torn (.inr (.inr (.inl rfl))) hx
          · cases h3 : (if otherMembers H (ms.map (fun m => m.name)) = [] then Except.ok d2
                else restoreFetch E (otherMembers H (ms.map (fun m => m.name))) d2) with
            | error e => rw [h3] at hx; cases hx
            | ok d3 =>
              rw [h3] at hx
              have e3 : EqOutside Special d2 d3 := fun p hp => (fetchStep_frame h3).1 p (fun e => hp (.inr (.inr (.inl e))))
              exact hw2.outside (e3.trans (finishStates_same hx))

end Verif
