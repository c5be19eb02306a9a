import Verif.Lemmas.RestoreShared
/-!
# Restores operation by operation, and as a whole (for C120)
-/

namespace Verif
open Spec

section
variable {W : Tree} {D : Path} {R : List Path}

theorem holding_exists {d t : Tree} (h : Holding W D R (made d) t) (p : Path) : t.exists (D ++ p) = d.exists p :=
  holds_exists (u := d) (holds_below h.here) h.isdir p

variable (hD : D ≠ []) (hap : ∀ r ∈ R, ¬ D <+: r ∧ ¬ r <+: D)
include hD hap

theorem sure_acts {src : Tree → Option Tree} {S : Tree} (hs : ∀ d t, Holding W D R (made d) t → src t = some S) (as : List Act)
    (d : Tree) (u : List Str) :
    Sure (Holding W D R) (actsDoing D src as u) (made d) ((runActs false S as ⟨d, u⟩).map (fun s => (s.updated, made s.dest))) := by
  induction as generalizing d u with
  | nil => exact sure_ret _ _
  | cons a as ih =>
    unfold actsDoing runActs
    cases a with
    | stat p =>
      simp only [actDoing, doAct]
      refine sure_asked (x := if d.exists p then .ok [] else .error .osError) (fun t hi => ?_) (fun e he => ?_) (fun l hl => ?_)
      · rw [holding_exists hi]
      · by_cases hx : d.exists p = true
        · rw [if_pos hx] at he; cases he
        · rw [if_neg hx] at he ⊢; cases he; rfl
      · by_cases hx : d.exists p = true
        · rw [if_pos hx] at hl ⊢
          cases hl
          rw [List.append_nil]
          exact ih d u
        · rw [if_neg hx] at hl; cases hl
    | file p =>
      simp only [actDoing, doAct, Bool.false_and, Bool.false_eq_true, if_false]
      by_cases hx : d.exists p = true
      · rw [if_pos hx]
        refine sure_bind (r := .ok ([], made d)) ?_ (fun e he => by cases he) (fun l s hl => ?_)
        · refine sure_asked (x := .ok true) (fun t hi => by rw [holding_exists hi, hx]) (fun e he => by cases he) (fun b hb => ?_)
          cases hb
          exact sure_ret _ _
        · cases hl
          rw [List.append_nil]
          exact ih d u
      · rw [if_neg hx]
        refine sure_bind (r := (match S.read p with
          | none => .error .osError
          | some c => d.write p c : Except PyErr Tree).map (fun d' => ([slashPath p], made d'))) ?_ (fun e he => ?_) (fun l s hl => ?_)
        · refine sure_asked (x := .ok false) (fun t hi => by rw [holding_exists hi, Bool.eq_false_iff.2 hx]) (fun e he => by cases he)
            (fun b hb => ?_)
          cases hb
          simp only [Bool.false_eq_true, if_false]
          cases hr : S.read p with
          | none =>
            refine sure_bind (r := .error .osError) (sure_change fun t hi => .inl ⟨.osError, ?_, rfl⟩) (fun e he => by cases he; rfl)
              (fun _ _ he => by cases he)
            rw [hs d t hi]
            simp only [Option.bind_some, hr]
          | some c =>
            refine sure_bind (sure_write hD hap (p := p) (c := c) fun t hi => by rw [hs d t hi]; simp only [Option.bind_some, hr])
              (fun e he => ?_) (fun _ s1 he => ?_)
            · cases hw : d.write p c with
              | error e' => rw [hw] at he; cases he; simp only [hw]; rfl
              | ok d' => rw [hw] at he; cases he
            · cases hw : d.write p c with
              | error e' => rw [hw] at he; cases he
              | ok d' => rw [hw] at he; cases he; simp only [hw]; exact sure_ret _ _
        · cases hr : S.read p with
          | none => rw [hr] at he; cases he; rfl
          | some c =>
            rw [hr] at he
            simp only at he ⊢
            cases hw : d.write p c with
            | error e' => rw [hw] at he; cases he; rfl
            | ok d' => rw [hw] at he; cases he
        · cases hr : S.read p with
          | none => rw [hr] at hl; cases hl
          | some c =>
            rw [hr] at hl
            simp only at hl ⊢
            cases hw : d.write p c with
            | error e' => rw [hw] at hl; cases hl
            | ok d' => rw [hw] at hl; cases hl; exact ih d' _
    | dir p =>
      simp only [actDoing, doAct]
      by_cases hx : d.exists p = true
      · rw [if_pos hx]
        refine sure_bind (r := .ok ([], made d)) ?_ (fun e he => by cases he) (fun l s hl => ?_)
        · refine sure_asked (x := .ok true) (fun t hi => by rw [holding_exists hi, hx]) (fun e he => by cases he) (fun b hb => ?_)
          cases hb
          exact sure_ret _ _
        · cases hl
          rw [List.append_nil]
          exact ih d u
      · rw [if_neg hx]
        refine sure_bind (r := (d.mkdir p).map (fun d' => ([], made d'))) ?_ (fun e he => ?_) (fun l s hl => ?_)
        · refine sure_asked (x := .ok false) (fun t hi => by rw [holding_exists hi, Bool.eq_false_iff.2 hx]) (fun e he => by cases he)
            (fun b hb => ?_)
          cases hb
          simp only [Bool.false_eq_true, if_false]
          refine sure_bind (sure_mkdir hD hap) (fun e he => ?_) (fun _ s1 he => ?_)
          · cases hw : d.mkdir p with
            | error e' => rw [hw] at he; cases he; rfl
            | ok d' => rw [hw] at he; cases he
          · cases hw : d.mkdir p with
            | error e' => rw [hw] at he; cases he
            | ok d' => rw [hw] at he; cases he; exact sure_ret _ _
        · cases hw : d.mkdir p with
          | error e' => rw [hw] at he; cases he; rfl
          | ok d' => rw [hw] at he; cases he
        · cases hw : d.mkdir p with
          | error e' => rw [hw] at hl; cases hl
          | ok d' =>
            rw [hw] at hl; cases hl
            rw [List.append_nil]
            exact ih d' u

theorem sure_writeManifest (kind alg : Str) (es : List (Str × Str)) (d : Tree) :
    Sure (Holding W D R) (writeManifestDoing D kind alg es) (made d) ((writeManifest d kind alg es).map (fun d' => ((), made d'))) := by
  unfold writeManifestDoing writeManifest
  by_cases he : es = []
  · rw [if_pos he, if_pos he]; exact sure_ret _ _
  · rw [if_neg he, if_neg he]
    exact sure_write hD hap (fun t _ => rfl)

theorem sure_writeManifests (m : ByAlg) (d : Tree) :
    Sure (Holding W D R) (writeManifestsDoing D m) (made d) ((writeManifests d m).map (fun d' => ((), made d'))) := by
  induction m generalizing d with
  | nil => exact sure_ret _ _
  | cons e m ih =>
    obtain ⟨alg, ps⟩ := e
    unfold writeManifestsDoing writeManifests
    refine sure_bind (sure_writeManifest hD hap _ _ _ d) (fun e he => ?_) (fun _ s he => ?_)
    · cases h1 : writeManifest d py!"manifest" alg (ps.filter (fun ph => startsWith py!"data/" ph.1)) with
      | error e' => rw [h1] at he; cases he; rfl
      | ok d1 => rw [h1] at he; cases he
    · cases h1 : writeManifest d py!"manifest" alg (ps.filter (fun ph => startsWith py!"data/" ph.1)) with
      | error e' => rw [h1] at he; cases he
      | ok d1 =>
        rw [h1] at he; cases he
        refine sure_bind (sure_writeManifest hD hap _ _ _ d1) (fun e he => ?_) (fun _ s he => ?_)
        · simp only
          cases h2 : writeManifest d1 py!"tagmanifest" alg (ps.filter (fun ph => !startsWith py!"data/" ph.1)) with
          | error e' => rw [h2] at he; cases he; rfl
          | ok d2 => rw [h2] at he; cases he
        · simp only
          cases h2 : writeManifest d1 py!"tagmanifest" alg (ps.filter (fun ph => !startsWith py!"data/" ph.1)) with
          | error e' => rw [h2] at he; cases he
          | ok d2 => rw [h2] at he; cases he; exact ih d2

theorem sure_updateManifests (cfg : ReadCfg) (src : Entries) (updated : List Str) (d : Tree) :
    Sure (Holding W D R) (updateManifestsDoing cfg D src updated) (made d)
      ((updateManifests cfg src updated d).map (fun d' => ((), made d'))) := by
  unfold updateManifestsDoing updateManifests
  refine sure_asked (x := openBag cfg d) (fun t hi => by rw [hi.here]; rfl) (fun e he => by rw [he]; rfl) (fun b hb => ?_)
  rw [hb]
  simp only
  cases mergeAll b.entries (collect src updated) with
  | error e => exact rfl
  | ok m => exact sure_writeManifests hD hap m d

theorem sure_restoreFrom (E : RestoreEnv) (path : Str) {src : Tree → Option Tree} {S : Tree}
    (hs : ∀ d t, Holding W D R (made d) t → src t = some S) (skip : List Str) (d : Tree) :
    Sure (Holding W D R) (restoreFromDoing E D path src skip) (made d)
      ((restoreFrom E ⟨path, S⟩ skip false d).map (fun d' => ((), made d'))) := by
  unfold restoreFromDoing restoreFrom
  by_cases hp : path = E.base.bagpath
  · rw [if_pos hp, if_pos hp]; exact sure_ret _ _
  · rw [if_neg hp, if_neg hp]
    have hn : ∀ t, Holding W D R (made d) t → bagNow src t = .ok S := fun t hi => by unfold bagNow; rw [hs d t hi]
    refine sure_asked (x := openBag { E.base with bagpath := path } S) (fun t hi => by rw [hn t hi]) (fun e he => by rw [he]; rfl)
      (fun sb hb => ?_)
    rw [hb]
    refine sure_asked (x := .ok (E.walk S)) (fun t hi => by rw [hn t hi]) (fun e he => by cases he) (fun w hw => ?_)
    cases hw
    simp only
    refine sure_bind (sure_acts hD hap hs (actsOf skip (E.walk S)) d []) (fun e he => ?_) (fun u s he => ?_)
    · cases h1 : runActs false S (actsOf skip (E.walk S)) ⟨d, []⟩ with
      | error e' => rw [h1] at he; cases he; rfl
      | ok s => rw [h1] at he; cases he
    · cases h1 : runActs false S (actsOf skip (E.walk S)) ⟨d, []⟩ with
      | error e' => rw [h1] at he; cases he
      | ok s =>
        rw [h1] at he; cases he
        simp only
        by_cases hu : s.updated = []
        · rw [if_pos hu, if_pos hu]; exact sure_ret _ _
        · rw [if_neg hu, if_neg hu]
          exact sure_updateManifests hD hap _ _ _ _

omit hD hap in
theorem source_bag {F : Finder} {t : Tree} {n : Str} {s : RSource}
    (h : F.restorer.source F.exts F.cwd t F.archives n = some s) : F.bag s.path t = some s.tree := by
  unfold Restorer.source at h
  cases hf : F.restorer.find F.exts F.cwd t n with
  | none => rw [hf] at h; cases h
  | some p =>
    rw [hf] at h
    simp only at h
    unfold Finder.bag
    by_cases hd : t.isdir (comps (abspath F.cwd p)) = true
    · rw [if_pos hd] at h
      cases h
      simp only
      rw [if_pos hd]
    · rw [if_neg hd] at h
      cases ha : F.archives (comps (abspath F.cwd p)) with
      | none => rw [ha] at h; cases h
      | some u =>
        rw [ha] at h
        cases h
        simp only
        rw [if_neg hd, ha]

section
variable (E : RestoreEnv) (F : Finder) {find : Str → Option RSource} {names : List Str}
  (hf : ∀ n ∈ names, ∀ d t, Holding W D R (made d) t → F.restorer.source F.exts F.cwd t F.archives n = find n)
include hf

theorem sure_members (skip : List Str) (d : Tree) :
    Sure (Holding W D R) (membersDoing E F D skip names) (made d)
      ((restoreMembers { E with find := find } skip names d).map (fun d' => ((), made d'))) := by
  induction names generalizing d with
  | nil => exact sure_ret _ _
  | cons n names ih =>
    unfold membersDoing restoreMembers restoreMember
    simp only
    have hn := hf n (List.mem_cons_self ..)
    refine sure_asked (x := .ok ((find n).map (fun s => s.path))) (fun t hi => by unfold Finder.path; rw [hn d t hi])
      (fun e he => by cases he) (fun p hp => ?_)
    cases hp
    cases hs : find n with
    | none => rfl
    | some s =>
      simp only [Option.map_some]
      refine sure_bind (sure_restoreFrom hD hap E s.path (S := s.tree) (fun d t hi => source_bag ((hn d t hi).trans hs)) skip d)
        (fun e he => ?_) (fun _ s1 he => ?_)
      · cases h1 : restoreFrom E ⟨s.path, s.tree⟩ skip false d with
        | error e' =>
          rw [h1] at he; cases he
          have : restoreFrom { E with find := find } s skip false d = .error e := h1
          rw [this]; rfl
        | ok d1 => rw [h1] at he; cases he
      · cases h1 : restoreFrom E ⟨s.path, s.tree⟩ skip false d with
        | error e' => rw [h1] at he; cases he
        | ok d1 =>
          rw [h1] at he; cases he
          have : restoreFrom { E with find := find } s skip false d = .ok d1 := h1
          rw [this]
          exact ih (fun n hm => hf n (List.mem_cons_of_mem _ hm)) d1

omit hD hap in
theorem sure_collectFetch (fetch : List (Str × Str)) (d : Tree) :
    Sure (Holding W D R) (collectFetchDoing E F names fetch) (made d)
      ((collectFetch { E with find := find } names fetch).map (fun f => (f, made d))) := by
  induction names generalizing fetch with
  | nil => exact sure_ret _ _
  | cons n names ih =>
    unfold collectFetchDoing collectFetch
    simp only
    have hn := hf n (List.mem_cons_self ..)
    refine sure_asked (x := .ok ((find n).map (fun s => s.path))) (fun t hi => by unfold Finder.path; rw [hn d t hi])
      (fun e he => by cases he) (fun p hp => ?_)
    cases hp
    cases hs : find n with
    | none => rfl
    | some s =>
      simp only [Option.map_some]
      have hb : ∀ t, Holding W D R (made d) t → bagNow (F.bag s.path) t = .ok s.tree := fun t hi => by
        unfold bagNow; rw [source_bag ((hn d t hi).trans hs)]
      refine sure_asked (x := openBag { E.base with bagpath := s.path } s.tree) (fun t hi => by rw [hb t hi])
        (fun e he => by rw [he]; rfl) (fun b hb' => ?_)
      rw [hb']
      refine sure_asked (x := .ok (s.tree.read [py!"fetch.txt"])) (fun t hi => by rw [hb t hi]) (fun e he => by cases he)
        (fun text ht => ?_)
      cases ht
      exact ih (fun n hm => hf n (List.mem_cons_of_mem _ hm)) _

theorem sure_restoreFetch (d : Tree) :
    Sure (Holding W D R) (restoreFetchDoing E F D names) (made d)
      ((restoreFetch { E with find := find } names d).map (fun d' => ((), made d'))) := by
  unfold restoreFetchDoing restoreFetch
  refine sure_bind (sure_collectFetch E F hf [] d) (fun e he => ?_) (fun f s he => ?_)
  · cases h1 : collectFetch { E with find := find } names [] with
    | error e' => rw [h1] at he; cases he; rfl
    | ok f => rw [h1] at he; cases he
  · cases h1 : collectFetch { E with find := find } names [] with
    | error e' => rw [h1] at he; cases he
    | ok f' =>
      rw [h1] at he; cases he
      cases f with
      | nil => exact sure_ret _ _
      | cons x f =>
        rw [if_neg (by simp)]
        exact sure_write hD hap (fun t _ => rfl)

end

/-! ## Saving -/

theorem sure_writeTagManifests (sum : Str → Str → Str) (algs : List Str) (d : Tree) :
    Sure (Holding W D R) (writeTagManifestsDoing sum D algs) (made d) ((writeTagManifests sum algs d).map (fun d' => ((), made d'))) := by
  induction algs generalizing d with
  | nil => exact sure_ret _ _
  | cons alg algs ih =>
    unfold writeTagManifestsDoing writeTagManifests
    refine sure_asked (x := .ok (taggedFiles d)) (fun t hi => by rw [hi.here]; rfl) (fun e he => by cases he) (fun files hfl => ?_)
    cases hfl
    refine sure_bind (sure_write hD hap (fun t _ => rfl)) (fun e he => ?_) (fun _ s he => ?_)
    · cases h1 : d.write (manPath py!"tagmanifest" alg) ((taggedFiles d).map (fun pc => hashLine (sum alg pc.2) (joinPath pc.1))).flatten with
      | error e' => rw [h1] at he; cases he; rfl
      | ok d1 => rw [h1] at he; cases he
    · cases h1 : d.write (manPath py!"tagmanifest" alg) ((taggedFiles d).map (fun pc => hashLine (sum alg pc.2) (joinPath pc.1))).flatten with
      | error e' => rw [h1] at he; cases he
      | ok d1 => rw [h1] at he; cases he; exact ih d1

theorem sure_save (E : RestoreEnv) (b : RBag) (d : Tree) :
    Sure (Holding W D R) (saveDoing E D b) (made d) ((saveBag E { b with tree := d }).map (fun b' => (b', made b'.tree))) := by
  unfold saveDoing saveBag
  simp only
  refine sure_bind (sure_write hD hap (fun t _ => rfl)) (fun e he => ?_) (fun _ s he => ?_)
  · cases h1 : d.write [b.tagFile] (fieldsText (tagFields b.info)) with
    | error e' => rw [h1] at he; cases he; rfl
    | ok d1 => rw [h1] at he; cases he
  · cases h1 : d.write [b.tagFile] (fieldsText (tagFields b.info)) with
    | error e' => rw [h1] at he; cases he
    | ok d1 =>
      rw [h1] at he; cases he
      simp only
      refine sure_bind (sure_writeTagManifests hD hap E.sum b.algorithms d1) (fun e he => ?_) (fun _ s he => ?_)
      · cases h2 : writeTagManifests E.sum b.algorithms d1 with
        | error e' => rw [h2] at he; cases he; rfl
        | ok d2 => rw [h2] at he; cases he
      · cases h2 : writeTagManifests E.sum b.algorithms d1 with
        | error e' => rw [h2] at he; cases he
        | ok d2 =>
          rw [h2] at he; cases he
          simp only
          have := sure_ask (I := Holding W D R) (s := made d2) (f := fun t =>
            match loadManifests E.base b.version b.encoding (t.below D) with
            | .error e => .error e
            | .ok (algs, es) => .ok { b with tree := t.below D, algorithms := b.algorithms ++ algs, entries := es })
            (x := match loadManifests E.base b.version b.encoding d2 with
            | .error e => .error e
            | .ok (algs, es) => .ok { b with tree := d2, algorithms := b.algorithms ++ algs, entries := es })
            (fun t hi => by rw [hi.here]; rfl)
          cases h3 : loadManifests E.base b.version b.encoding d2 with
          | error e => rw [h3] at this; exact this
          | ok x => rw [h3] at this; exact this

theorem sure_removeTags (E : RestoreEnv) (b : RBag) (d : Tree) (hb : b.tree = d) :
    Sure (Holding W D R) (removeTagsDoing E D b) (made d) ((removeTags E b).map (fun b' => (b', made b'.tree))) := by
  unfold removeTagsDoing removeTags
  rw [hb]
  refine sure_bind (sure_rmtree hD hap (p := [py!"multibag"]) (by simp)) (fun e he => ?_) (fun _ s he => ?_)
  · cases h1 : d.rmtree [py!"multibag"] with
    | error e' => rw [h1] at he; cases he; rfl
    | ok d1 => rw [h1] at he; cases he
  · cases h1 : d.rmtree [py!"multibag"] with
    | error e' => rw [h1] at he; cases he
    | ok d1 =>
      rw [h1] at he; cases he
      exact sure_save hD hap E { b with info := multibagKeys.foldl ddel b.info } d1

theorem sure_updateSizes (E : RestoreEnv) (b : RBag) (d : Tree) (hb : b.tree = d) :
    Sure (Holding W D R) (updateSizesDoing E D b) (made d) ((updateSizes E b).map (fun b' => (b', made b'.tree))) := by
  unfold updateSizesDoing updateSizes
  subst hb
  refine sure_asked (x := .ok (oxumText E.blen b.tree)) (fun t hi => by rw [hi.here]; rfl) (fun e he => by cases he) (fun o ho => ?_)
  cases ho
  refine sure_bind (sure_save hD hap E { b with info := dset b.info py!"Payload-Oxum" (.one (oxumText E.blen b.tree)) } b.tree)
    (fun e he => ?_) (fun b1 s he => ?_)
  · cases h1 : saveBag E { b with info := dset b.info py!"Payload-Oxum" (.one (oxumText E.blen b.tree)) } with
    | error e' => rw [h1] at he; cases he; rfl
    | ok b1 => rw [h1] at he; cases he
  · cases h1 : saveBag E { b with info := dset b.info py!"Payload-Oxum" (.one (oxumText E.blen b.tree)) } with
    | error e' => rw [h1] at he; cases he
    | ok b1' =>
      rw [h1] at he; cases he
      refine sure_asked (x := .ok (E.sizeText b1.tree b1.info)) (fun t hi => by rw [hi.here]; rfl) (fun e he => by cases he) (fun o ho => ?_)
      cases ho
      exact sure_save hD hap E { b1 with info := dset b1.info py!"Bag-Size" (.one (E.sizeText b1.tree b1.info)) } b1.tree

theorem sure_finish (E : RestoreEnv) (d : Tree) :
    Sure (Holding W D R) (finishDoing E D) (made d) ((finishRestore E true true d).map (fun d' => ((), made d'))) := by
  unfold finishDoing finishRestore
  refine sure_asked (x := openBag E.base d) (fun t hi => by rw [hi.here]; rfl) (fun e he => by rw [he]; rfl) (fun b hb => ?_)
  rw [hb]
  simp only [if_true]
  refine sure_bind (sure_removeTags hD hap E b d (openBag_tree hb)) (fun e he => ?_) (fun b1 s he => ?_)
  · cases h1 : removeTags E b with
    | error e' => rw [h1] at he; cases he; rfl
    | ok b1 => rw [h1] at he; cases he
  · cases h1 : removeTags E b with
    | error e' => rw [h1] at he; cases he
    | ok b1' =>
      rw [h1] at he; cases he
      simp only
      refine sure_bind (sure_updateSizes hD hap E b1 b1.tree rfl) (fun e he => ?_) (fun b2 s he => ?_)
      · cases h2 : updateSizes E b1 with
        | error e' => rw [h2] at he; cases he; rfl
        | ok b2 => rw [h2] at he; cases he
      · cases h2 : updateSizes E b1 with
        | error e' => rw [h2] at he; cases he
        | ok b2' => rw [h2] at he; cases he; exact sure_ret _ _

theorem sure_start (E : RestoreEnv) {H : RHead} (hh : ∀ s t, Holding W D R s t → headNow H t = some H.tree) (skip : List Str) (d : Tree) :
    Sure (Holding W D R) (startDoing E D H skip) (made d) ((startRestore E H skip d).map (fun d' => ((), made d'))) := by
  unfold startDoing startRestore
  have hn : ∀ t, Holding W D R (made d) t → bagNow (headNow H) t = .ok H.tree := fun t hi => by unfold bagNow; rw [hh _ t hi]
  refine sure_asked (x := .ok (H.tree.read aggregationInfo)) (fun t hi => by rw [hn t hi]) (fun e he => by cases he) (fun c hc => ?_)
  cases hc
  have go : ∀ d1, Sure (Holding W D R) (if H.path = E.base.bagpath then .ret () else restoreFromDoing E D H.path (headNow H) skip) (made d1)
      ((if H.path = E.base.bagpath then .ok d1 else restoreFrom E ⟨H.path, H.tree⟩ skip false d1).map (fun d' => ((), made d'))) := by
    intro d1
    by_cases hp : H.path = E.base.bagpath
    · rw [if_pos hp, if_pos hp]; exact sure_ret _ _
    · rw [if_neg hp, if_neg hp]
      exact sure_restoreFrom hD hap E H.path (fun d t hi => hh _ t hi) skip d1
  cases H.tree.read aggregationInfo with
  | none => exact go d
  | some c =>
    simp only
    refine sure_bind (sure_write hD hap (fun t _ => rfl)) (fun e he => ?_) (fun _ s he => ?_)
    · cases h1 : d.write [py!"bag-info.txt"] (copiedText H.mode c) with
      | error e' => rw [h1] at he; cases he; rfl
      | ok d1 => rw [h1] at he; cases he
    · cases h1 : d.write [py!"bag-info.txt"] (copiedText H.mode c) with
      | error e' => rw [h1] at he; cases he
      | ok d1 => rw [h1] at he; cases he; exact go d1

end

end Verif
