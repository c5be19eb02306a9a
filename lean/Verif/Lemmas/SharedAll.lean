import Verif.Props.RestoreShared
import Verif.Props.SplitShared
import Verif.Spec.SharedAll
/-!
# A restore leaves the file system well formed
-/

namespace Verif
open Spec

/-- All operations of a process leave a well-formed file system, whatever well-formed file systems they find, and its result
is as in `P`. -/
def Well {α : Type} (P : α → Prop) : Doing α → Prop
  | .done (.ok a) => P a
  | .done (.error _) => True
  | .next op k => (∀ t t', WfTree t → op t = .ok t' → WfTree t') ∧ ∀ t, WfTree t → Well P (k t)

section
variable {α β : Type} {P : α → Prop} {Q : β → Prop}

theorem well_turn {m : Doing α} (h : Well P m) {t : Tree} (ht : WfTree t) : WfTree (m.turn t).2 ∧ Well P (m.turn t).1 := by
  cases m with
  | done r => exact ⟨ht, h⟩
  | next op k =>
    simp only [Doing.turn]
    cases ho : op t with
    | error e => exact ⟨ht, trivial⟩
    | ok t' => exact ⟨h.1 t t' ht ho, h.2 t ht⟩

theorem well_bind {m : Doing α} {g : α → Doing β} (h : Well P m) (hg : ∀ a, P a → Well Q (g a)) : Well Q (m.bind g) := by
  induction m with
  | done x =>
    cases x with
    | error e => trivial
    | ok a => exact hg a h
  | next op k ih => exact ⟨h.1, fun t ht => ih t (h.2 t ht)⟩

theorem well_asked {f : Tree → Except PyErr α} {g : α → Doing β} (hg : ∀ t a, WfTree t → f t = .ok a → Well Q (g a)) :
    Well Q ((ask f).bind g) := by
  refine ⟨fun t t' ht h => by cases h; exact ht, fun t ht => ?_⟩
  show Well Q ((Doing.done (f t)).bind g)
  cases h : f t with
  | error e => trivial
  | ok a => exact hg t a ht h

theorem well_ask {f : Tree → Except PyErr α} (hf : ∀ t a, WfTree t → f t = .ok a → P a) : Well P (ask f) := by
  refine ⟨fun t t' ht h => by cases h; exact ht, fun t ht => ?_⟩
  show Well P (Doing.done (f t))
  cases h : f t with
  | error e => trivial
  | ok a => exact hf t a ht h

theorem well_change {f : Tree → Except PyErr Tree} {P : Unit → Prop} (hp : P ()) (h : ∀ t t', WfTree t → f t = .ok t' → WfTree t') :
    Well P (change f) := ⟨h, fun _ _ => hp⟩

end

/-- Nothing is asked of the result. -/
abbrev AnyOf {α : Type} : α → Prop := fun _ => True

theorem well_ret {α : Type} {P : α → Prop} {a : α} (h : P a) : Well P (Doing.ret a) := h

theorem wf_below_any {t : Tree} (h : WfTree t) {d : Path} (hdir : t.isdir d = true) : WfTree (t.below d) := by
  by_cases hd : d = []
  · subst hd
    have : t.below [] = t := by
      have hg : ∀ e ∈ t, e.1 ≠ [] := fun e he => (h.good e.1 (List.mem_map_of_mem he)).1
      unfold Tree.below
      clear h hdir
      induction t with
      | nil => rfl
      | cons e t ih =>
        rw [List.filterMap_cons]
        have := hg e List.mem_cons_self
        have hc : (List.isPrefixOf [] e.1 && decide (e.1 ≠ [])) = true := by simp [this]
        rw [if_pos hc]
        simp only
        rw [ih (fun x hx => hg x (List.mem_cons_of_mem _ hx))]
        rfl
    rw [this]
    exact h
  · exact wf_below h hd hdir

section
variable {D : Path}

theorem good_in (hD : Clean D) {p : Path} (hp : GoodPath p) : GoodPath (D ++ p) := by
  refine ⟨fun e => hp.1 (List.append_eq_nil_iff.1 e).2, clean_append hD hp.2⟩

theorem well_acts (hD : Clean D) (src : Tree → Option Tree) {as : List Act}
    (ha : ∀ p, .file p ∈ as ∨ .dir p ∈ as → GoodPath p) (u : List Str) : Well AnyOf (actsDoing D src as u) := by
  induction as generalizing u with
  | nil => trivial
  | cons a as ih =>
    refine well_bind (P := AnyOf) ?_ (fun l _ => ih (fun p h => ha p (by
      rcases h with h | h
      · exact .inl (List.mem_cons_of_mem _ h)
      · exact .inr (List.mem_cons_of_mem _ h))) _)
    cases a with
    | stat p => exact well_ask fun _ _ _ _ => trivial
    | file p =>
      refine well_asked fun t b _ _ => ?_
      cases b with
      | true => trivial
      | false =>
        refine well_bind (P := AnyOf) (well_change trivial fun t t' ht h => ?_) (fun _ _ => trivial)
        split at h
        · cases h
        · exact wf_write ht (good_in hD (ha p (.inl List.mem_cons_self))) h
    | dir p =>
      refine well_asked fun t b _ _ => ?_
      cases b with
      | true => trivial
      | false =>
        exact well_bind (P := AnyOf) (well_change trivial fun t t' ht h => wf_mkdir ht (good_in hD (ha p (.inr List.mem_cons_self))) h)
          (fun _ _ => trivial)

theorem well_writeManifest (hD : Clean D) {kind alg : Str} (hk : kind = py!"manifest" ∨ kind = py!"tagmanifest") (ha : '/' ∉ alg)
    (es : List (Str × Str)) : Well AnyOf (writeManifestDoing D kind alg es) := by
  unfold writeManifestDoing
  split
  · trivial
  · exact well_change trivial fun t t' ht h => wf_write ht (good_in hD (manPath_good kind alg hk ha)) h

theorem well_writeManifests (hD : Clean D) {m : ByAlg} (ha : ∀ a ∈ dkeys m, '/' ∉ a) : Well AnyOf (writeManifestsDoing D m) := by
  induction m with
  | nil => trivial
  | cons e m ih =>
    have h0 := ha e.1 (by simp [dkeys])
    exact well_bind (P := AnyOf) (well_writeManifest hD (.inl rfl) h0 _) (fun _ _ =>
      well_bind (P := AnyOf) (well_writeManifest hD (.inr rfl) h0 _) (fun _ _ => ih (fun a h => ha a (by simp [dkeys] at h ⊢; exact .inr h))))

theorem well_restoreFrom (hD : Clean D) {E : RestoreEnv} (hE : EnvOk E) (path : Str) {src : Tree → Option Tree}
    (hs : ∀ t s, WfTree t → src t = some s → WfTree s) {skip : List Str} (he : [] ∉ skip) :
    Well AnyOf (restoreFromDoing E D path src skip) := by
  unfold restoreFromDoing
  split
  · trivial
  · refine well_asked fun _ sb _ hb => well_asked fun t w ht hw => ?_
    have hacts : ∀ p, .file p ∈ actsOf skip w ∨ .dir p ∈ actsOf skip w → GoodPath p := by
      unfold bagNow at hw
      cases h : src t with
      | none => rw [h] at hw; cases hw
      | some s =>
        rw [h] at hw
        cases hw
        have hA := actsOf_ok (hs t s ht h) (hE.walk _ (hs t s ht h)) he
        rintro p (hp | hp)
        · exact (hA.file p hp).1
        · exact (hA.dir p hp).1
    have hsb : ∃ s, openBag { E.base with bagpath := path } s = .ok sb := by
      split at hb
      · cases hb
      · exact ⟨_, hb⟩
    obtain ⟨s, hsb⟩ := hsb
    have hl := (openBag_parts hsb).2.1
    have hes : ∀ e ∈ sb.entries, (dkeys e.2).Nodup := fun e he => ((entries_inv hl).2 e he).2
    refine well_bind (P := AnyOf) (well_acts hD src hacts []) fun u _ => ?_
    split
    · trivial
    · refine well_asked fun t b _ hb => ?_
      split
      · trivial
      · rename_i m hm
        refine well_writeManifests hD fun a hak => ?_
        obtain ⟨hk, _, _⟩ := mergeAll_ok (entries_inv (openBag_parts hb).2.1).1 hm (collect_spec hes u).1
        rw [hk, (collect_spec hes u).2.2] at hak
        obtain ⟨q, _, hq⟩ := hak
        obtain ⟨v, hv⟩ := Option.isSome_iff_exists.1 hq
        exact hE.algs a (look_alg hl hv)

theorem well_members (hD : Clean D) {E : RestoreEnv} (hE : EnvOk E) {F : Finder} (hF : ∀ p t, F.archives p = some t → WfTree t)
    {skip : List Str} (he : [] ∉ skip) (ns : List Str) : Well AnyOf (membersDoing E F D skip ns) := by
  induction ns with
  | nil => trivial
  | cons n ns ih =>
    refine well_asked fun _ p _ _ => ?_
    cases p with
    | none => trivial
    | some p =>
      refine well_bind (P := AnyOf) (well_restoreFrom hD hE p (fun t s ht h => ?_) he) (fun _ _ => ih)
      unfold Finder.bag at h
      split at h
      · rename_i hd
        cases h
        exact wf_below_any ht hd
      · exact hF _ _ h

theorem well_collectFetch (E : RestoreEnv) (F : Finder) (ns : List Str) (fetch : List (Str × Str)) :
    Well AnyOf (collectFetchDoing E F ns fetch) := by
  induction ns generalizing fetch with
  | nil => trivial
  | cons n ns ih =>
    refine well_asked fun _ p _ _ => ?_
    cases p with
    | none => trivial
    | some p => exact well_asked fun _ _ _ _ => well_asked fun _ _ _ _ => ih _

theorem well_writeTagManifests (hD : Clean D) (sum : Str → Str → Str) {algs : List Str} (ha : ∀ a ∈ algs, '/' ∉ a) :
    Well AnyOf (writeTagManifestsDoing sum D algs) := by
  induction algs with
  | nil => trivial
  | cons a algs ih =>
    exact well_asked fun _ _ _ _ => well_bind (P := AnyOf)
      (well_change trivial fun t t' ht h => wf_write ht (good_in hD (manPath_good _ _ (.inr rfl) (ha a List.mem_cons_self))) h)
      (fun _ _ => ih fun b hb => ha b (List.mem_cons_of_mem _ hb))

/-- What is known of a bag object that is to be saved. -/
def Savable (b : RBag) : Prop := GoodName b.tagFile ∧ ∀ a ∈ b.algorithms, '/' ∉ a

theorem good_tagFile {v : List Int} {f : Str} (h : tagFileName v = some f) : GoodName f := by
  unfold tagFileName at h
  split at h
  · cases h; exact ⟨by decide, by decide, by decide, by decide⟩
  · split at h
    · cases h; exact ⟨by decide, by decide, by decide, by decide⟩
    · cases h

theorem savable_open {E : RestoreEnv} (hE : EnvOk E) {t : Tree} {b : RBag} (h : openBag E.base t = .ok b) : Savable b := by
  obtain ⟨_, hl, ht, _⟩ := openBag_parts h
  exact ⟨good_tagFile ht, fun a ha => hE.algs a (algorithms_sub hl a ha)⟩

theorem well_save (hD : Clean D) {E : RestoreEnv} (hE : EnvOk E) {b : RBag} (hb : Savable b) : Well Savable (saveDoing E D b) := by
  refine well_bind (P := AnyOf) (well_change trivial fun t t' ht h => wf_write ht (good_in hD ⟨by simp, by simpa [Clean] using hb.1⟩) h)
    fun _ _ => well_bind (P := AnyOf) (well_writeTagManifests hD _ hb.2) fun _ _ => well_ask fun t a _ h => ?_
  cases hl : loadManifests E.base b.version b.encoding (t.below D) with
  | error e => rw [hl] at h; cases h
  | ok r =>
    obtain ⟨algs, es⟩ := r
    rw [hl] at h
    cases h
    refine ⟨hb.1, fun a ha => ?_⟩
    rcases List.mem_append.1 ha with ha | ha
    · exact hb.2 a ha
    · exact hE.algs a (algorithms_sub hl a ha)

theorem well_finish (hD : Clean D) {E : RestoreEnv} (hE : EnvOk E) : Well AnyOf (finishDoing E D) := by
  refine well_asked fun t b _ hb => ?_
  have hs := savable_open hE hb
  refine well_bind (P := Savable) ?_ fun b' hb' => well_bind (P := Savable) ?_ fun _ _ => trivial
  · exact well_bind (P := AnyOf) (well_change trivial fun t t' ht h => wf_rmtree ht h) fun _ _ => well_save hD hE hs
  · exact well_asked fun _ _ _ _ => well_bind (well_save hD hE (b := { b' with info := _ }) hb') fun b'' h =>
      well_asked fun _ _ _ _ => well_save hD hE (b := { b'' with info := _ }) h

theorem wf_headAt {cwd : Str} {archives : Path → Option Tree} (hA : ∀ p t, archives p = some t → WfTree t) {dirs : Tree → List Path}
    {t : Tree} (ht : WfTree t) {cfg : ReadCfg} {p : Str} {H : RHead} (h : headAt cwd (diskPlaces cwd archives dirs t) cfg p = .ok H) :
    WfTree H.tree := by
  have key : ∃ n, openPlace (diskPlaces cwd archives dirs t) p = .ok (n, H.tree) := by
    unfold headAt openFrom at h
    cases ho : openPlace (diskPlaces cwd archives dirs t) p with
    | error e => rw [ho] at h; cases h
    | ok r =>
      obtain ⟨n, x⟩ := r
      rw [ho] at h
      simp only at h
      cases hb : openBag { cfg with bagpath := abspath cwd p } x with
      | error e => rw [hb] at h; cases h
      | ok b =>
        rw [hb] at h
        have := (openBag_parts hb).1
        cases h
        refine ⟨n, ?_⟩
        split <;> simp [this]
  obtain ⟨n, h⟩ := key
  unfold openPlace diskPlaces at h
  simp only at h
  split at h
  · cases h
  · split at h
    · cases h
    · split at h
      · cases h
      · rename_i x hx
        split at hx
        · rename_i hd
          cases hx
          rw [← (Prod.mk.inj (Except.ok.inj h)).2]
          exact wf_below_any ht hd
        · split at hx <;> cases hx
      · rename_i a hx
        split at h
        · cases a with
          | none => cases h
          | some a =>
            have ha : WfTree a := by
              split at hx
              · cases hx
              · split at hx
                · exact hA _ _ (by simpa using hx)
                · cases hx
            simp only at h
            split at h
            · cases h
            · rename_i d hd
              have := List.find?_some hd
              have hdir := dropLast_dir ha this
              rw [List.dropLast_concat] at hdir
              rw [← (Prod.mk.inj (Except.ok.inj h)).2]
              exact wf_below_any ha hdir
        · cases h
      · cases h

theorem well_job {j : RestoreJob} {wd : Path} (hc : AbsPath j.cwd wd) (hE : EnvOk j.env) (hA : ∀ p t, j.archives p = some t → WfTree t)
    {d : Str} (hd : j.destbag = some d) (hne : d ≠ [])
    (hD : leadsTo wd d = D) (hr : D ≠ []) (hs : ¬ abspath j.cwd d <+: searched j) : Well AnyOf j.doing := by
  have hcl : Clean D := by
    rw [← hD]
    exact goodName_leadsTo hc.1.2 d
  refine well_asked fun t r _ hm => well_asked fun t H ht hH => ?_
  obtain ⟨_, _, hr⟩ := make_ok hm
  have hg : given j.destbag = some d := by
    rw [hd]
    cases d with
    | nil => exact absurd rfl hne
    | cons => rfl
  have hdd : r.destdir = abspath j.cwd d := by rw [hr, hg]; rfl
  have hcc : r.cachedir = searched j := by rw [hr, searched_eq]; rfl
  have hdest : comps (abspath j.cwd r.destdir) = D := by rw [comps_abspath hc, hdd, leadsTo_abspath hc, hD]
  have hcache : startsWith r.destdir r.cachedir = false := by
    rw [← Bool.not_eq_true, hdd, hcc]
    intro h
    exact hs (by simpa [startsWith] using h)
  have hE' : EnvOk (j.env.into r.destdir (fun _ => none)) := ⟨hE.walk, hE.algs⟩
  have hHw := wf_headAt hA ht hH
  have hnow : ∀ t s, WfTree t → headNow H t = some s → WfTree s := by
    intro t s ht h
    unfold headNow at h
    split at h
    · rename_i hd
      cases h
      exact wf_below_any ht hd
    · cases h
      exact hHw
  simp only [hdest]
  refine well_bind (P := AnyOf) ?_ fun _ _ => well_ask fun _ _ _ _ => trivial
  refine well_asked fun _ deleted _ hdel => ?_
  have hnil : [] ∉ pySet deleted := by
    rw [mem_pySet]
    split at hdel
    · cases hdel
    · exact nil_notMem_deleted hdel
  refine well_asked fun _ ms _ _ => well_bind (P := AnyOf) ?_ fun _ _ => well_bind (P := AnyOf) ?_ fun _ _ =>
    well_bind (P := AnyOf) (well_members hcl hE' hA hnil _) fun _ _ => well_bind (P := AnyOf) ?_ fun _ _ => well_finish hcl hE'
  · refine well_asked fun _ b _ _ => ?_
    cases b with
    | true => trivial
    | false =>
      refine well_asked fun _ b _ _ => well_bind (P := AnyOf) ?_ fun _ _ => well_asked fun t b _ hb => ?_
      · cases b with
        | true => trivial
        | false =>
          refine well_change trivial fun t t' ht h => ?_
          rw [hdest] at h
          exact wf_mkdir ht ⟨by assumption, hcl⟩ h
      · simp only [Restorer.lacksCache, hcache, Bool.and_false] at hb
        cases hb
        trivial
  · refine well_asked fun _ text _ _ => well_bind (P := AnyOf) ?_ fun _ _ => ?_
    · cases text with
      | none => trivial
      | some c => exact well_change trivial fun t t' ht h => wf_write ht (good_in hcl ⟨by simp, by simp; exact ⟨by decide, by decide, by decide, by decide⟩⟩) h
    · split
      · trivial
      · exact well_restoreFrom hcl hE' _ hnow hnil
  · split
    · trivial
    · refine well_bind (P := AnyOf) (well_collectFetch ..) fun f _ => ?_
      split
      · trivial
      · exact well_change trivial fun t t' ht h => wf_write ht (good_in hcl ⟨by simp, by simp; exact ⟨by decide, by decide, by decide, by decide⟩⟩) h

end

end Verif
