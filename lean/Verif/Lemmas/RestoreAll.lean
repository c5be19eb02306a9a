import Verif.Lemmas.RestoreManifest
import Verif.Lemmas.History
/-!
# The phases of a restore
-/

namespace Verif
open Spec

/-! ## One source -/

theorem look_alg {cfg : ReadCfg} {v : List Int} {enc : Str} {t : Tree} {algs : List Str} {es : Entries}
    (h : loadManifests cfg v enc t = .ok (algs, es)) {p a c : Str} (hl : es.look p a = some c) : a ∈ cfg.algs := by
  obtain ⟨line, hm, _⟩ := (C70_loads h p a c).1 hl
  unfold manifestText at hm
  have key : ∀ kind, (a, line) ∈ (cfg.algs.flatMap (fun alg =>
      match t.read [kind ++ '-' :: alg ++ py!".txt"] with
      | some text => (manifestLines enc text).map (fun l => (alg, l))
      | none => [])) → a ∈ cfg.algs := by
    intro kind hm
    obtain ⟨a', ha, hm⟩ := List.mem_flatMap.1 hm
    split at hm
    · obtain ⟨l, _, e⟩ := List.mem_map.1 hm
      cases e; exact ha
    · simp at hm
  rcases List.mem_append.1 hm with hm | hm
  · exact key py!"manifest" hm
  · split at hm
    · simp at hm
    · exact key py!"tagmanifest" hm

/-- The parts of a successful `_restore_from`. -/
theorem restoreFrom_parts {E : RestoreEnv} {src : RSource} {skip : List Str} {ow : Bool} {d d' : Tree}
    (h : restoreFrom E src skip ow d = .ok d') (hp : src.path ≠ E.base.bagpath) :
    ∃ sb s, openBag { E.base with bagpath := src.path } src.tree = .ok sb ∧
      runActs ow src.tree (actsOf skip (E.walk src.tree)) { dest := d, updated := [] } = .ok s ∧
      ((s.updated = [] ∧ d' = s.dest) ∨
        (s.updated ≠ [] ∧ updateManifests E.base sb.entries s.updated s.dest = .ok d')) := by
  unfold restoreFrom at h
  rw [if_neg hp] at h
  cases hb : openBag { E.base with bagpath := src.path } src.tree with
  | error e => rw [hb] at h; cases h
  | ok sb =>
    rw [hb] at h
    simp only at h
    cases hr : runActs ow src.tree (actsOf skip (E.walk src.tree)) { dest := d, updated := [] } with
    | error e => rw [hr] at h; cases h
    | ok s =>
      rw [hr] at h
      simp only at h
      refine ⟨sb, s, rfl, rfl, ?_⟩
      by_cases hu : s.updated = []
      · rw [if_pos hu] at h; cases h
        exact .inl ⟨hu, rfl⟩
      · rw [if_neg hu] at h
        exact .inr ⟨hu, h⟩

/-- What a successful `_restore_from` makes of a path. -/
theorem restoreFrom_dget {E : RestoreEnv} (hE : EnvOk E) {src : RSource} (hs : WfTree src.tree) {skip : List Str}
    (he : [] ∉ skip) {ow : Bool} {d d' : Tree} (h : restoreFrom E src skip ow d = .ok d')
    (hp : src.path ≠ E.base.bagpath) {p : Path} (hne : p ≠ []) (hm : ¬ ManifestFile p) :
    dget d' p = actEffect ow src.tree (actsOf skip (E.walk src.tree)) p (dget d p) := by
  obtain ⟨sb, s, hb, hr, hu⟩ := restoreFrom_parts h hp
  have ha := actsOf_ok hs (hE.walk _ hs) he
  have h1 := runActs_ok ha hr hne
  rcases hu with ⟨_, rfl⟩ | ⟨_, hu⟩
  · exact h1
  · have hl := (openBag_parts hb).2.1
    rw [updateManifests_frame hu (fun e he => ((entries_inv hl).2 e he).2) hm, h1]

theorem wf_restoreFrom {E : RestoreEnv} (hE : EnvOk E) {src : RSource} (hs : WfTree src.tree) {skip : List Str}
    (he : [] ∉ skip) {ow : Bool} {d d' : Tree} (hd : WfTree d) (h : restoreFrom E src skip ow d = .ok d') :
    WfTree d' := by
  by_cases hp : src.path = E.base.bagpath
  · unfold restoreFrom at h
    rw [if_pos hp] at h; cases h; exact hd
  · obtain ⟨sb, s, hb, hr, hu⟩ := restoreFrom_parts h hp
    have ha := actsOf_ok hs (hE.walk _ hs) he
    have h1 := wf_runActs ha hd hr
    rcases hu with ⟨_, rfl⟩ | ⟨_, hu⟩
    · exact h1
    · have hl := (openBag_parts hb).2.1
      exact wf_updateManifests hu (fun e he => ((entries_inv hl).2 e he).2)
        (fun p a v hv => hE.algs a (look_alg hl hv)) h1

theorem read_none_of_dget {t : Tree} {p : Path} (h : dget t p = none) : t.read p = none := by
  unfold Tree.read; rw [h]

/-- Without overwriting: contents after restoring a source. -/
theorem restoreFrom_read {E : RestoreEnv} (hE : EnvOk E) {src : RSource} (hs : WfTree src.tree) {skip : List Str}
    (he : [] ∉ skip) {d d' : Tree} (h : restoreFrom E src skip false d = .ok d')
    (hp : src.path ≠ E.base.bagpath) {p : Path} (hne : p ≠ []) (hm : ¬ ManifestFile p) :
    (dget d p ≠ none → dget d' p = dget d p) ∧
    (dget d p = none → Deleted skip p → dget d' p = none) ∧
    (dget d p = none → ¬ Deleted skip p → dget d' p = dget src.tree p) := by
  have h1 := restoreFrom_dget hE hs he h hp hne hm
  have hw := hE.walk _ hs
  unfold actEffect at h1
  refine ⟨fun hx => ?_, fun hx hdel => ?_, fun hx hdel => ?_⟩
  · simpa [hx] using h1
  · rw [h1, if_neg (fun hh => ((file_mem_acts hs hw he).1 hh.1).2 hdel),
      if_neg (fun hh => ((dir_mem_acts hs hw he).1 hh.1).2.2 hdel), hx]
  · rw [h1]
    by_cases hf : src.tree.isfile p = true
    · rw [if_pos ⟨(file_mem_acts hs hw he).2 ⟨hf, hdel⟩, .inr hx⟩]
      obtain ⟨c, hc⟩ := isfile_iff.1 hf
      rw [Tree.read, hc]; rfl
    · rw [if_neg (fun hh => hf ((file_mem_acts hs hw he).1 hh.1).1)]
      by_cases hd : src.tree.isdir p = true
      · rw [if_pos ⟨(dir_mem_acts hs hw he).2 ⟨hne, hd, hdel⟩, hx⟩]
        rcases isdir_iff.1 hd with e | e
        · exact absurd e hne
        · exact e.symm
      · rw [if_neg (fun hh => hd ((dir_mem_acts hs hw he).1 hh.1).2.1), hx]
        cases hg : dget src.tree p with
        | none => rfl
        | some n =>
          cases n with
          | dir => exact absurd (isdir_iff.2 (.inr hg)) hd
          | file c => exact absurd (isfile_iff.2 ⟨c, hg⟩) hf

/-! ## A sequence of sources -/

/-- Restore from bags one after the other. -/
def restoreList (E : RestoreEnv) (skip : List Str) : List RSource → Tree → Except PyErr Tree
  | [], d => .ok d
  | s :: rest, d =>
    match restoreFrom E s skip false d with
    | .error e => .error e
    | .ok d => restoreList E skip rest d

theorem restoreMembers_eq {E : RestoreEnv} {skip : List Str} {names : List Str} {srcs : List RSource}
    (hf : Forall₂ (fun n s => E.find n = some s) names srcs) (d : Tree) :
    restoreMembers E skip names d = restoreList E skip srcs d := by
  induction hf generalizing d with
  | nil => rfl
  | cons h1 _ ih =>
    simp only [restoreMembers, restoreMember, restoreList, h1]
    cases restoreFrom E _ skip false d with
    | error e => rfl
    | ok d1 => exact ih d1

theorem wf_restoreList {E : RestoreEnv} (hE : EnvOk E) {skip : List Str} (he : [] ∉ skip) {srcs : List RSource}
    (hs : ∀ s ∈ srcs, WfTree s.tree) {d d' : Tree} (hd : WfTree d) (h : restoreList E skip srcs d = .ok d') :
    WfTree d' := by
  induction srcs generalizing d with
  | nil => cases h; exact hd
  | cons s srcs ih =>
    simp only [restoreList] at h
    cases h1 : restoreFrom E s skip false d with
    | error e => rw [h1] at h; cases h
    | ok d1 =>
      rw [h1] at h
      exact ih (fun s hs' => hs s (List.mem_cons_of_mem _ hs'))
        (wf_restoreFrom hE (hs s List.mem_cons_self) he hd h1) h

/-- The first of the bags that has something at `p`. -/
def firstAt : List RSource → Path → Option Node
  | [], _ => none
  | s :: rest, p => (dget s.tree p).or (firstAt rest p)

theorem restoreList_read {E : RestoreEnv} (hE : EnvOk E) {skip : List Str} (he : [] ∉ skip) {srcs : List RSource}
    (hs : ∀ s ∈ srcs, WfTree s.tree ∧ s.path ≠ E.base.bagpath) {d d' : Tree} (h : restoreList E skip srcs d = .ok d')
    {p : Path} (hne : p ≠ []) (hm : ¬ ManifestFile p) :
    (dget d p ≠ none → dget d' p = dget d p) ∧
    (dget d p = none → Deleted skip p → dget d' p = none) ∧
    (dget d p = none → ¬ Deleted skip p → dget d' p = firstAt srcs p) := by
  induction srcs generalizing d with
  | nil => cases h; exact ⟨fun _ => rfl, fun h _ => h, fun h _ => h⟩
  | cons s srcs ih =>
    simp only [restoreList] at h
    cases h1 : restoreFrom E s skip false d with
    | error e => rw [h1] at h; cases h
    | ok d1 =>
      rw [h1] at h
      obtain ⟨a1, a2, a3⟩ := restoreFrom_read hE (hs s List.mem_cons_self).1 he h1 (hs s List.mem_cons_self).2 hne hm
      obtain ⟨b1, b2, b3⟩ := ih (fun s hs' => hs s (List.mem_cons_of_mem _ hs')) h
      refine ⟨fun hx => ?_, fun hx hdel => b2 (a2 hx hdel) hdel, fun hx hdel => ?_⟩
      · have e := a1 hx
        rw [b1 (by rw [e]; exact hx), e]
      · have e := a3 hx hdel
        unfold firstAt
        cases hg : dget s.tree p with
        | none => rw [hg] at e; rw [b3 e hdel]; rfl
        | some n => rw [hg] at e; rw [b1 (by rw [e]; simp), e]; rfl

/-! ## Saving -/

/-- The files `Bag.save` writes. -/
def Saved (b : RBag) (p : Path) : Prop := p = [b.tagFile] ∨ ∃ a, p = manPath py!"tagmanifest" a

theorem writeTagManifests_ok {sum : Str → Str → Str} {algs : List Str} {t t' : Tree}
    (h : writeTagManifests sum algs t = .ok t') :
    (∀ p, (∀ a ∈ algs, p ≠ manPath py!"tagmanifest" a) → dget t' p = dget t p) ∧
    ((∀ a ∈ algs, '/' ∉ a) → WfTree t → WfTree t') := by
  induction algs generalizing t with
  | nil => cases h; exact ⟨fun _ _ => rfl, fun _ h => h⟩
  | cons a algs ih =>
    simp only [writeTagManifests] at h
    cases hw : t.write (manPath py!"tagmanifest" a)
        ((taggedFiles t).map (fun pc => hashLine (sum a pc.2) (joinPath pc.1))).flatten with
    | error e => rw [hw] at h; cases h
    | ok t1 =>
      rw [hw] at h
      obtain ⟨h1, h2⟩ := ih h
      refine ⟨fun p hp => ?_, fun ha hwf => ?_⟩
      · rw [h1 p (fun a' ha' => hp a' (List.mem_cons_of_mem _ ha'))]
        obtain ⟨rfl, _⟩ := Tree.write_ok hw
        rw [dget_dset, if_neg (fun e => hp a List.mem_cons_self e.symm)]
      · exact h2 (fun a' ha' => ha a' (List.mem_cons_of_mem _ ha'))
          (wf_write hwf (manPath_good _ a (.inr rfl) (ha a List.mem_cons_self)) hw)

theorem saveBag_ok {E : RestoreEnv} {b b' : RBag} (h : saveBag E b = .ok b') :
    b'.tagFile = b.tagFile ∧ b'.info = b.info ∧ b'.version = b.version ∧ b'.encoding = b.encoding ∧
    (∀ p, ¬ Saved b p → dget b'.tree p = dget b.tree p) ∧
    b'.tree.read [b.tagFile] = some (fieldsText (tagFields b.info)) ∨ ∃ a, [b.tagFile] = manPath py!"tagmanifest" a := by
  by_cases hx : ∃ a, [b.tagFile] = manPath py!"tagmanifest" a
  · exact .inr hx
  left
  unfold saveBag at h
  cases hw : b.tree.write [b.tagFile] (fieldsText (tagFields b.info)) with
  | error e => rw [hw] at h; cases h
  | ok t =>
    rw [hw] at h
    simp only at h
    cases hm : writeTagManifests E.sum b.algorithms t with
    | error e => rw [hm] at h; cases h
    | ok t1 =>
      rw [hm] at h
      simp only at h
      cases hl : loadManifests E.base b.version b.encoding t1 with
      | error e => rw [hl] at h; cases h
      | ok r =>
        rw [hl] at h
        cases h
        obtain ⟨rfl, _⟩ := Tree.write_ok hw
        obtain ⟨h1, _⟩ := writeTagManifests_ok hm
        refine ⟨rfl, rfl, rfl, rfl, ?_, ?_⟩
        · intro p hp
          rw [h1 p (fun a _ e => hp (.inr ⟨a, e⟩)), dget_dset, if_neg (fun e => hp (.inl e.symm))]
        · rw [read_of_dget (h1 [b.tagFile] (fun a _ e => hx ⟨a, e⟩)), Tree.read, dget_dset, if_pos rfl]

/-- The metadata file has one of two names. -/
def TagName (f : Str) : Prop := f = py!"bag-info.txt" ∨ f = py!"package-info.txt"

theorem tagFileName_cases {v : List Int} {f : Str} (h : tagFileName v = some f) : TagName f := by
  unfold tagFileName at h
  split at h
  · cases h; exact .inr rfl
  · split at h
    · cases h; exact .inl rfl
    · cases h

theorem tagName_ne {f : Str} (h : TagName f) (a : Str) : [f] ≠ manPath py!"tagmanifest" a := by
  unfold manPath
  rcases h with rfl | rfl <;> (intro e; simp at e)

theorem tagName_good {f : Str} (h : TagName f) : GoodPath [f] := by
  rcases h with rfl | rfl
  · exact good_baginfo
  · exact ⟨by decide, by intro c hc; simp only [List.mem_singleton] at hc; subst hc; exact ⟨by decide, by decide, by decide, by decide⟩⟩

theorem algorithms_sub {cfg : ReadCfg} {v : List Int} {enc : Str} {t : Tree} {algs : List Str} {es : Entries}
    (h : loadManifests cfg v enc t = .ok (algs, es)) : ∀ a ∈ algs, a ∈ cfg.algs := by
  unfold loadManifests at h
  simp only at h
  split at h
  · cases h
  · cases h
    have key : ∀ kind, ∀ a ∈ (manifestFiles cfg kind t).map Prod.fst, a ∈ cfg.algs := by
      intro kind a ha
      obtain ⟨e, he, rfl⟩ := List.mem_map.1 ha
      unfold manifestFiles at he
      obtain ⟨a', ha', rfl⟩ := List.mem_map.1 (List.mem_filter.1 he).1
      exact ha'
    intro a ha
    rw [List.map_append, List.mem_append] at ha
    rcases ha with ha | ha
    · exact key _ a ha
    · split at ha
      · exact key _ a ha
      · simp at ha

theorem walkPayload_dset (blen : Str → Nat) (t : Tree) {p : Path} (hp : p.head? ≠ some py!"data") (n : Node) :
    walkPayload blen (dset t p n) = walkPayload blen t := by
  unfold walkPayload
  induction t with
  | nil =>
    cases n with
    | dir => rfl
    | file c => simp [dset, hp]
  | cons e t ih =>
    obtain ⟨q, m⟩ := e
    rw [dset]
    by_cases h : q = p
    · subst h
      rw [if_pos rfl]
      cases n <;> cases m <;> simp [List.filterMap_cons, hp]
    · rw [if_neg h, List.filterMap_cons, List.filterMap_cons, ih]

theorem walkPayload_tags (blen : Str → Nat) {sum : Str → Str → Str} {algs : List Str} {t t' : Tree}
    (h : writeTagManifests sum algs t = .ok t') : walkPayload blen t' = walkPayload blen t := by
  induction algs generalizing t with
  | nil => cases h; rfl
  | cons a algs ih =>
    simp only [writeTagManifests] at h
    cases hw : t.write (manPath py!"tagmanifest" a)
        ((taggedFiles t).map (fun pc => hashLine (sum a pc.2) (joinPath pc.1))).flatten with
    | error e => rw [hw] at h; cases h
    | ok t1 =>
      rw [hw] at h
      rw [ih h]
      obtain ⟨rfl, _⟩ := Tree.write_ok hw
      exact walkPayload_dset blen t (by simp [manPath]) _

theorem walkPayload_rmtree (blen : Str → Nat) {t t' : Tree} (h : t.rmtree [py!"multibag"] = .ok t') :
    walkPayload blen t' = walkPayload blen t := by
  unfold Tree.rmtree at h
  split at h
  · cases h
    unfold walkPayload
    rename_i hdir
    clear hdir
    induction t with
    | nil => rfl
    | cons e t ih =>
      obtain ⟨q, m⟩ := e
      rw [List.filter_cons]
      by_cases hq : List.isPrefixOf [py!"multibag"] q = true
      · rw [if_neg (by simp only [hq]; simp), ih, List.filterMap_cons]
        have : q.head? ≠ some py!"data" := by
          cases q with
          | nil => simp
          | cons x q =>
            simp only [List.isPrefixOf, Bool.and_eq_true, beq_iff_eq] at hq
            rw [← hq.1]; simp
        cases m <;> simp [this]
      · rw [if_pos (by simp only [hq]; rfl), List.filterMap_cons, List.filterMap_cons, ih]
  · cases h

/-- A bag that is ready to be saved. -/
structure SaveOk (E : RestoreEnv) (b : RBag) : Prop where
  tag : TagName b.tagFile
  algs : ∀ a ∈ b.algorithms, a ∈ E.base.algs

theorem saveBag_spec {E : RestoreEnv} {b b' : RBag} (h : saveBag E b = .ok b') (hb : SaveOk E b) :
    SaveOk E b' ∧ b'.tagFile = b.tagFile ∧ b'.info = b.info ∧
    (∀ p, ¬ Saved b p → dget b'.tree p = dget b.tree p) ∧
    b'.tree.read [b.tagFile] = some (fieldsText (tagFields b.info)) ∧
    ((∀ a ∈ E.base.algs, '/' ∉ a) → WfTree b.tree → WfTree b'.tree) ∧
    (∀ blen, walkPayload blen b'.tree = walkPayload blen b.tree) := by
  unfold saveBag at h
  cases hw : b.tree.write [b.tagFile] (fieldsText (tagFields b.info)) with
  | error e => rw [hw] at h; cases h
  | ok t =>
    rw [hw] at h
    simp only at h
    cases hm : writeTagManifests E.sum b.algorithms t with
    | error e => rw [hm] at h; cases h
    | ok t1 =>
      rw [hm] at h
      simp only at h
      cases hl : loadManifests E.base b.version b.encoding t1 with
      | error e => rw [hl] at h; cases h
      | ok r =>
        obtain ⟨algs, es⟩ := r
        rw [hl] at h
        cases h
        obtain ⟨h1, h2⟩ := writeTagManifests_ok hm
        have hwf := fun hx : WfTree b.tree => wf_write hx (tagName_good hb.tag) hw
        have hpay : ∀ blen, walkPayload blen t = walkPayload blen b.tree := by
          intro blen
          obtain ⟨rfl, _⟩ := Tree.write_ok hw
          refine walkPayload_dset blen _ ?_ _
          rcases hb.tag with e | e <;> rw [e] <;> decide
        obtain ⟨rfl, _⟩ := Tree.write_ok hw
        refine ⟨⟨hb.tag, ?_⟩, rfl, rfl, ?_, ?_, ?_, ?_⟩
        · intro a ha
          rcases List.mem_append.1 ha with ha | ha
          · exact hb.algs a ha
          · exact algorithms_sub hl a ha
        · intro p hp
          rw [h1 p (fun a _ e => hp (.inr ⟨a, e⟩)), dget_dset, if_neg (fun e => hp (.inl e.symm))]
        · rw [read_of_dget (h1 [b.tagFile] (fun a _ e => tagName_ne hb.tag a e)), Tree.read, dget_dset, if_pos rfl]
        · intro hal hx
          exact h2 (fun a ha => hal a (hb.algs a ha)) (hwf hx)
        · intro blen
          rw [walkPayload_tags blen hm, hpay]

/-! ## The end of a restore -/

theorem special_saved {b : RBag} (hb : TagName b.tagFile) {p : Path} (hp : ¬ Special p) : ¬ Saved b p := by
  rintro (e | ⟨a, e⟩)
  · rcases hb with h | h
    · exact hp (.inl (by rw [e, h]))
    · exact hp (.inr (.inl (by rw [e, h])))
  · exact hp (.inr (.inr (.inr (.inl ⟨a, .inr (by rw [e]; simp [manPath])⟩))))

theorem rmtree_dget {t t' : Tree} {q : Path} (h : t.rmtree q = .ok t') (p : Path) :
    dget t' p = if q.isPrefixOf p = true then none else dget t p := by
  unfold Tree.rmtree at h
  split at h
  · cases h
    rename_i hdir
    clear hdir
    induction t with
    | nil => simp [dget]
    | cons e t ih =>
      obtain ⟨k, n⟩ := e
      rw [List.filter_cons]
      by_cases hk : q.isPrefixOf k = true
      · rw [if_neg (by simp only [hk]; simp), ih, dget]
        by_cases e : k = p
        · subst e; rw [if_pos hk, if_pos hk]
        · rw [if_neg e]
      · rw [if_pos (by simp only [hk]; rfl), dget, dget, ih]
        by_cases e : k = p
        · subst e; rw [if_pos rfl, if_neg hk, if_pos rfl]
        · rw [if_neg e, if_neg e]
  · cases h

theorem wf_rmtree {t t' : Tree} {q : Path} (hw : WfTree t) (h : t.rmtree q = .ok t') : WfTree t' := by
  have hd := rmtree_dget h
  have hk : ∀ p ∈ dkeys t', p ∈ dkeys t ∧ q.isPrefixOf p = false := by
    intro p hp
    obtain ⟨v, hv⟩ := mem_dkeys_iff.1 hp
    rw [hd] at hv
    split at hv
    · cases hv
    · rename_i hq
      exact ⟨mem_dkeys_iff.2 ⟨v, hv⟩, Bool.eq_false_iff.2 hq⟩
  refine ⟨?_, fun p hp => hw.good p (hk p hp).1, fun p hp => ?_⟩
  · unfold Tree.rmtree at h
    split at h
    · cases h
      have := hw.nodup
      unfold dkeys at this ⊢
      exact this.sublist (List.filter_sublist.map _)
    · cases h
  · have := hw.parent p (hk p hp).1
    rcases isdir_iff.1 this with e | e
    · rw [e]; rfl
    · rw [isdir_iff]; right
      rw [hd, if_neg, e]
      intro hq
      have h2 : q <+: p := (List.isPrefixOf_iff_prefix.1 hq).trans (List.dropLast_prefix _)
      have h3 := (hk p hp).2
      rw [List.isPrefixOf_iff_prefix.2 h2] at h3
      exact absurd h3 (by simp)

/-- The metadata that is saved last. -/
def finalInfo (E : RestoreEnv) (updSizes removeMb : Bool) (info info' : Info) (t : Tree) : Prop :=
  let i1 := if removeMb then multibagKeys.foldl ddel info else info
  if updSizes then ∃ t' i', info' =
    dset (dset i1 py!"Payload-Oxum" (.one (oxumText E.blen t))) py!"Bag-Size" (.one (E.sizeText t' i'))
  else info' = i1

theorem finishRestore_spec {E : RestoreEnv} {us rm : Bool} {d out : Tree} (h : finishRestore E us rm d = .ok out) :
    (∀ p, ¬ Special p → dget out p = dget d p) ∧
    (rm = true → ∀ p, [py!"multibag"] <+: p → out.exists p = false) ∧
    ((∀ a ∈ E.base.algs, '/' ∉ a) → WfTree d → WfTree out) ∧
    (∀ blen, walkPayload blen out = walkPayload blen d) ∧
    (∀ a, dget out (manPath py!"manifest" a) = dget d (manPath py!"manifest" a)) ∧
    ∃ b, openBag E.base d = .ok b ∧ ∃ info', finalInfo E us rm b.info info' d ∧
      ((us = true ∨ rm = true) → out.read [b.tagFile] = some (fieldsText (tagFields info'))) := by
  unfold finishRestore at h
  cases hb : openBag E.base d with
  | error e => rw [hb] at h; cases h
  | ok b =>
    rw [hb] at h
    simp only at h
    obtain ⟨hbt, hbl, htf, _⟩ := openBag_parts hb
    have hb0 : SaveOk E b := ⟨tagFileName_cases htf, algorithms_sub hbl⟩
    have manNotSaved : ∀ (b : RBag) (_ : TagName b.tagFile) a, ¬ Saved b (manPath py!"manifest" a) := by
      intro b hbt a hs
      rcases hs with e | ⟨a', e⟩
      · unfold manPath at e
        rcases hbt with h | h <;> rw [h] at e <;> simp at e
      · exact manPath_ne _ _ e
    have mbNotSaved : ∀ (b : RBag) (_ : TagName b.tagFile) p, [py!"multibag"] <+: p → ¬ Saved b p := by
      rintro b hbt p ⟨r, rfl⟩ hs
      rcases hs with e | ⟨a', e⟩
      · rcases hbt with h | h <;> rw [h] at e <;> simp at e
      · unfold manPath at e; simp at e
    -- removing
    cases h1 : (if rm = true then removeTags E b else .ok b) with
    | error e => rw [h1] at h; cases h
    | ok b1 =>
      rw [h1] at h
      simp only at h
      have r1 : SaveOk E b1 ∧ b1.tagFile = b.tagFile ∧ b1.info = (if rm then multibagKeys.foldl ddel b.info else b.info) ∧
          (∀ p, ¬ Special p → dget b1.tree p = dget d p) ∧
          (rm = true → ∀ p, [py!"multibag"] <+: p → dget b1.tree p = none) ∧
          ((∀ a ∈ E.base.algs, '/' ∉ a) → WfTree d → WfTree b1.tree) ∧
          (∀ blen, walkPayload blen b1.tree = walkPayload blen d) ∧
          (∀ a, dget b1.tree (manPath py!"manifest" a) = dget d (manPath py!"manifest" a)) ∧
          (rm = true → b1.tree.read [b.tagFile] = some (fieldsText (tagFields b1.info))) := by
        by_cases hr : rm = true
        · rw [if_pos hr] at h1
          unfold removeTags at h1
          cases ht : b.tree.rmtree [py!"multibag"] with
          | error e => rw [ht] at h1; cases h1
          | ok t =>
            rw [ht] at h1
            simp only at h1
            have hs : SaveOk E { b with tree := t, info := multibagKeys.foldl ddel b.info } := ⟨hb0.tag, hb0.algs⟩
            obtain ⟨s1, s2, s3, s4, s5, s6, s7⟩ := saveBag_spec h1 hs
            have hdg := rmtree_dget ht
            simp only at s2 s3 s4 s5 s6 s7
            refine ⟨s1, s2, by rw [s3, if_pos hr], ?_, ?_, ?_, ?_, ?_, ?_⟩
            · intro p hp
              rw [s4 p (special_saved hs.tag hp), hdg, if_neg, hbt]
              intro hx
              exact hp (.inr (.inr (.inr (.inr (List.isPrefixOf_iff_prefix.1 hx)))))
            · intro _ p hp
              rw [s4 p (mbNotSaved _ hs.tag p hp), hdg, if_pos (List.isPrefixOf_iff_prefix.2 hp)]
            · intro hal hw
              exact s6 hal (wf_rmtree (by rw [hbt]; exact hw) ht)
            · intro blen
              rw [s7, walkPayload_rmtree blen ht, hbt]
            · intro a
              rw [s4 _ (manNotSaved _ hs.tag a), hdg, if_neg, hbt]
              simp [manPath, List.isPrefixOf]
            · intro _
              rw [s3]; exact s5
        · rw [if_neg hr] at h1
          cases h1
          refine ⟨hb0, rfl, by rw [if_neg hr], ?_, fun h => absurd h hr, ?_, ?_, ?_, fun h => absurd h hr⟩
          · intro p _; rw [hbt]
          · intro _ hw; rw [hbt]; exact hw
          · intro blen; rw [hbt]
          · intro a; rw [hbt]
      obtain ⟨k1, k2, k3, k4, k5, k6, k7, k8, k9⟩ := r1
      cases h2 : (if us = true then updateSizes E b1 else .ok b1) with
      | error e => rw [h2] at h; cases h
      | ok b2 =>
        rw [h2] at h
        cases h
        by_cases hu : us = true
        · rw [if_pos hu] at h2
          unfold updateSizes at h2
          cases h3 : saveBag E { b1 with info := dset b1.info py!"Payload-Oxum" (.one (oxumText E.blen b1.tree)) } with
          | error e => rw [h3] at h2; cases h2
          | ok b3 =>
            rw [h3] at h2
            simp only at h2
            obtain ⟨s1, s2, s3, s4, s5, s6, s7⟩ := saveBag_spec h3 ⟨k1.tag, k1.algs⟩
            simp only at s2 s3 s4 s5 s6 s7
            obtain ⟨u1, u2, u3, u4, u5, u6, u7⟩ := saveBag_spec h2 ⟨s1.tag, s1.algs⟩
            simp only at u2 u3 u4 u5 u6 u7
            have both : ∀ p, ¬ (p = [b1.tagFile] ∨ ∃ a, p = manPath py!"tagmanifest" a) → dget b2.tree p = dget b1.tree p := by
              intro p hp
              rw [u4 p (by unfold Saved; simp only [s2]; exact hp), s4 p hp]
            have e : oxumText E.blen b1.tree = oxumText E.blen d := by unfold oxumText; rw [k7]
            refine ⟨?_, ?_, ?_, ?_, ?_, b, rfl, b2.info, ?_, ?_⟩
            · intro p hp
              rw [both p (special_saved k1.tag hp), k4 p hp]
            · intro hr p hp
              have hne : p ≠ [] := by rintro rfl; simp at hp
              have := both p (mbNotSaved _ k1.tag p hp)
              rw [k5 hr p hp] at this
              unfold Tree.exists
              rw [this]; simp [hne]
            · intro hal hw
              exact u6 hal (s6 hal (k6 hal hw))
            · intro blen
              rw [u7, s7, k7]
            · intro a
              rw [both _ (manNotSaved _ k1.tag a), k8]
            · unfold finalInfo
              simp only [hu, if_true]
              exact ⟨b3.tree, b3.info, by rw [u3, s3, k3, e]⟩
            · intro _
              rw [← k2, ← s2, u3]
              exact u5
        · rw [if_neg hu] at h2
          cases h2
          refine ⟨k4, ?_, k6, k7, k8, b, rfl, b1.info, ?_, ?_⟩
          · intro hr p hp
            have hne : p ≠ [] := by rintro rfl; simp at hp
            unfold Tree.exists
            rw [k5 hr p hp]; simp [hne]
          · unfold finalInfo
            simp only [hu]
            exact k3
          · rintro (h | h)
            · exact absurd h hu
            · exact k9 h

end Verif
