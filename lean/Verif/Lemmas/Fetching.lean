import Verif.Model.Fetching
import Verif.Lemmas.RestoreAll
import Verif.Props.Restorer
import Verif.Props.RestoreCall
/-!
# Restoring with fetched bags in the destination directory

The default place for fetched bags is inside the destination.  A run with such bags is followed side by side with one in
which the bags are elsewhere.
-/

namespace Verif

open Spec

/-- The directory with the multibag tag files. -/
def mbDir : Path := [py!"multibag"]

/-- The directory in the destination with the fetched bags. -/
def cacheRel : Path := [py!"multibag", py!"_membercache"]

/-- What is in a destination besides the directory with the multibag tag files. -/
def besideMb (t : Tree) : Tree := t.filter (fun e => (fun q : Path => !mbDir.isPrefixOf q) e.1)

/-- The fetched bags in a destination. -/
def cacheOf (t : Tree) : Tree := t.filter (fun e => (fun q : Path => cacheRel.isPrefixOf q) e.1)

theorem filter_dset {K V : Type} [DecidableEq K] (t : List (K × V)) (f : K → Bool) (k : K) (v : V) :
    (dset t k v).filter (fun e => f e.1) =
      if f k then dset (t.filter (fun e => f e.1)) k v else t.filter (fun e => f e.1) := by
  induction t with
  | nil => by_cases h : f k = true <;> simp [dset, h]
  | cons x xs ih =>
    obtain ⟨k', v'⟩ := x
    simp only [dset]
    by_cases e : k' = k
    · subst e
      by_cases h : f k' = true <;> simp [dset, h]
    · rw [if_neg e, List.filter_cons, ih, List.filter_cons]
      by_cases h : f k' = true <;> by_cases h2 : f k = true <;> simp [dset, h, h2, e]

/-- The destination `d'`, with fetched bags in it, is otherwise like `d`. -/
structure Alike (d d' : Tree) : Prop where
  out : besideMb d' = besideMb d
  mid : ∀ p, mbDir <+: p → ¬ cacheRel <+: p →
    dget d' p = dget d p ∨ (p = mbDir ∧ dget d p = none ∧ dget d' p = some .dir)
  cache : ∀ p, cacheRel <+: p → dget d p = none
  dir : dget d' mbDir = some .dir

theorem dget_besideMb (t : Tree) (p : Path) : dget (besideMb t) p = if mbDir <+: p then none else dget t p := by
  unfold besideMb
  rw [dget_filter_key t (fun q => !mbDir.isPrefixOf q)]
  by_cases h : mbDir <+: p
  · have := List.isPrefixOf_iff_prefix.2 h
    simp [this, h]
  · have : mbDir.isPrefixOf p = false := by
      cases e : mbDir.isPrefixOf p with
      | false => rfl
      | true => exact absurd (List.isPrefixOf_iff_prefix.1 e) h
    simp [this, h]

theorem Alike.at {d d' : Tree} (h : Alike d d') {p : Path} (hp : ¬ cacheRel <+: p) :
    dget d' p = dget d p ∨ (p = mbDir ∧ dget d p = none ∧ dget d' p = some .dir) := by
  by_cases hm : mbDir <+: p
  · exact h.mid p hm hp
  · left
    have := congrArg (fun t => dget t p) h.out
    simp only [dget_besideMb, hm, if_false] at this
    exact this

theorem Alike.same {d d' : Tree} (h : Alike d d') {p : Path} (hp : ¬ cacheRel <+: p) (hm : p ≠ mbDir) : dget d' p = dget d p := by
  rcases h.at hp with h | ⟨h, _⟩
  · exact h
  · exact absurd h hm

theorem Alike.isdir {d d' : Tree} (h : Alike d d') {p : Path} (hp : ¬ cacheRel <+: p) (hd : d.isdir p = true) : d'.isdir p = true := by
  rw [isdir_iff] at hd ⊢
  rcases hd with e | e
  · exact .inl e
  · rcases h.at hp with h1 | ⟨_, h1, _⟩
    · exact .inr (h1.trans e)
    · rw [e] at h1; cases h1

theorem Alike.exists {d d' : Tree} (h : Alike d d') {p : Path} (hp : ¬ cacheRel <+: p) (hd : d.exists p = true) : d'.exists p = true := by
  unfold Tree.exists at hd ⊢
  rw [Bool.or_eq_true] at hd ⊢
  rcases hd with e | e
  · exact .inl e
  · rcases h.at hp with h1 | ⟨_, _, h1⟩
    · exact .inr (by rw [h1]; exact e)
    · exact .inr (by rw [h1]; rfl)

theorem isPrefixOf_false {p q : Path} (h : ¬ p <+: q) : p.isPrefixOf q = false := by
  cases e : p.isPrefixOf q with
  | false => rfl
  | true => exact absurd (List.isPrefixOf_iff_prefix.1 e) h

theorem besideMb_dset (t : Tree) (p : Path) (v : Node) :
    besideMb (dset t p v) = if mbDir <+: p then besideMb t else dset (besideMb t) p v := by
  unfold besideMb
  rw [filter_dset t (fun q => !mbDir.isPrefixOf q)]
  by_cases h : mbDir <+: p
  · simp [List.isPrefixOf_iff_prefix.2 h, h]
  · simp [isPrefixOf_false h, h]

theorem cacheOf_dset (t : Tree) {p : Path} (hp : ¬ cacheRel <+: p) (v : Node) : cacheOf (dset t p v) = cacheOf t := by
  unfold cacheOf
  rw [filter_dset t (fun q => cacheRel.isPrefixOf q)]
  simp [isPrefixOf_false hp]

theorem Alike.dset {d d' : Tree} (h : Alike d d') {p : Path} (hp : ¬ cacheRel <+: p) (v : Node) (hv : p ≠ mbDir ∨ v = .dir) :
    Alike (dset d p v) (dset d' p v) where
  out := by rw [besideMb_dset, besideMb_dset, h.out]
  mid q hq hc := by
    rw [dget_dset, dget_dset]
    by_cases e : p = q
    · simp [e]
    · simp only [e, if_false]; exact h.mid q hq hc
  cache q hq := by
    rw [dget_dset, if_neg (fun (e : p = q) => hp (e ▸ hq))]
    exact h.cache q hq
  dir := by
    rw [dget_dset]
    rcases hv with hv | rfl
    · rw [if_neg hv]; exact h.dir
    · split
      · rfl
      · exact h.dir

theorem cacheRel_not_mb : ¬ cacheRel <+: mbDir := by decide

theorem Alike.makeMb {d d' : Tree} (h : Alike d d') :
    Alike (Verif.dset d mbDir .dir) d' where
  out := by rw [besideMb_dset, if_pos (List.prefix_refl _), h.out]
  mid q hq hc := by
    rw [dget_dset]
    by_cases e : mbDir = q
    · subst e; simp [h.dir]
    · simp only [e, if_false]
      rcases h.mid q hq hc with h1 | ⟨h1, _⟩
      · exact .inl h1
      · exact absurd h1.symm e
  cache q hq := by
    rw [dget_dset, if_neg (fun (e : mbDir = q) => cacheRel_not_mb (e ▸ hq))]
    exact h.cache q hq
  dir := h.dir

/-- After a step of both runs: they are still alike, and the fetched bags are untouched. -/
def StillAlike (d' e e' : Tree) : Prop := Alike e e' ∧ cacheOf e' = cacheOf d'

theorem not_cache_dropLast {p : Path} (h : ¬ cacheRel <+: p) : ¬ cacheRel <+: p.dropLast :=
  fun h1 => h (h1.trans (List.dropLast_prefix p))

theorem Alike.write {d d' e : Tree} (h : Alike d d') {p : Path} (hp : ¬ cacheRel <+: p) (hm : p ≠ mbDir) {c : Str}
    (hw : d.write p c = .ok e) : ∃ e', d'.write p c = .ok e' ∧ StillAlike d' e e' := by
  unfold Tree.write at hw
  split at hw
  · cases hw
  · next hc =>
    cases hw
    simp only [Bool.or_eq_true, Bool.not_eq_true', not_or, Bool.not_eq_true, Bool.not_eq_false] at hc
    have h1 : d'.isdir p = false := by
      have e := h.same hp hm
      have := hc.1
      unfold Tree.isdir at this ⊢
      rw [e]; exact this
    refine ⟨Verif.dset d' p (.file c), ?_, h.dset hp _ (.inl hm), cacheOf_dset _ hp _⟩
    unfold Tree.write
    rw [if_neg]
    simp [h1, h.isdir (not_cache_dropLast hp) hc.2]

theorem Alike.mkdir {d d' e : Tree} (h : Alike d d') {p : Path} (hp : ¬ cacheRel <+: p) (hw : d.mkdir p = .ok e) :
    (p = mbDir ∧ d'.exists p = true ∧ StillAlike d' e d') ∨
    (d'.exists p = false ∧ ∃ e', d'.mkdir p = .ok e' ∧ StillAlike d' e e') := by
  unfold Tree.mkdir at hw
  split at hw
  · cases hw
  · next hc =>
    cases hw
    simp only [Bool.or_eq_true, Bool.not_eq_true', not_or, Bool.not_eq_true, Bool.not_eq_false] at hc
    rcases h.at hp with h1 | ⟨h1, _, h3⟩
    · right
      have hx : d'.exists p = false := by
        have := hc.1
        unfold Tree.exists at this ⊢
        rw [h1]; exact this
      refine ⟨hx, Verif.dset d' p .dir, ?_, h.dset hp _ (.inr rfl), cacheOf_dset _ hp _⟩
      unfold Tree.mkdir
      rw [if_neg]
      simp [hx, h.isdir (not_cache_dropLast hp) hc.2]
    · left
      subst h1
      refine ⟨rfl, ?_, h.makeMb, rfl⟩
      unfold Tree.exists
      rw [h3]; rfl

/-- What is copied from a bag does not get in the way of the fetched bags. -/
def Act.Clear : Act → Prop
  | .stat p => ¬ cacheRel <+: p
  | .file p => ¬ cacheRel <+: p ∧ p ≠ mbDir
  | .dir p => ¬ cacheRel <+: p

theorem Alike.act {src : Tree} {s s' : Copying} {x : Act} (hx : x.Clear) {d' : Tree} (h : Alike s.dest d')
    (hr : doAct false src s x = .ok s') :
    ∃ e', doAct false src { s with dest := d' } x = .ok { s' with dest := e' } ∧ StillAlike d' s'.dest e' := by
  cases x with
  | stat p =>
    simp only [doAct] at hr ⊢
    split at hr
    · next hex =>
      cases hr
      rw [if_pos (h.exists hx hex)]
      exact ⟨d', rfl, h, rfl⟩
    · cases hr
  | file p =>
    simp only [doAct, Bool.false_and, Bool.false_eq_true, if_false] at hr ⊢
    have he : d'.exists p = s.dest.exists p := by
      unfold Tree.exists; rw [h.same hx.1 hx.2]
    rw [he]
    split at hr
    · next hex =>
      cases hr
      rw [if_pos hex]
      exact ⟨d', rfl, h, rfl⟩
    · next hex =>
      rw [if_neg hex]
      split at hr
      · cases hr
      · next c hc =>
        split at hr
        · cases hr
        · next e hw =>
          cases hr
          obtain ⟨e', h1, h2⟩ := h.write hx.1 hx.2 hw
          simp only [h1]
          exact ⟨e', rfl, h2⟩
  | dir p =>
    simp only [doAct] at hr ⊢
    split at hr
    · next hex =>
      cases hr
      rw [if_pos (h.exists hx hex)]
      exact ⟨d', rfl, h, rfl⟩
    · next hex =>
      split at hr
      · cases hr
      · next e hw =>
        cases hr
        rcases h.mkdir hx hw with ⟨_, h1, h2⟩ | ⟨h1, e', h2, h3⟩
        · rw [if_pos h1]; exact ⟨d', rfl, h2⟩
        · rw [if_neg (by rw [h1]; simp), h2]; exact ⟨e', rfl, h3⟩

theorem Alike.acts {src : Tree} {acts : List Act} (hx : ∀ x ∈ acts, x.Clear) {s s' : Copying} {d' : Tree} (h : Alike s.dest d')
    (hr : runActs false src acts s = .ok s') :
    ∃ e', runActs false src acts { s with dest := d' } = .ok { s' with dest := e' } ∧ StillAlike d' s'.dest e' := by
  induction acts generalizing s d' with
  | nil => simp only [runActs] at hr ⊢; cases hr; exact ⟨d', rfl, h, rfl⟩
  | cons x acts ih =>
    simp only [runActs] at hr ⊢
    cases h1 : doAct false src s x with
    | error e => rw [h1] at hr; cases hr
    | ok s1 =>
      rw [h1] at hr
      obtain ⟨e1, h2, h3, h4⟩ := h.act (hx x List.mem_cons_self) h1
      obtain ⟨e', h5, h6, h7⟩ := ih (fun y hy => hx y (List.mem_cons_of_mem _ hy)) h3 hr
      rw [h2]
      exact ⟨e', h5, h6, h7.trans h4⟩

/-! ## Opening -/

/-- The two destinations have the same files in their root directory. -/
def SameRoot (d d' : Tree) : Prop := ∀ n : Str, n ≠ py!"multibag" → dget d' [n] = dget d [n]

theorem Alike.root {d d' : Tree} (h : Alike d d') : SameRoot d d' := by
  intro n hn
  refine h.same (p := [n]) (fun hc => ?_) (fun e => hn (by injection e))
  have := hc.length_le
  simp [cacheRel] at this

theorem dashed_ne {kind rest : Str} : kind ++ '-' :: rest ≠ py!"multibag" := by
  intro e
  have : '-' ∈ (py!"multibag" : Str) := e ▸ (by simp)
  exact absurd this (by decide)

theorem SameRoot.isfile {d d' : Tree} (h : SameRoot d d') {n : Str} (hn : n ≠ py!"multibag") : d'.isfile [n] = d.isfile [n] := by
  unfold Tree.isfile; rw [h n hn]

theorem SameRoot.read {d d' : Tree} (h : SameRoot d d') {n : Str} (hn : n ≠ py!"multibag") : d'.read [n] = d.read [n] := by
  unfold Tree.read; rw [h n hn]

theorem SameRoot.exists {d d' : Tree} (h : SameRoot d d') {n : Str} (hn : n ≠ py!"multibag") : d'.exists [n] = d.exists [n] := by
  unfold Tree.exists; rw [h n hn]

theorem manifestFiles_root {d d' : Tree} (h : SameRoot d d') (cfg : ReadCfg) (kind : Str) :
    manifestFiles cfg kind d' = manifestFiles cfg kind d := by
  unfold manifestFiles
  apply List.filter_congr
  intro e he
  obtain ⟨a, _, rfl⟩ := List.mem_map.1 he
  refine h.isfile ?_
  rw [List.append_assoc]
  exact dashed_ne

theorem loadFiles_root {d d' : Tree} (h : SameRoot d d') (dg : Str → Bool) (v1 : Bool) (enc : Str) {files : List (Str × Path)}
    (hf : ∀ e ∈ files, ∃ n, e.2 = [n] ∧ n ≠ py!"multibag") (es : Entries) :
    loadFiles dg v1 enc d' files es = loadFiles dg v1 enc d files es := by
  induction files generalizing es with
  | nil => rfl
  | cons e files ih =>
    obtain ⟨alg, p⟩ := e
    obtain ⟨n, hn, hm⟩ := hf (alg, p) List.mem_cons_self
    simp only at hn; subst hn
    simp only [loadFiles]
    rw [h.read hm]
    cases loadLines dg v1 alg (manifestLines enc ((d.read [n]).getD [])) es with
    | error x => rfl
    | ok es => exact ih (fun e he => hf e (List.mem_cons_of_mem _ he)) es

theorem mem_manifestFiles_root {cfg : ReadCfg} {kind : Str} {t : Tree} {e : Str × Path} (he : e ∈ manifestFiles cfg kind t) :
    ∃ n, e.2 = [n] ∧ n ≠ py!"multibag" := by
  unfold manifestFiles at he
  obtain ⟨a, _, rfl⟩ := List.mem_map.1 (List.mem_filter.1 he).1
  refine ⟨_, rfl, ?_⟩
  rw [List.append_assoc]
  exact dashed_ne

theorem loadManifests_root {d d' : Tree} (h : SameRoot d d') (cfg : ReadCfg) (v : List Int) (enc : Str) :
    loadManifests cfg v enc d' = loadManifests cfg v enc d := by
  unfold loadManifests
  simp only [manifestFiles_root h]
  rw [loadFiles_root h]
  intro e he
  rcases List.mem_append.1 he with he | he
  · exact mem_manifestFiles_root he
  · split at he
    · exact mem_manifestFiles_root he
    · cases he

theorem tagFileName_ne {v : List Int} {n : Str} (h : tagFileName v = some n) : n ≠ py!"multibag" := by
  unfold tagFileName at h
  split at h
  · cases h; decide
  · split at h
    · cases h; decide
    · cases h

theorem loadTagFile_root {d d' : Tree} (h : SameRoot d d') (sig : Bool) {n : Str} (hn : n ≠ py!"multibag") :
    loadTagFile sig d' [n] = loadTagFile sig d [n] := by
  unfold loadTagFile; rw [h.read hn]

theorem openBag_root {d d' : Tree} (h : SameRoot d d') (cfg : ReadCfg) {b : RBag} (hb : openBag cfg d = .ok b) :
    openBag cfg d' = .ok { b with tree := d' } := by
  unfold openBag at hb ⊢
  rw [h.isfile (by decide), loadTagFile_root h true (by decide)]
  split at hb
  · cases hb
  · next h0 =>
    rw [if_neg h0]
    split at hb
    · cases hb
    · next tags h1 =>
      try simp only [h1]
      split at hb
      · cases hb
      · next h2 =>
        rw [if_neg h2]
        split at hb
        · cases hb
        · next v h3 =>
          try simp only [h3]
          split at hb
          · cases hb
          · next version h4 =>
            try simp only [h4]
            split at hb
            · cases hb
            · next tagFile h5 =>
              try simp only [h5]
              split at hb
              · cases hb
              · next enc h6 =>
                try simp only [h6]
                split at hb
                · cases hb
                · next h7 =>
                  rw [if_neg h7, h.exists (tagFileName_ne h5), loadTagFile_root h false (tagFileName_ne h5), loadManifests_root h]
                  split at hb
                  · cases hb
                  · next info h8 =>
                    try simp only [h8]
                    split at hb
                    · cases hb
                    · next algs es h9 =>
                      cases hb
                      simp only [h9]

/-! ## Manifests -/

theorem not_cache_root (n : Str) : ¬ cacheRel <+: [n] := by
  intro h
  have := h.length_le
  simp [cacheRel] at this

theorem Alike.writeRoot {d d' e : Tree} (h : Alike d d') {n : Str} (hn : n ≠ py!"multibag") {c : Str}
    (hw : d.write [n] c = .ok e) : ∃ e', d'.write [n] c = .ok e' ∧ StillAlike d' e e' :=
  h.write (not_cache_root n) (fun e => hn (by injection e)) hw

theorem Alike.writeManifest {d d' e : Tree} (h : Alike d d') {kind alg : Str} {es : List (Str × Str)}
    (hw : writeManifest d kind alg es = .ok e) : ∃ e', writeManifest d' kind alg es = .ok e' ∧ StillAlike d' e e' := by
  unfold Verif.writeManifest at hw ⊢
  split at hw
  · next h0 => cases hw; rw [if_pos h0]; exact ⟨d', rfl, h, rfl⟩
  · next h0 =>
    rw [if_neg h0]
    unfold manPath at hw ⊢
    refine h.writeRoot ?_ hw
    rw [List.append_assoc]
    exact dashed_ne

theorem Alike.writeManifests {m : ByAlg} {d d' e : Tree} (h : Alike d d') (hw : writeManifests d m = .ok e) :
    ∃ e', writeManifests d' m = .ok e' ∧ StillAlike d' e e' := by
  induction m generalizing d d' with
  | nil => simp only [Verif.writeManifests] at hw ⊢; cases hw; exact ⟨d', rfl, h, rfl⟩
  | cons x m ih =>
    obtain ⟨alg, ps⟩ := x
    simp only [Verif.writeManifests] at hw ⊢
    split at hw
    · cases hw
    · next d1 h1 =>
      split at hw
      · cases hw
      · next d2 h2 =>
        obtain ⟨e1, k1, k2, k3⟩ := h.writeManifest h1
        obtain ⟨e2, k4, k5, k6⟩ := k2.writeManifest h2
        obtain ⟨e3, k7, k8, k9⟩ := ih k5 hw
        simp only [k1, k4]
        exact ⟨e3, k7, k8, k9.trans (k6.trans k3)⟩

theorem Alike.updateManifests {cfg : ReadCfg} {src : Entries} {updated : List Str} {d d' e : Tree} (h : Alike d d')
    (hw : updateManifests cfg src updated d = .ok e) :
    ∃ e', updateManifests cfg src updated d' = .ok e' ∧ StillAlike d' e e' := by
  unfold Verif.updateManifests at hw ⊢
  split at hw
  · cases hw
  · next b hb =>
    rw [openBag_root h.root cfg hb]
    simp only
    split at hw
    · cases hw
    · next m hm =>
      try simp only [hm]
      exact h.writeManifests hw

/-- Nothing in a bag gets in the way of the fetched bags. -/
structure ClearBag (t : Tree) : Prop where
  cache : t.exists cacheRel = false
  dir : t.isfile mbDir = false

theorem ClearBag.path {t : Tree} (hw : WfTree t) (h : ClearBag t) {p : Path} (hp : t.exists p = true) : ¬ cacheRel <+: p := by
  intro hpre
  have hne : p ≠ [] := by rintro rfl; exact absurd hpre (by decide)
  have h1 : (dget t p).isSome = true := by
    unfold Tree.exists at hp
    simpa [hne] using hp
  have h2 := wf_prefix hw h1 hpre (by decide)
  have h3 := h.cache
  unfold Tree.exists at h3
  rw [h2] at h3
  simp at h3

theorem ClearBag.acts {t : Tree} (hw : WfTree t) (h : ClearBag t) {w : List WalkStep} (hwk : IsWalk t w) {skip : List Str}
    (he : [] ∉ skip) : ∀ x ∈ actsOf skip w, x.Clear := by
  intro x hx
  cases x with
  | stat p =>
    obtain ⟨s, h1, _, h2⟩ := mem_actsOf.1 hx
    have hp : t.isdir p = true := by
      rcases h2 with h2 | ⟨f, _, _, h2⟩ | ⟨f, _, _, h2⟩
      · cases h2; exact (hwk.dirs _).1 ⟨s, h1, rfl⟩
      · cases h2
      · cases h2
    exact h.path hw (exists_of_isdir hp)
  | file p =>
    have hp := ((file_mem_acts hw hwk he).1 hx).1
    refine ⟨h.path hw (exists_of_isfile hp), ?_⟩
    rintro rfl
    rw [h.dir] at hp; cases hp
  | dir p =>
    exact h.path hw (exists_of_isdir ((dir_mem_acts hw hwk he).1 hx).2.1)

theorem Alike.restoreFrom {E : RestoreEnv} (hE : EnvOk E) {src : RSource} (hs : WfTree src.tree) (hc : ClearBag src.tree)
    {skip : List Str} (he : [] ∉ skip) {d d' e : Tree} (h : Alike d d') (hr : restoreFrom E src skip false d = .ok e) :
    ∃ e', restoreFrom E src skip false d' = .ok e' ∧ StillAlike d' e e' := by
  unfold Verif.restoreFrom at hr ⊢
  split at hr
  · next h0 => cases hr; rw [if_pos h0]; exact ⟨d', rfl, h, rfl⟩
  · next h0 =>
    rw [if_neg h0]
    split at hr
    · cases hr
    · next sb hb =>
      try simp only [hb]
      split at hr
      · cases hr
      · next s h1 =>
        obtain ⟨e1, k1, k2, k3⟩ := Alike.acts (hc.acts hs (hE.walk _ hs) he) (s := { dest := d, updated := [] }) h h1
        simp only at k1
        simp only [k1]
        split at hr
        · next h2 => cases hr; rw [if_pos h2]; exact ⟨e1, rfl, k2, k3⟩
        · next h2 =>
          rw [if_neg h2]
          obtain ⟨e2, k4, k5, k6⟩ := k2.updateManifests hr
          exact ⟨e2, k4, k5, k6.trans k3⟩

theorem Alike.startRestore {E : RestoreEnv} (hE : EnvOk E) {H : RHead} (hs : WfTree H.tree) (hc : ClearBag H.tree)
    {skip : List Str} (he : [] ∉ skip) {d d' e : Tree} (h : Alike d d') (hr : startRestore E H skip d = .ok e) :
    ∃ e', startRestore E H skip d' = .ok e' ∧ StillAlike d' e e' := by
  unfold Verif.startRestore at hr ⊢
  have key : ∀ {d1 d1' : Tree}, Alike d1 d1' →
      (if H.path = E.base.bagpath then Except.ok d1 else Verif.restoreFrom E ⟨H.path, H.tree⟩ skip false d1) = .ok e →
      ∃ e', (if H.path = E.base.bagpath then Except.ok d1' else Verif.restoreFrom E ⟨H.path, H.tree⟩ skip false d1') = .ok e' ∧
        StillAlike d1' e e' := by
    intro d1 d1' h1 hr
    split at hr
    · next h0 => cases hr; rw [if_pos h0]; exact ⟨d1', rfl, h1, rfl⟩
    · next h0 => rw [if_neg h0]; exact h1.restoreFrom hE (src := ⟨H.path, H.tree⟩) hs hc he hr
  cases hx : H.tree.read aggregationInfo with
  | none =>
    rw [hx] at hr
    simp only at hr ⊢
    exact key h hr
  | some c =>
    rw [hx] at hr
    simp only at hr ⊢
    split at hr
    · cases hr
    · next d1 h1 =>
      obtain ⟨e1, k1, k2, k3⟩ := h.writeRoot (by decide) h1
      simp only [k1]
      obtain ⟨e2, k4, k5, k6⟩ := key k2 hr
      exact ⟨e2, k4, k5, k6.trans k3⟩

theorem rmtree_mb {t : Tree} (h : t.isdir mbDir = true) : t.rmtree mbDir = .ok (besideMb t) := by
  unfold Tree.rmtree
  rw [if_pos h]; rfl

/-- With the multibag tag files removed, the two runs end with the same bag. -/
theorem Alike.finish {E : RestoreEnv} {us : Bool} {d d' e : Tree} (h : Alike d d')
    (hr : finishRestore E us true d = .ok e) : finishRestore E us true d' = .ok e := by
  unfold finishRestore at hr ⊢
  split at hr
  · cases hr
  · next b hb =>
    rw [openBag_root h.root _ hb]
    simp only [if_true] at hr ⊢
    have htree : b.tree = d := (openBag_parts hb).1
    have e1 : removeTags E { b with tree := d' } = removeTags E b ∨ d.isdir mbDir = false := by
      by_cases hd : d.isdir mbDir = true
      · left
        unfold removeTags
        have h1 := rmtree_mb hd
        have h2 := rmtree_mb (h.isdir cacheRel_not_mb hd)
        rw [h.out] at h2
        unfold mbDir at h1 h2
        simp only [htree, h1, h2]
      · right; simpa using hd
    rcases e1 with e1 | e1
    · rw [e1]; exact hr
    · exfalso
      unfold removeTags at hr
      have : b.tree.rmtree [py!"multibag"] = .error .osError := by
        unfold Tree.rmtree
        rw [htree]
        unfold mbDir at e1
        rw [e1]; rfl
      rw [this] at hr
      cases hr

end Verif
