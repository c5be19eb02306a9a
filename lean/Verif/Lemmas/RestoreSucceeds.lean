import Verif.Spec.RestoreOk
import Verif.Props.RestoreSums
import Verif.Lemmas.SplitValid
import Verif.Lemmas.ApplyTotal
/-!
# Restoring succeeds
-/

namespace Verif

open Spec

/-- The manifests that are tidy are those files only. -/
theorem Spec.TidyKind.congr {safe : Str → Prop} {algs : List Str} {A : Str → Prop} {kind : Str} {pay : Bool} {t t' : Tree}
    (h : TidyKind safe algs A kind pay t) (e : ∀ a ∈ algs, dget t' (manPath kind a) = dget t (manPath kind a)) :
    TidyKind safe algs A kind pay t' := by
  have hr : ∀ a ∈ algs, ∀ p x, Recorded kind t' a p x ↔ Recorded kind t a p x :=
    fun a ha p x => recorded_of_read (read_of_dget (e a ha))
  refine ⟨?_, ?_, ?_, ?_, ?_, ?_⟩
  · intro a ha
    have := isdir_of_dget (e a ha)
    unfold manPath at this
    rw [this]; exact h.nodir a ha
  · intro a ha hf
    have := isfile_of_dget (e a ha)
    unfold manPath at this
    rw [this] at hf; exact h.only a ha hf
  · intro a ha a' ha' hf hA
    have h1 := isfile_of_dget (e a ha)
    have h2 := isfile_of_dget (e a' ha')
    unfold manPath at h1 h2
    rw [h1] at hf; rw [h2]; exact h.all a ha a' ha' hf hA
  · intro a ha p x hx; exact h.lines a ha p x ((hr a ha p x).1 hx)
  · intro a ha text ht
    have := read_of_dget (e a ha)
    unfold manPath at this
    rw [this] at ht; exact h.once a ha text ht
  · intro a ha a' ha' hA p x hx
    obtain ⟨y, hy⟩ := h.same a ha a' ha' hA p x ((hr a ha p x).1 hx)
    exact ⟨y, (hr a' ha' p y).2 hy⟩

/-- The lines of the manifests of one kind. -/
def kindText (algs : List Str) (kind : Str) (t : Tree) : List (Str × Str) :=
  algs.flatMap (fun alg => match t.read (manPath kind alg) with
    | some text => (manifestLines py!"UTF-8" text).map (fun l => (alg, l))
    | none => [])

theorem manifestText_kinds {cfg : ReadCfg} {v : List Int} {enc : Str} {t : Tree} (he : startsWith py!"UTF" enc = true) :
    manifestText cfg v enc t = kindText cfg.algs py!"manifest" t ++
      (if tupLt v [0, 97] then [] else kindText cfg.algs py!"tagmanifest" t) := by
  unfold manifestText kindText manPath
  simp only [manifestLines_utf he]
  rfl

theorem mem_kindText {algs : List Str} {kind : Str} {t : Tree} {alg line : Str} :
    (alg, line) ∈ kindText algs kind t ↔ alg ∈ algs ∧ ∃ text, t.read (manPath kind alg) = some text ∧
      line ∈ manifestLines py!"UTF-8" text := by
  unfold kindText
  rw [List.mem_flatMap]
  constructor
  · rintro ⟨a, ha, hm⟩
    cases hr : t.read (manPath kind a) with
    | none => rw [hr] at hm; cases hm
    | some text =>
      rw [hr] at hm
      obtain ⟨l, hl, e⟩ := List.mem_map.1 hm
      cases e
      exact ⟨ha, text, hr, hl⟩
  · rintro ⟨ha, text, hr, hl⟩
    refine ⟨alg, ha, ?_⟩
    rw [hr]
    exact List.mem_map.2 ⟨line, hl, rfl⟩

theorem recorded_kindText {algs : List Str} {kind : Str} {t : Tree} {alg line c p : Str}
    (h : (alg, line) ∈ kindText algs kind t) (hl : Lists line c p) : Recorded kind t alg p c := by
  obtain ⟨_, text, hr, hm⟩ := mem_kindText.1 h
  exact ⟨text, line, hr, hm, hl⟩

theorem Spec.TidyKind.pairwise {safe : Str → Prop} {algs : List Str} {A : Str → Prop} {kind : Str} {pay : Bool} {t : Tree}
    (h : TidyKind safe algs A kind pay t) (hn : algs.Nodup) :
    (kindText algs kind t).Pairwise (fun a b => ∀ c c' p, a.1 = b.1 → Lists a.2 c p → ¬ Lists b.2 c' p) := by
  unfold kindText
  rw [List.pairwise_flatMap]
  refine ⟨?_, ?_⟩
  · intro a ha
    cases hr : t.read (manPath kind a) with
    | none => simp
    | some text =>
      simp only
      rw [List.pairwise_map]
      exact (h.once a ha text hr).imp (fun hh c c' p _ => hh c c' p)
  · refine hn.imp (fun hne x hx y hy c c' p e => ?_)
    exfalso
    apply hne
    have h1 : ∀ a (z : Str × Str), z ∈ (match t.read (manPath kind a) with
        | some text => (manifestLines py!"UTF-8" text).map (fun l => (a, l))
        | none => []) → z.1 = a := by
      intro a z hz
      split at hz
      · obtain ⟨l, _, rfl⟩ := List.mem_map.1 hz; rfl
      · cases hz
    rw [← h1 _ x hx, ← h1 _ y hy, e]

/-- Tidy manifests can be read. -/
theorem Spec.Tidy.loads {cfg : ReadCfg} {A : Str → Prop} {t : Tree}
    (h : Tidy (fun p => isDangerous cfg.env cfg.bagpath p = false) cfg.algs A t) (hn : cfg.algs.Nodup) (v : List Int)
    {enc : Str} (he : startsWith py!"UTF" enc = true) : ∃ r, loadManifests cfg v enc t = .ok r := by
  refine (C70_accepts cfg v enc t).2 ⟨?_, ?_⟩
  · intro alg line hm c p hl
    rw [manifestText_kinds he] at hm
    rcases List.mem_append.1 hm with hm | hm
    · exact (h.payload.lines alg (mem_kindText.1 hm).1 p c (recorded_kindText hm hl)).2.2
    · split at hm
      · cases hm
      · exact (h.tag.lines alg (mem_kindText.1 hm).1 p c (recorded_kindText hm hl)).2.2
  · rw [manifestText_kinds he, List.pairwise_append]
    refine ⟨(h.payload.pairwise hn).imp (fun hh c c' p e h1 h2 => absurd h2 (hh c c' p e h1)), ?_, ?_⟩
    · split
      · exact .nil
      · exact (h.tag.pairwise hn).imp (fun hh c c' p e h1 h2 => absurd h2 (hh c c' p e h1))
    · intro x hx y hy c c' p e h1 h2
      exfalso
      have k1 := (h.payload.lines x.1 (mem_kindText.1 hx).1 p c (recorded_kindText hx h1)).1
      split at hy
      · cases hy
      · have k2 := (h.tag.lines y.1 (mem_kindText.1 hy).1 p c' (recorded_kindText hy h2)).1
        rw [k1] at k2; cases k2

/-! ## Updating manifests -/

theorem mergePath_succeeds {p : Str} {hs : List (Str × Str)} {m : ByAlg} (h : ∀ a ∈ dkeys m, ∃ x, dget hs a = some x) :
    ∃ m', mergePath p hs m = .ok m' := by
  induction m with
  | nil => exact ⟨[], rfl⟩
  | cons e m ih =>
    obtain ⟨alg, ps⟩ := e
    obtain ⟨x, hx⟩ := h alg (by simp [dkeys])
    obtain ⟨m', hm'⟩ := ih (fun a ha => h a (by simp only [dkeys, List.map_cons, List.mem_cons]; exact .inr ha))
    simp only [mergePath, hx, hm']
    by_cases hd : dmem ps p
    · exact ⟨_, by rw [if_pos hd]⟩
    · exact ⟨_, by rw [if_neg hd]⟩

theorem mergeAll_succeeds {es : Entries} {m : ByAlg} (ho : m.Ok)
    (h : ∀ e ∈ es, ∀ a ∈ dkeys m, ∃ x, dget e.2 a = some x) : ∃ m', mergeAll es m = .ok m' := by
  induction es generalizing m with
  | nil => exact ⟨m, rfl⟩
  | cons e es ih =>
    obtain ⟨p, hs⟩ := e
    obtain ⟨m1, h1⟩ := mergePath_succeeds (p := p) (h (p, hs) List.mem_cons_self)
    obtain ⟨k1, k2, _⟩ := mergePath_ok h1 ho
    obtain ⟨m2, h2⟩ := ih k2 (fun e he a ha => h e (List.mem_cons_of_mem _ he) a (by rw [← k1]; exact ha))
    exact ⟨m2, by simp only [mergeAll, h1, h2]⟩

theorem write_root {t : Tree} {n c : Str} (h : t.isdir [n] = false) : t.write [n] c = .ok (dset t [n] (.file c)) := by
  obtain ⟨t', ht⟩ := write_total (c := c) h (by simp [Tree.isdir])
  rw [ht, (Tree.write_ok ht).1]

theorem writeManifest_full {d : Tree} {kind alg : Str} {es : List (Str × Str)} (h : d.isdir (manPath kind alg) = false) :
    ∃ d', writeManifest d kind alg es = .ok d' ∧ (∀ p, p ≠ manPath kind alg → dget d' p = dget d p) ∧
      dget d' (manPath kind alg) = if es = [] then dget d (manPath kind alg)
        else some (.file (es.map (fun ph => hashLine ph.2 ph.1)).flatten) := by
  unfold writeManifest
  by_cases he : es = []
  · rw [if_pos he]; exact ⟨d, rfl, fun _ _ => rfl, by rw [if_pos he]⟩
  · rw [if_neg he]
    unfold manPath at h ⊢
    rw [write_root h]
    refine ⟨_, rfl, fun p hp => by rw [dget_dset, if_neg (fun e => hp e.symm)], ?_⟩
    rw [if_neg he, dget_dset, if_pos rfl]

/-- Writing the manifests succeeds if no directory has their names. -/
theorem writeManifests_full {m : ByAlg} {d : Tree} (ho : m.Ok)
    (hd : ∀ a ∈ dkeys m, d.isdir (manPath py!"manifest" a) = false ∧ d.isdir (manPath py!"tagmanifest" a) = false) :
    ∃ d', writeManifests d m = .ok d' ∧
    (∀ a ps, (a, ps) ∈ m →
      (dget d' (manPath py!"manifest" a) =
        if ps.filter (fun ph => startsWith py!"data/" ph.1) = [] then dget d (manPath py!"manifest" a)
        else some (.file ((ps.filter (fun ph => startsWith py!"data/" ph.1)).map (fun ph => hashLine ph.2 ph.1)).flatten)) ∧
      (dget d' (manPath py!"tagmanifest" a) =
        if ps.filter (fun ph => !startsWith py!"data/" ph.1) = [] then dget d (manPath py!"tagmanifest" a)
        else some (.file ((ps.filter (fun ph => !startsWith py!"data/" ph.1)).map (fun ph => hashLine ph.2 ph.1)).flatten))) := by
  induction m generalizing d with
  | nil => exact ⟨d, rfl, by simp⟩
  | cons e m ih =>
    obtain ⟨alg, ps⟩ := e
    have ho' : ByAlg.Ok m := ⟨by have := ho.nodup; simp only [dkeys, List.map_cons, List.nodup_cons] at this; exact this.2,
      fun e he => ho.inner e (List.mem_cons_of_mem _ he)⟩
    have hna : alg ∉ dkeys m := by
      have := ho.nodup; simp only [dkeys, List.map_cons, List.nodup_cons] at this; exact this.1
    obtain ⟨hd1, hd2⟩ := hd alg (by simp [dkeys])
    obtain ⟨d1, h1, f1, r1⟩ := writeManifest_full (es := ps.filter (fun ph => startsWith py!"data/" ph.1)) hd1
    have hd2' : d1.isdir (manPath py!"tagmanifest" alg) = false := by
      rw [isdir_of_dget (f1 _ (fun e => manPath_ne _ _ e.symm))]; exact hd2
    obtain ⟨d2, h2, f2, r2⟩ := writeManifest_full (es := ps.filter (fun ph => !startsWith py!"data/" ph.1)) hd2'
    have hne : ∀ a ∈ dkeys m, a ≠ alg := fun a ha e => hna (e ▸ ha)
    have eq1 : ∀ a, a ≠ alg → dget d2 (manPath py!"manifest" a) = dget d (manPath py!"manifest" a) := fun a ha => by
      rw [f2 _ (manPath_ne _ _), f1 _ (fun e => ha (manPath_inj e))]
    have eq2 : ∀ a, a ≠ alg → dget d2 (manPath py!"tagmanifest" a) = dget d (manPath py!"tagmanifest" a) := fun a ha => by
      rw [f2 _ (fun e => ha (manPath_inj e)), f1 _ (fun e => manPath_ne _ _ e.symm)]
    obtain ⟨d3, h3, r3⟩ := ih (d := d2) ho' (fun a ha => by
      have := hd a (by simp only [dkeys, List.map_cons, List.mem_cons]; exact .inr ha)
      rw [isdir_of_dget (eq1 a (hne a ha)), isdir_of_dget (eq2 a (hne a ha))]
      exact this)
    refine ⟨d3, by simp only [writeManifests, h1, h2, h3], ?_⟩
    have f3 := (writeManifests_ok ho' h3).1
    intro a qs hm
    rcases List.mem_cons.1 hm with e | hm'
    · obtain ⟨rfl, rfl⟩ : a = alg ∧ qs = ps := by simpa using e
      have na : ∀ b ∈ dkeys m, manPath py!"manifest" a ≠ manPath py!"manifest" b ∧
          manPath py!"manifest" a ≠ manPath py!"tagmanifest" b := fun b hb =>
        ⟨fun e => hna (by rw [manPath_inj e]; exact hb), manPath_ne _ _⟩
      have nb : ∀ b ∈ dkeys m, manPath py!"tagmanifest" a ≠ manPath py!"manifest" b ∧
          manPath py!"tagmanifest" a ≠ manPath py!"tagmanifest" b := fun b hb =>
        ⟨fun e => manPath_ne _ _ e.symm, fun e => hna (by rw [manPath_inj e]; exact hb)⟩
      refine ⟨?_, ?_⟩
      · rw [f3 _ na, f2 _ (manPath_ne _ _), r1]
      · rw [f3 _ nb, r2, f1 _ (fun e => manPath_ne _ _ e.symm)]
    · have hb : a ≠ alg := hne a (List.mem_map.2 ⟨(a, qs), hm', rfl⟩)
      obtain ⟨q1, q2⟩ := r3 a qs hm'
      rw [q1, q2, eq1 a hb, eq2 a hb]
      exact ⟨rfl, rfl⟩

/-- Manifests that are written with the same paths for each algorithm are tidy. -/
theorem tidyKind_written {safe : Str → Prop} {algs : List Str} {A : Str → Prop} {kind : Str} {pay : Bool} {t : Tree}
    (es : Str → List (Str × Str))
    (hw : ∀ a ∈ algs, A a → dget t (manPath kind a) = some (.file ((es a).map (fun ph => hashLine ph.2 ph.1)).flatten))
    (hn : ∀ a ∈ algs, ¬ A a → dget t (manPath kind a) = none)
    (hl : ∀ a ∈ algs, A a → ∀ e ∈ es a, isPayload e.1 = pay ∧ PlainLine e.2 e.1 ∧ safe e.1)
    (hd : ∀ a ∈ algs, A a → (dkeys (es a)).Nodup)
    (hs : ∀ a ∈ algs, A a → ∀ a' ∈ algs, A a' → ∀ p, p ∈ dkeys (es a) → p ∈ dkeys (es a')) :
    TidyKind safe algs A kind pay t := by
  have hfile : ∀ a ∈ algs, A a → t.isfile (manPath kind a) = true := fun a ha hA => isfile_iff.2 ⟨_, hw a ha hA⟩
  have hA : ∀ a ∈ algs, t.isfile (manPath kind a) = true → A a := by
    intro a ha hf
    apply Classical.byContradiction
    intro hx
    obtain ⟨c, hc⟩ := isfile_iff.1 hf
    rw [hn a ha hx] at hc; cases hc
  have hrd : ∀ a ∈ algs, A a → t.read (manPath kind a) = some ((es a).map (fun ph => hashLine ph.2 ph.1)).flatten := by
    intro a ha hx
    rw [Tree.read, hw a ha hx]
  have hrec : ∀ a ∈ algs, ∀ p h, Recorded kind t a p h → A a ∧ (p, h) ∈ es a := by
    intro a ha p h hr
    have hx : A a := by
      obtain ⟨text, line, h1, _⟩ := hr
      exact hA a ha (isfile_of_read h1)
    exact ⟨hx, (recorded_written (hrd a ha hx) (fun e he => (hl a ha hx e he).2.1)).1 hr⟩
  refine ⟨?_, hA, fun a ha a' ha' _ hx => hfile a' ha' hx, ?_, ?_, ?_⟩
  · intro a ha
    by_cases hx : A a
    · have := hw a ha hx
      unfold manPath at this
      rw [Tree.isdir, this]; rfl
    · have := hn a ha hx
      unfold manPath at this
      rw [Tree.isdir, this]; rfl
  · intro a ha p h hr
    obtain ⟨hx, hm⟩ := hrec a ha p h hr
    exact hl a ha hx _ hm
  · intro a ha text ht
    have hx : A a := hA a ha (isfile_of_read ht)
    have := hrd a ha hx
    rw [manPath, ht] at this
    cases this
    rw [manifestLines_written (fun e he => (hl a ha hx e he).2.1), List.pairwise_map]
    have hnd := hd a ha hx
    unfold dkeys at hnd
    rw [List.nodup_iff_pairwise_ne, List.pairwise_map] at hnd
    refine List.Pairwise.imp_of_mem ?_ hnd
    intro e f he hf hne c c' p h1 h2
    obtain ⟨w1, n1, _, p1⟩ := (hl a ha hx e he).2.1
    obtain ⟨w2, n2, _, p2⟩ := (hl a ha hx f hf).2.1
    have e1 := ((C70_plain_line w1 n1 p1 c p).1 h1).2
    have e2 := ((C70_plain_line w2 n2 p2 c' p).1 h2).2
    exact hne (e1.symm.trans e2)
  · intro a ha a' ha' hA' p h hr
    obtain ⟨hx, hm⟩ := hrec a ha p h hr
    obtain ⟨h', hh'⟩ := mem_dkeys_iff.1 (hs a ha hx a' ha' hA' p (List.mem_map.2 ⟨_, hm, rfl⟩))
    exact ⟨h', (recorded_written (hrd a' ha' hA') (fun e he => (hl a' ha' hA' e he).2.1)).2 (mem_of_dget hh')⟩

theorem Spec.TidyKind.none {safe : Str → Prop} {algs : List Str} {A : Str → Prop} {kind : Str} {pay : Bool} {t : Tree}
    (h : TidyKind safe algs A kind pay t) {a : Str} (ha : a ∈ algs) (hA : ¬ A a) : dget t (manPath kind a) = none := by
  cases hd : dget t (manPath kind a) with
  | none => rfl
  | some x =>
    cases x with
    | file c => exact absurd (h.only a ha (isfile_iff.2 ⟨c, hd⟩)) hA
    | dir =>
      have h1 : t.isdir (manPath kind a) = true := isdir_iff.2 (.inr hd)
      have h2 := h.nodir a ha
      unfold manPath at h1
      rw [h1] at h2; cases h2

/-- Checksums given for all the algorithms `A` or none, in plain lines. -/
structure TidyLook (safe : Str → Prop) (algs : List Str) (A : Str → Prop) (es : Entries) : Prop where
  nodup : ∀ e ∈ es, (dkeys e.2).Nodup
  line : ∀ p a v, es.look p a = some v → a ∈ algs ∧ A a ∧ PlainLine v p ∧ safe p
  same : ∀ p a v, es.look p a = some v → ∀ a' ∈ algs, A a' → ∃ v', es.look p a' = some v'

theorem Spec.Tidy.look {safe : Str → Prop} {cfg : ReadCfg} {A : Str → Prop} {t : Tree} {b : RBag}
    (h : Tidy safe cfg.algs A t) (hb : openBag cfg t = .ok b) (he : startsWith py!"UTF" b.encoding = true) :
    TidyLook safe cfg.algs A b.entries := by
  have hA : ∀ {kind pay a p c}, TidyKind safe cfg.algs A kind pay t → a ∈ cfg.algs → Recorded kind t a p c → A a := by
    intro kind pay a p c hk ha hr
    obtain ⟨text, line, h1, _⟩ := hr
    exact hk.only a ha (isfile_of_read h1)
  refine ⟨fun e hm => ((entries_inv (openBag_parts hb).2.1).2 e hm).2, ?_, ?_⟩
  · intro p a v hl
    obtain ⟨ha, hr | ⟨_, hr⟩⟩ := (look_recorded hb he).1 hl
    · exact ⟨ha, hA h.payload ha hr, (h.payload.lines a ha p v hr).2⟩
    · exact ⟨ha, hA h.tag ha hr, (h.tag.lines a ha p v hr).2⟩
  · intro p a v hl a' ha' hx
    obtain ⟨ha, hr | ⟨hv, hr⟩⟩ := (look_recorded hb he).1 hl
    · obtain ⟨v', hr'⟩ := h.payload.same a ha a' ha' hx p v hr
      exact ⟨v', (look_recorded hb he).2 ⟨ha', .inl hr'⟩⟩
    · obtain ⟨v', hr'⟩ := h.tag.same a ha a' ha' hx p v hr
      exact ⟨v', (look_recorded hb he).2 ⟨ha', .inr ⟨hv, hr'⟩⟩⟩

theorem TidyLook.entry {safe : Str → Prop} {algs : List Str} {A : Str → Prop} {es : Entries} (h : TidyLook safe algs A es)
    (hn : (dkeys es).Nodup) {e : Str × List (Str × Str)} (hm : e ∈ es) (hne : e.2 ≠ []) {a : Str} (ha : a ∈ algs) (hA : A a) :
    ∃ x, dget e.2 a = some x := by
  have hg : dget es e.1 = some e.2 := dget_of_mem hn hm
  have hlk : ∀ a, es.look e.1 a = dget e.2 a := fun a => by unfold Entries.look; rw [hg]; rfl
  obtain ⟨⟨a0, x0⟩, hx⟩ := List.exists_mem_of_ne_nil _ hne
  have h1 := h.same e.1 a0 x0 (by rw [hlk]; exact dget_of_mem (h.nodup e hm) hx) a ha hA
  rw [hlk] at h1
  exact h1

/-- Updating the manifests succeeds and keeps them tidy. -/
theorem updateManifests_tidy {safe : Str → Prop} {cfg : ReadCfg} {A : Str → Prop} {es : Entries} {upd : List Str}
    {d : Tree} {b : RBag} (hb : openBag cfg d = .ok b) (he : startsWith py!"UTF" b.encoding = true)
    (hT : Tidy safe cfg.algs A d) (hes : TidyLook safe cfg.algs A es) :
    ∃ d', updateManifests cfg es upd d = .ok d' ∧ Tidy safe cfg.algs A d' ∧
      ∀ p, (∀ a ∈ cfg.algs, p ≠ manPath py!"manifest" a ∧ p ≠ manPath py!"tagmanifest" a) → dget d' p = dget d p := by
  have hbl := hT.look hb he
  have hinv := entries_inv (openBag_parts hb).2.1
  obtain ⟨c1, c2, c3⟩ := collect_spec hes.nodup upd
  have hkeys : ∀ a ∈ dkeys (collect es upd), a ∈ cfg.algs ∧ A a := by
    intro a ha
    obtain ⟨q, _, hq⟩ := (c3 a).1 ha
    obtain ⟨v, hv⟩ := Option.isSome_iff_exists.1 hq
    exact ⟨(hes.line q a v hv).1, (hes.line q a v hv).2.1⟩
  obtain ⟨m, hm⟩ := mergeAll_succeeds (es := b.entries) c1 (fun e he' a ha =>
    hbl.entry hinv.1 he' (hinv.2 e he').1 (hkeys a ha).1 (hkeys a ha).2)
  obtain ⟨hk, ho, hg⟩ := mergeAll_ok hinv.1 hm c1
  have hdirs : ∀ a ∈ dkeys m, d.isdir (manPath py!"manifest" a) = false ∧ d.isdir (manPath py!"tagmanifest" a) = false := by
    intro a ha
    rw [hk] at ha
    exact ⟨hT.payload.nodir a (hkeys a ha).1, hT.tag.nodir a (hkeys a ha).1⟩
  obtain ⟨d', hw, hr⟩ := writeManifests_full ho hdirs
  obtain ⟨w1, _⟩ := writeManifests_ok ho hw
  refine ⟨d', by unfold updateManifests; simp only [hb, hm, hw], ?_,
    fun p hp => w1 p (fun a ha => hp a (hkeys a (hk ▸ ha)).1)⟩
  have keep : ∀ a, a ∉ dkeys m → ∀ kind, (kind = py!"manifest" ∨ kind = py!"tagmanifest") →
      dget d' (manPath kind a) = dget d (manPath kind a) := by
    intro a ha kind hkind
    refine w1 _ (fun b' hb' => ?_)
    rcases hkind with rfl | rfl
    · exact ⟨fun e => ha (by rw [manPath_inj e]; exact hb'), manPath_ne _ _⟩
    · exact ⟨fun e => manPath_ne _ _ e.symm, fun e => ha (by rw [manPath_inj e]; exact hb')⟩
  by_cases hnil : dkeys m = []
  · have hno : ∀ a, a ∉ dkeys m := fun a ha => by rw [hnil] at ha; cases ha
    exact ⟨hT.payload.congr (fun a _ => keep a (hno a) _ (.inl rfl)), hT.tag.congr (fun a _ => keep a (hno a) _ (.inr rfl))⟩
  · -- every algorithm is present
    have hall : ∀ a ∈ cfg.algs, A a → a ∈ dkeys m := by
      intro a ha hA
      obtain ⟨a0, h0⟩ := List.exists_mem_of_ne_nil _ hnil
      rw [hk] at h0
      obtain ⟨q, hq, hs⟩ := (c3 a0).1 h0
      obtain ⟨v, hv⟩ := Option.isSome_iff_exists.1 hs
      obtain ⟨v', hv'⟩ := hes.same q a0 v hv a ha hA
      rw [hk]
      exact (c3 a).2 ⟨q, hq, by rw [hv']; rfl⟩
    have hline : ∀ a q v, m.get a q = some v → PlainLine v q ∧ safe q := by
      intro a q v hv
      rw [hg, c2] at hv
      have : es.look q a = some v ∨ b.entries.look q a = some v := by
        split at hv
        · split at hv
          · cases hx : es.look q a with
            | none => rw [hx] at hv; right; simpa using hv
            | some x => rw [hx] at hv; left; simpa using hv
          · right; simpa using hv
        · split at hv
          · exact .inl hv
          · cases hv
      rcases this with h | h
      · exact (hes.line _ _ _ h).2.2
      · exact (hbl.line _ _ _ h).2.2
    have hsame : ∀ a ∈ dkeys m, ∀ a' ∈ dkeys m, ∀ q, (∃ v, m.get a q = some v) → ∃ v, m.get a' q = some v := by
      intro a ha a' ha' q
      rw [hk] at ha ha'
      obtain ⟨k1, k2⟩ := hkeys a' ha'
      rw [hg, hg, if_pos ha, if_pos ha', c2, c2]
      rintro ⟨v, hv⟩
      rcases Option.or_eq_some_iff.1 hv with h | ⟨_, h⟩
      · by_cases hu : q ∈ upd
        · rw [if_pos hu] at h
          obtain ⟨v', hv'⟩ := hes.same q a v h a' k1 k2
          rw [if_pos hu, hv']
          exact ⟨v', rfl⟩
        · rw [if_neg hu] at h; cases h
      · obtain ⟨v', hv'⟩ := hbl.same q a v h a' k1 k2
        cases hx : (if q ∈ upd then es.look q a' else none) with
        | none => exact ⟨v', by rw [hv']; rfl⟩
        | some x => exact ⟨x, rfl⟩
    have mem : ∀ a ∈ dkeys m, (a, (dget m a).getD []) ∈ m := by
      intro a ha
      obtain ⟨ps, hps⟩ := mem_dkeys_iff.1 ha
      rw [hps]
      exact mem_of_dget hps
    have hget : ∀ a ∈ dkeys m, ∀ q v, (q, v) ∈ (dget m a).getD [] ↔ m.get a q = some v := by
      intro a ha q v
      exact (dget_iff_mem (ho.inner _ (mem a ha))).symm
    have one : ∀ kind pay (sel : Str × Str → Bool), (kind = py!"manifest" ∨ kind = py!"tagmanifest") →
        (∀ q v, sel (q, v) = true ↔ isPayload q = pay) → TidyKind safe cfg.algs A kind pay d →
        (∀ a ps, (a, ps) ∈ m → dget d' (manPath kind a) = if ps.filter sel = [] then dget d (manPath kind a)
          else some (.file ((ps.filter sel).map (fun ph => hashLine ph.2 ph.1)).flatten)) →
        TidyKind safe cfg.algs A kind pay d' := by
      intro kind pay sel hkind hsel hTk hwr
      by_cases hex : ∃ a ∈ dkeys m, ((dget m a).getD []).filter sel ≠ []
      · obtain ⟨a0, ha0, hne0⟩ := hex
        have hne : ∀ a ∈ dkeys m, ((dget m a).getD []).filter sel ≠ [] := by
          intro a ha hemp
          obtain ⟨⟨q, v⟩, hq⟩ := List.exists_mem_of_ne_nil _ hne0
          obtain ⟨hq1, hq2⟩ := List.mem_filter.1 hq
          obtain ⟨v', hv'⟩ := hsame a0 ha0 a ha q ⟨v, (hget a0 ha0 q v).1 hq1⟩
          have : (q, v') ∈ ((dget m a).getD []).filter sel :=
            List.mem_filter.2 ⟨(hget a ha q v').2 hv', (hsel q v').2 ((hsel q v).1 hq2)⟩
          rw [hemp] at this; cases this
        refine tidyKind_written (fun a => ((dget m a).getD []).filter sel) ?_ ?_ ?_ ?_ ?_
        · intro a ha hA
          rw [hwr a _ (mem a (hall a ha hA)), if_neg (hne a (hall a ha hA))]
        · intro a ha hA
          rw [keep a (fun h => hA (hkeys a (hk ▸ h)).2) kind hkind]
          exact hTk.none ha hA
        · intro a ha hA e hem
          obtain ⟨h1, h2⟩ := List.mem_filter.1 hem
          exact ⟨(hsel e.1 e.2).1 h2, hline a e.1 e.2 ((hget a (hall a ha hA) e.1 e.2).1 h1)⟩
        · intro a ha hA
          have h1 := ho.inner _ (mem a (hall a ha hA))
          exact h1.sublist (List.filter_sublist.map _)
        · intro a ha hA a' ha' hA' p hp
          obtain ⟨⟨q, v⟩, hq, rfl⟩ := List.mem_map.1 hp
          obtain ⟨h1, h2⟩ := List.mem_filter.1 hq
          obtain ⟨v', hv'⟩ := hsame a (hall a ha hA) a' (hall a' ha' hA') q ⟨v, (hget a (hall a ha hA) q v).1 h1⟩
          exact List.mem_map.2 ⟨(q, v'), List.mem_filter.2 ⟨(hget a' (hall a' ha' hA') q v').2 hv',
            (hsel q v').2 ((hsel q v).1 h2)⟩, rfl⟩
      · refine hTk.congr (fun a ha => ?_)
        by_cases hak : a ∈ dkeys m
        · rw [hwr a _ (mem a hak), if_pos]
          exact Classical.byContradiction (fun h => hex ⟨a, hak, h⟩)
        · exact keep a hak kind hkind
    refine ⟨one _ _ _ (.inl rfl) ?_ hT.payload (fun a ps h => (hr a ps h).1),
      one _ _ _ (.inr rfl) ?_ hT.tag (fun a ps h => (hr a ps h).2)⟩
    · intro q v; exact Iff.rfl
    · intro q v; simp [isPayload]

/-! ## Copying -/

theorem actEffect_copied {t : Tree} (ht : WfTree t) {w : List WalkStep} (hw : IsWalk t w) {skip : List Str}
    (he : [] ∉ skip) {p : Path} (hne : p ≠ []) (n : Option Node) :
    (n ≠ none → actEffect false t (actsOf skip w) p n = n) ∧
    (n = none → Deleted skip p → actEffect false t (actsOf skip w) p n = none) ∧
    (n = none → ¬ Deleted skip p → actEffect false t (actsOf skip w) p n = dget t p) := by
  unfold actEffect
  refine ⟨fun hx => by simp [hx], fun hx hdel => ?_, fun hx hdel => ?_⟩
  · rw [if_neg (fun hh => ((file_mem_acts ht hw he).1 hh.1).2 hdel),
      if_neg (fun hh => ((dir_mem_acts ht hw he).1 hh.1).2.2 hdel), hx]
  · by_cases hf : t.isfile p = true
    · rw [if_pos ⟨(file_mem_acts ht hw he).2 ⟨hf, hdel⟩, .inr hx⟩]
      obtain ⟨c, hc⟩ := isfile_iff.1 hf
      rw [Tree.read, hc]; rfl
    · rw [if_neg (fun hh => hf ((file_mem_acts ht hw he).1 hh.1).1)]
      by_cases hd : t.isdir p = true
      · rw [if_pos ⟨(dir_mem_acts ht hw he).2 ⟨hne, hd, hdel⟩, hx⟩]
        rcases isdir_iff.1 hd with e | e
        · exact absurd e hne
        · exact e.symm
      · rw [if_neg (fun hh => hd ((dir_mem_acts ht hw he).1 hh.1).2.1), hx]
        cases hg : dget t p with
        | none => rfl
        | some n =>
          cases n with
          | dir => exact absurd (isdir_iff.2 (.inr hg)) hd
          | file c => exact absurd (isfile_iff.2 ⟨c, hg⟩) hf

theorem Spec.TidyKind.copied {safe : Str → Prop} {algs : List Str} {A : Str → Prop} {kind : Str} {pay : Bool} {t d d' : Tree}
    (ht : TidyKind safe algs A kind pay t) (hd : TidyKind safe algs A kind pay d)
    (h1 : ∀ a ∈ algs, dget d (manPath kind a) ≠ Option.none → dget d' (manPath kind a) = dget d (manPath kind a))
    (h2 : ∀ a ∈ algs, dget d (manPath kind a) = Option.none → dget d' (manPath kind a) = dget t (manPath kind a)) :
    TidyKind safe algs A kind pay d' := by
  by_cases hex : ∃ a ∈ algs, dget d (manPath kind a) ≠ Option.none
  · obtain ⟨a, ha, hne⟩ := hex
    have hf : d.isfile (manPath kind a) = true := by
      cases hx : dget d (manPath kind a) with
      | none => exact absurd hx hne
      | some x =>
        cases x with
        | file c => exact isfile_iff.2 ⟨c, hx⟩
        | dir =>
          have h1 : d.isdir (manPath kind a) = true := isdir_iff.2 (.inr hx)
          have h2 := hd.nodir a ha
          unfold manPath at h1
          rw [h1] at h2; cases h2
    refine hd.congr (fun a' ha' => ?_)
    by_cases hA : A a'
    · obtain ⟨c, hc⟩ := isfile_iff.1 (hd.all a ha a' ha' hf hA)
      exact h1 a' ha' (by rw [manPath, hc]; simp)
    · rw [h2 a' ha' (hd.none ha' hA), hd.none ha' hA, ht.none ha' hA]
  · refine ht.congr (fun a ha => h2 a ha ?_)
    exact Classical.byContradiction (fun h => hex ⟨a, ha, h⟩)

/-- The metadata file, if there is one, can be read. -/
def TagInfoOk (t : Tree) : Prop :=
  ∃ i, (if t.exists [py!"bag-info.txt"] then loadTagFile false t [py!"bag-info.txt"] else .ok []) = .ok i

theorem TagInfoOk.congr {t t' : Tree} (h : TagInfoOk t) (e : dget t' [py!"bag-info.txt"] = dget t [py!"bag-info.txt"]) : TagInfoOk t' := by
  unfold TagInfoOk at *
  rw [exists_of_dget e]
  unfold loadTagFile at *
  rw [read_of_dget e]
  exact h

theorem TagInfoOk.none {t : Tree} (e : dget t [py!"bag-info.txt"] = none) : TagInfoOk t := by
  refine ⟨[], if_neg ?_⟩
  rw [exists_iff (by simp), e]; simp

theorem TagInfoOk.nodir {t : Tree} (h : TagInfoOk t) : t.isdir [py!"bag-info.txt"] = false := by
  cases hd : t.isdir [py!"bag-info.txt"] with
  | false => rfl
  | true =>
    obtain ⟨i, hi⟩ := h
    rcases isdir_iff.1 hd with e | e
    · cases e
    · rw [if_pos ((exists_iff (by simp)).2 (by rw [e]; simp))] at hi
      unfold loadTagFile Tree.read at hi
      rw [e] at hi
      cases hi

theorem Spec.Fits.info {E : RestoreEnv} {A : Str → Prop} {s : RSource} (h : Fits E A s) : TagInfoOk s.tree := by
  obtain ⟨b, hb, ht⟩ := h.opens
  have := (openBag_parts hb).2.2.2.1
  rw [ht] at this
  exact ⟨_, this⟩

/-- The destination while bags are copied to it. -/
structure Ready (E : RestoreEnv) (A : Str → Prop) (ts : List Tree) (d : Tree) : Prop where
  wf : WfTree d
  tidy : Tidy (AtDest E) E.base.algs A d
  files : ∀ p, d.isfile p = true → (∃ t ∈ ts, t.isfile p = true) ∨ p = [py!"bag-info.txt"] ∨
    ∃ a ∈ E.base.algs, p = manPath py!"manifest" a ∨ p = manPath py!"tagmanifest" a
  dirs : ∀ p, d.isdir p = true → p = [] ∨ ∃ t ∈ ts, t.isdir p = true
  info : TagInfoOk d

theorem Ready.opens {E : RestoreEnv} {A : Str → Prop} (hF : EnvFits E) {ts : List Tree} {d : Tree} (h : Ready E A ts d)
    {t : Tree} {cfg : ReadCfg} (hk : cfg.knownEncoding = E.base.knownEncoding) {b : RBag} (hb : openBag cfg t = .ok b)
    (htag : b.tagFile = py!"bag-info.txt")
    (hbag : dget d [py!"bagit.txt"] = dget t [py!"bagit.txt"]) :
    ∃ b', openBag E.base d = .ok b' ∧ b'.tagFile = py!"bag-info.txt" ∧ startsWith py!"UTF" b'.encoding = true := by
  obtain ⟨ht, hm, htf, _, tags, v, hb1, hb2, hb3, hb4, hb5⟩ := openBag_parts hb
  rw [htag] at htf
  rw [hk] at hb5
  have hu := hF.utf _ hb5
  obtain ⟨i, hi⟩ := h.info
  obtain ⟨⟨algs, es⟩, hl⟩ := h.tidy.loads hF.algs b.version hu
  have e1 : loadTagFile true d [py!"bagit.txt"] = .ok tags := by
    rw [← hb1]; unfold loadTagFile; rw [read_of_dget hbag]
  have e0 : d.isfile [py!"bagit.txt"] = true := by
    unfold loadTagFile at e1
    split at e1
    · cases e1
    · next x hx => exact isfile_of_read hx
  exact ⟨_, openBag_of_parts e0 e1 hb2 hb3 htf hb4 hb5 hi hl, rfl, hu⟩

theorem bag_info_not_manifest : ¬ ManifestFile [py!"bag-info.txt"] := by
  rintro ⟨a, h | h⟩ <;> simp at h

theorem bagit_not_manifest : ¬ ManifestFile [py!"bagit.txt"] := by
  rintro ⟨a, h | h⟩ <;> simp at h

theorem manPath_manifestFile (a : Str) : ManifestFile (manPath py!"manifest" a) ∧ ManifestFile (manPath py!"tagmanifest" a) :=
  ⟨⟨a, .inl rfl⟩, ⟨a, .inr rfl⟩⟩

theorem Ready.noclash {E : RestoreEnv} {A : Str → Prop} {ts : List Tree} {d : Tree} (h : Ready E A ts d)
    (hc : NoClash ts) (hts : ∀ t ∈ ts, Tidy (AtDest E) E.base.algs A t ∧ TagInfoOk t ∧ WfTree t) {src : Tree} (hs : src ∈ ts) :
    NoClash [src, d] := by
  have hsd : ∀ p, ¬ (src.isfile p = true ∧ d.isdir p = true) := by
    rintro p ⟨h1, h2⟩
    rcases h.dirs p h2 with rfl | ⟨t, ht, h3⟩
    · exact absurd rfl (file_ne_nil (hts src hs).2.2 h1).1
    · exact hc src hs t ht p ⟨h1, h3⟩
  have hds : ∀ p, ¬ (d.isfile p = true ∧ src.isdir p = true) := by
    rintro p ⟨h1, h2⟩
    rcases h.files p h1 with ⟨t, ht, h3⟩ | rfl | ⟨a, ha, rfl | rfl⟩
    · exact hc t ht src hs p ⟨h3, h2⟩
    · rw [(hts src hs).2.1.nodir] at h2; cases h2
    · have := (hts src hs).1.payload.nodir a ha
      unfold manPath at h2
      rw [this] at h2; cases h2
    · have := (hts src hs).1.tag.nodir a ha
      unfold manPath at h2
      rw [this] at h2; cases h2
  have self : ∀ {t : Tree}, WfTree t → ∀ p, ¬ (t.isfile p = true ∧ t.isdir p = true) := by
    rintro t hw p ⟨h1, h2⟩
    obtain ⟨c, hcc⟩ := isfile_iff.1 h1
    rcases isdir_iff.1 h2 with e | e
    · exact absurd e (file_ne_nil hw h1).1
    · rw [hcc] at e; cases e
  intro t ht t' ht' p
  simp only [List.mem_cons, List.not_mem_nil, or_false] at ht ht'
  rcases ht with rfl | rfl <;> rcases ht' with rfl | rfl
  · exact self (hts _ hs).2.2 p
  · exact hsd p
  · exact hds p
  · exact self h.wf p

/-- Restoring from one bag succeeds. -/
theorem restoreFrom_ready {E : RestoreEnv} (hE : EnvOk E) (hF : EnvFits E) {A : Str → Prop} {ts : List Tree}
    (hc : NoClash ts) (hts : ∀ t ∈ ts, Tidy (AtDest E) E.base.algs A t ∧ TagInfoOk t ∧ WfTree t)
    {src : RSource} (hs : Fits E A src) (hin : src.tree ∈ ts) (hp : src.path ≠ E.base.bagpath)
    {skip : List Str} (he : [] ∉ skip) (hkeep : ∀ p, (p = [py!"bagit.txt"] ∨ ManifestFile p) → ¬ Deleted skip p)
    {head : Tree} {cfg : ReadCfg} (hk : cfg.knownEncoding = E.base.knownEncoding) {hb : RBag}
    (hopen : openBag cfg head = .ok hb) (htag : hb.tagFile = py!"bag-info.txt")
    {d : Tree} (hd : Ready E A ts d)
    (hbag : dget d [py!"bagit.txt"] = dget head [py!"bagit.txt"] ∨ dget d [py!"bagit.txt"] = none ∧ src.tree = head) :
    ∃ d', restoreFrom E src skip false d = .ok d' ∧ Ready E A ts d' ∧
      dget d' [py!"bagit.txt"] = dget head [py!"bagit.txt"] := by
  have hw := (hts _ hin).2.2
  have hwalk := hE.walk _ hw
  have hacts := actsOf_ok hw hwalk he
  obtain ⟨s, hr⟩ := runActs_total (ow := false) hacts (allReady_actsOf hw he hwalk) (hd.noclash hc hts hin) []
  have hcop : ∀ p, p ≠ [] → (dget d p ≠ none → dget s.dest p = dget d p) ∧
      (dget d p = none → Deleted skip p → dget s.dest p = none) ∧
      (dget d p = none → ¬ Deleted skip p → dget s.dest p = dget src.tree p) := by
    intro p hne
    rw [runActs_ok hacts hr hne]
    exact actEffect_copied hw hwalk he hne _
  have hcase : ∀ p, p ≠ [] → dget s.dest p = dget d p ∨ dget s.dest p = dget src.tree p ∨ dget s.dest p = none := by
    intro p hne
    obtain ⟨h1, h2, h3⟩ := hcop p hne
    by_cases hx : dget d p = none
    · by_cases hdel : Deleted skip p
      · exact .inr (.inr (h2 hx hdel))
      · exact .inr (.inl (h3 hx hdel))
    · exact .inl (h1 hx)
  have hready : Ready E A ts s.dest := by
    refine ⟨wf_runActs hacts hd.wf hr, ⟨?_, ?_⟩, ?_, ?_, ?_⟩
    · exact hs.tidy.payload.copied hd.tidy.payload (fun a _ => (hcop _ (by simp [manPath])).1)
        (fun a _ h => (hcop _ (by simp [manPath])).2.2 h (hkeep _ (.inr (manPath_manifestFile a).1)))
    · exact hs.tidy.tag.copied hd.tidy.tag (fun a _ => (hcop _ (by simp [manPath])).1)
        (fun a _ h => (hcop _ (by simp [manPath])).2.2 h (hkeep _ (.inr (manPath_manifestFile a).2)))
    · intro p hf
      obtain ⟨c, hcc⟩ := isfile_iff.1 hf
      have hne : p ≠ [] := (file_ne_nil (wf_runActs hacts hd.wf hr) hf).1
      rcases hcase p hne with h | h | h
      · exact hd.files p (isfile_iff.2 ⟨c, by rw [← h, hcc]⟩)
      · exact .inl ⟨_, hin, isfile_iff.2 ⟨c, by rw [← h, hcc]⟩⟩
      · rw [h] at hcc; cases hcc
    · intro p hf
      rcases isdir_iff.1 hf with e | e
      · exact .inl e
      · by_cases hne : p = []
        · exact .inl hne
        · rcases hcase p hne with h | h | h
          · exact hd.dirs p (isdir_iff.2 (.inr (by rw [← h, e])))
          · exact .inr ⟨_, hin, isdir_iff.2 (.inr (by rw [← h, e]))⟩
          · rw [h] at e; cases e
    · rcases hcase [py!"bag-info.txt"] (by simp) with h | h | h
      · exact hd.info.congr h
      · exact hs.info.congr h
      · exact .none h
  have hb2 : dget s.dest [py!"bagit.txt"] = dget head [py!"bagit.txt"] := by
    obtain ⟨h1, _, h3⟩ := hcop [py!"bagit.txt"] (by simp)
    by_cases hx : dget d [py!"bagit.txt"] = none
    · rw [h3 hx (hkeep _ (.inl rfl))]
      rcases hbag with h | ⟨_, h⟩
      · exfalso
        obtain ⟨_, _, _, _, tags, v, hl, _⟩ := openBag_parts hopen
        unfold loadTagFile Tree.read at hl
        rw [← h, hx] at hl
        cases hl
      · rw [h]
    · rw [h1 hx]
      rcases hbag with h | ⟨h, _⟩
      · exact h
      · exact absurd h hx
  obtain ⟨sb, hsb, hstag⟩ := hs.opens
  have hsu : startsWith py!"UTF" sb.encoding = true := by
    obtain ⟨_, _, _, _, tags, v, _, _, _, _, h5⟩ := openBag_parts hsb
    exact hF.utf _ h5
  unfold restoreFrom
  rw [if_neg hp, hsb]
  simp only [hr]
  by_cases hu : s.updated = []
  · rw [if_pos hu]; exact ⟨_, rfl, hready, hb2⟩
  · rw [if_neg hu]
    obtain ⟨b', hb', _, hu'⟩ := hready.opens hF hk hopen htag hb2
    have hlook : TidyLook (AtDest E) E.base.algs A sb.entries :=
      Spec.Tidy.look (cfg := { E.base with bagpath := src.path }) hs.tidy hsb hsu
    obtain ⟨d', hd', ht', hfr⟩ := updateManifests_tidy (upd := s.updated) hb' hu' hready.tidy hlook
    have hfr' : ∀ p, ¬ ManifestFile p → dget d' p = dget s.dest p := fun p hpm =>
      hfr p (fun a _ => ⟨fun e => hpm (e ▸ (manPath_manifestFile a).1), fun e => hpm (e ▸ (manPath_manifestFile a).2)⟩)
    refine ⟨d', hd', ⟨?_, ht', ?_, ?_, hready.info.congr (hfr' _ bag_info_not_manifest)⟩, ?_⟩
    · exact wf_updateManifests hd' hlook.nodup (fun p a v hv => hE.algs a (hlook.line p a v hv).1) hready.wf
    · intro p hf
      by_cases hm : ∃ a ∈ E.base.algs, p = manPath py!"manifest" a ∨ p = manPath py!"tagmanifest" a
      · exact .inr (.inr hm)
      · obtain ⟨c, hcc⟩ := isfile_iff.1 hf
        rw [hfr p (fun a ha => ⟨fun e => hm ⟨a, ha, .inl e⟩, fun e => hm ⟨a, ha, .inr e⟩⟩)] at hcc
        exact hready.files p (isfile_iff.2 ⟨c, hcc⟩)
    · intro p hf
      rcases isdir_iff.1 hf with e | e
      · exact .inl e
      · by_cases hm : ∃ a ∈ E.base.algs, p = manPath py!"manifest" a ∨ p = manPath py!"tagmanifest" a
        · exfalso
          obtain ⟨a, ha, rfl | rfl⟩ := hm
          · have := ht'.payload.nodir a ha
            unfold manPath at hf
            rw [hf] at this; cases this
          · have := ht'.tag.nodir a ha
            unfold manPath at hf
            rw [hf] at this; cases this
        · rw [hfr p (fun a ha => ⟨fun e => hm ⟨a, ha, .inl e⟩, fun e => hm ⟨a, ha, .inr e⟩⟩)] at e
          exact hready.dirs p (isdir_iff.2 (.inr e))
    · rw [hfr' _ bagit_not_manifest, hb2]

end Verif
