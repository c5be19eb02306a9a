import Verif.Lemmas.Restore
import Verif.Props.ReadBag
/-!
# Manifests of a restored bag
-/

namespace Verif
open Spec

/-! ## Collecting and merging checksums -/

/-- The checksum in `updated_by_alg`. -/
def ByAlg.get (m : ByAlg) (alg p : Str) : Option Str := dget ((dget m alg).getD []) p

/-- Algorithms and paths are listed once. -/
structure ByAlg.Ok (m : ByAlg) : Prop where
  nodup : (dkeys m).Nodup
  inner : ∀ e ∈ m, (dkeys e.2).Nodup

theorem ByAlg.inner_get {m : ByAlg} (h : m.Ok) (alg : Str) : (dkeys ((dget m alg).getD [])).Nodup := by
  cases hg : dget m alg with
  | none => simp [dkeys]
  | some ps => exact h.inner _ (mem_of_dget hg)

theorem ByAlg.put_ok {m : ByAlg} (h : m.Ok) (alg p v : Str) : (m.put alg p v).Ok := by
  refine ⟨nodup_dset h.nodup _ _, ?_⟩
  rintro ⟨a, ps⟩ hm
  have := dget_of_mem (nodup_dset h.nodup _ _) hm
  rw [dget_dset] at this
  split at this
  · cases this
    exact nodup_dset (ByAlg.inner_get h _) _ _
  · exact h.inner _ (mem_of_dget this)

theorem ByAlg.get_put (m : ByAlg) (alg p v a q : Str) :
    (m.put alg p v).get a q = if alg = a ∧ p = q then some v else m.get a q := by
  unfold ByAlg.put ByAlg.get
  rw [dget_dset]
  by_cases h : alg = a
  · subst h
    rw [if_pos rfl, Option.getD_some, dget_dset]
    by_cases hp : p = q
    · rw [if_pos hp, if_pos ⟨rfl, hp⟩]
    · rw [if_neg hp, if_neg (fun h => hp h.2)]
  · rw [if_neg h, if_neg (fun e => h e.1)]

theorem ByAlg.mem_put {m : ByAlg} {alg p v a : Str} : a ∈ dkeys (m.put alg p v) ↔ a = alg ∨ a ∈ dkeys m :=
  mem_dkeys_dset

/-- The inner loop of `collect`. -/
def collectPath (p : Str) (hs : List (Str × Str)) (m : ByAlg) : ByAlg := hs.foldl (fun m ah => m.put ah.1 p ah.2) m

theorem collectPath_spec {p : Str} {hs : List (Str × Str)} (hn : (dkeys hs).Nodup) {m : ByAlg} (h : m.Ok) :
    (collectPath p hs m).Ok ∧
    (∀ a q, (collectPath p hs m).get a q = if q = p then (dget hs a).or (m.get a q) else m.get a q) ∧
    (∀ a, a ∈ dkeys (collectPath p hs m) ↔ a ∈ dkeys hs ∨ a ∈ dkeys m) := by
  unfold collectPath
  induction hs generalizing m with
  | nil => exact ⟨h, by simp [dget], by simp [dkeys]⟩
  | cons e hs ih =>
    obtain ⟨alg, v⟩ := e
    simp only [dkeys, List.map_cons, List.nodup_cons] at hn
    obtain ⟨h1, h2, h3⟩ := ih hn.2 (ByAlg.put_ok h alg p v)
    refine ⟨h1, ?_, ?_⟩
    · intro a q
      rw [List.foldl_cons, h2, ByAlg.get_put]
      by_cases hq : q = p
      · subst hq
        simp only [if_true, and_true]
        rw [dget]
        by_cases ha : alg = a
        · subst ha
          rw [if_pos rfl, if_pos rfl, dget_eq_none_iff.2 hn.1]; rfl
        · rw [if_neg ha, if_neg ha]
      · rw [if_neg hq, if_neg hq, if_neg (fun h => hq h.2.symm)]
    · intro a
      rw [List.foldl_cons, h3, ByAlg.mem_put]
      simp only [dkeys, List.map_cons, List.mem_cons]
      constructor
      · rintro (h | h | h)
        · exact .inl (.inr h)
        · exact .inl (.inl h)
        · exact .inr h
      · rintro ((h | h) | h)
        · exact .inr (.inl h)
        · exact .inl h
        · exact .inr (.inr h)

theorem collect_aux {es : Entries} (hi : ∀ e ∈ es, (dkeys e.2).Nodup) (upd : List Str) {m : ByAlg} (h : m.Ok) :
    let m' := upd.foldl (fun m p => collectPath p ((dget es p).getD []) m) m
    m'.Ok ∧ (∀ a q, m'.get a q = if q ∈ upd then (es.look q a).or (m.get a q) else m.get a q) ∧
    (∀ a, a ∈ dkeys m' ↔ a ∈ dkeys m ∨ ∃ q ∈ upd, (es.look q a).isSome) := by
  induction upd generalizing m with
  | nil => exact ⟨h, by simp, by simp⟩
  | cons p upd ih =>
    have hn : (dkeys ((dget es p).getD [])).Nodup := by
      cases hg : dget es p with
      | none => simp [dkeys]
      | some ps => exact hi _ (mem_of_dget hg)
    obtain ⟨c1, c2, c3⟩ := collectPath_spec (p := p) hn h
    obtain ⟨h1, h2, h3⟩ := ih c1
    refine ⟨h1, ?_, ?_⟩
    · intro a q
      simp only [List.foldl_cons]
      rw [h2, c2]
      by_cases hq : q = p
      · subst hq
        rw [if_pos rfl, if_pos (List.mem_cons_self)]
        change (if q ∈ upd then (es.look q a).or ((es.look q a).or _) else (es.look q a).or _) = _
        split
        · cases es.look q a <;> rfl
        · rfl
      · rw [if_neg hq]
        simp only [List.mem_cons, hq, false_or]
    · intro a
      simp only [List.foldl_cons]
      rw [h3, c3]
      have : a ∈ dkeys ((dget es p).getD []) ↔ (es.look p a).isSome = true := by
        unfold Entries.look
        rw [mem_dkeys_iff, Option.isSome_iff_exists]
      rw [this]
      constructor
      · rintro ((h | h) | ⟨q, hq, h⟩)
        · exact .inr ⟨p, List.mem_cons_self, h⟩
        · exact .inl h
        · exact .inr ⟨q, List.mem_cons_of_mem _ hq, h⟩
      · rintro (h | ⟨q, hq, h⟩)
        · exact .inl (.inr h)
        · rcases List.mem_cons.1 hq with rfl | hq
          · exact .inl (.inl h)
          · exact .inr ⟨q, hq, h⟩

theorem collect_spec {es : Entries} (hi : ∀ e ∈ es, (dkeys e.2).Nodup) (upd : List Str) :
    (collect es upd).Ok ∧ (∀ a q, (collect es upd).get a q = if q ∈ upd then es.look q a else none) ∧
    (∀ a, a ∈ dkeys (collect es upd) ↔ ∃ q ∈ upd, (es.look q a).isSome) := by
  obtain ⟨h1, h2, h3⟩ := collect_aux hi upd (m := []) ⟨by simp [dkeys], by simp⟩
  refine ⟨h1, ?_, ?_⟩
  · intro a q
    have := h2 a q
    have e : ByAlg.get [] a q = none := rfl
    rw [e] at this
    refine Eq.trans this ?_
    simp
  · intro a
    refine Iff.trans (h3 a) ?_
    simp [dkeys]

theorem mergePath_ok {p : Str} {hs : List (Str × Str)} {m m' : ByAlg} (h : mergePath p hs m = .ok m') (ho : m.Ok) :
    dkeys m' = dkeys m ∧ m'.Ok ∧
    ∀ a q, m'.get a q = if q = p ∧ a ∈ dkeys m then (m.get a q).or (dget hs a) else m.get a q := by
  induction m generalizing m' with
  | nil => cases h; exact ⟨rfl, ho, by simp [dkeys]⟩
  | cons e m ih =>
    obtain ⟨alg, ps⟩ := e
    simp only [mergePath] at h
    have hps : (dkeys ps).Nodup := ho.inner _ List.mem_cons_self
    have ho' : ByAlg.Ok m := ⟨by have := ho.nodup; simp only [dkeys, List.map_cons, List.nodup_cons] at this; exact this.2,
      fun e he => ho.inner e (List.mem_cons_of_mem _ he)⟩
    have hna : alg ∉ dkeys m := by
      have := ho.nodup; simp only [dkeys, List.map_cons, List.nodup_cons] at this; exact this.1
    have key : ∃ ps', (∀ q, dget ps' q = if q = p then (dget ps q).or (dget hs alg) else dget ps q) ∧
        (dkeys ps').Nodup ∧ ∃ m1, mergePath p hs m = .ok m1 ∧ m' = (alg, ps') :: m1 := by
      by_cases hd : dmem ps p = true
      · rw [if_pos hd] at h
        simp only at h
        cases hm : mergePath p hs m with
        | error e => rw [hm] at h; cases h
        | ok m1 =>
          rw [hm] at h; cases h
          refine ⟨ps, ?_, hps, m1, rfl, rfl⟩
          intro q
          split
          · rename_i e; subst e
            unfold dmem at hd
            obtain ⟨v, hv⟩ := Option.isSome_iff_exists.1 hd
            rw [hv]; rfl
          · rfl
      · rw [if_neg hd] at h
        cases hg : dget hs alg with
        | none => rw [hg] at h; cases h
        | some v =>
          rw [hg] at h
          simp only at h
          cases hm : mergePath p hs m with
          | error e => rw [hm] at h; cases h
          | ok m1 =>
            rw [hm] at h; cases h
            refine ⟨_, ?_, nodup_dset hps p v, m1, rfl, rfl⟩
            intro q
            rw [dget_dset]
            by_cases e : p = q
            · subst e
              rw [if_pos rfl, if_pos rfl]
              have : dget ps p = none := by
                unfold dmem at hd; simpa using hd
              rw [this]; rfl
            · rw [if_neg e, if_neg (fun h => e h.symm)]
    obtain ⟨ps', hps', hn', m1, hm1, rfl⟩ := key
    obtain ⟨k1, k2, k3⟩ := ih hm1 ho'
    refine ⟨?_, ⟨?_, ?_⟩, ?_⟩
    · simp only [dkeys, List.map_cons] at k1 ⊢; rw [k1]
    · simp only [dkeys, List.map_cons, List.nodup_cons] at k1 hna ⊢
      rw [k1]; exact ⟨hna, ho'.nodup⟩
    · intro e he
      rcases List.mem_cons.1 he with rfl | he
      · exact hn'
      · exact k2.inner e he
    · intro a q
      unfold ByAlg.get at k3 ⊢
      rw [dget, dget]
      by_cases ha : alg = a
      · subst ha
        rw [if_pos rfl, if_pos rfl, Option.getD_some, Option.getD_some, hps']
        by_cases hq : q = p
        · rw [if_pos hq, if_pos ⟨hq, by simp [dkeys]⟩]
        · rw [if_neg hq, if_neg (fun h => hq h.1)]
      · rw [if_neg ha, if_neg ha, k3]
        have : a ∈ dkeys ((alg, ps) :: m) ↔ a ∈ dkeys m := by
          simp only [dkeys, List.map_cons, List.mem_cons]
          exact ⟨fun h => h.resolve_left (fun e => ha e.symm), .inr⟩
        simp only [this]

theorem mergeAll_ok {es : Entries} (hn : (dkeys es).Nodup) {m m' : ByAlg} (h : mergeAll es m = .ok m') (ho : m.Ok) :
    dkeys m' = dkeys m ∧ m'.Ok ∧
    ∀ a q, m'.get a q = if a ∈ dkeys m then (m.get a q).or (es.look q a) else m.get a q := by
  induction es generalizing m with
  | nil =>
    cases h
    refine ⟨rfl, ho, ?_⟩
    intro a q
    have : Entries.look [] q a = none := rfl
    rw [this]; simp
  | cons e es ih =>
    obtain ⟨p, hs⟩ := e
    simp only [dkeys, List.map_cons, List.nodup_cons] at hn
    simp only [mergeAll] at h
    cases hm : mergePath p hs m with
    | error e => rw [hm] at h; cases h
    | ok m1 =>
      rw [hm] at h
      obtain ⟨k1, k2, k3⟩ := mergePath_ok hm ho
      obtain ⟨l1, l2, l3⟩ := ih hn.2 h k2
      refine ⟨l1.trans k1, l2, ?_⟩
      intro a q
      rw [l3, k1, k3]
      by_cases ha : a ∈ dkeys m
      · rw [if_pos ha, if_pos ha]
        simp only [ha, and_true]
        unfold Entries.look
        rw [dget]
        by_cases hq : q = p
        · subst hq
          rw [if_pos rfl, if_pos rfl, Option.getD_some, dget_eq_none_iff.2 hn.1]
          simp [dget]
        · rw [if_neg hq, if_neg (fun e => hq e.symm)]
      · rw [if_neg ha, if_neg ha, if_neg (fun h => ha h.2)]

/-- After merging, every path of the destination has a checksum for each algorithm. -/
theorem mergeAll_total {es : Entries} {m m' : ByAlg} (hn : (dkeys es).Nodup) (ho : m.Ok) (h : mergeAll es m = .ok m')
    {p a v : Str} (ha : a ∈ dkeys m) (hp : es.look p a = some v) : (m'.get a p).isSome := by
  rw [(mergeAll_ok hn h ho).2.2, if_pos ha, hp]
  cases m.get a p <;> rfl

/-! ## Writing manifests -/

theorem manPath_inj {k a b : Str} (h : manPath k a = manPath k b) : a = b := by
  unfold manPath at h
  simpa using h

theorem manPath_ne (a b : Str) : manPath py!"manifest" a ≠ manPath py!"tagmanifest" b := by
  unfold manPath
  intro h
  simp at h

theorem writeManifest_ok {d d' : Tree} {kind alg : Str} {es : List (Str × Str)}
    (h : writeManifest d kind alg es = .ok d') :
    (∀ p, p ≠ manPath kind alg → dget d' p = dget d p) ∧
    d'.read (manPath kind alg) =
      if es = [] then d.read (manPath kind alg) else some (es.map (fun ph => hashLine ph.2 ph.1)).flatten := by
  unfold writeManifest at h
  by_cases he : es = []
  · rw [if_pos he] at h; cases h
    rw [if_pos he]
    exact ⟨fun _ _ => rfl, rfl⟩
  · rw [if_neg he] at h
    rw [if_neg he]
    obtain ⟨rfl, _⟩ := Tree.write_ok h
    refine ⟨fun p hp => by rw [dget_dset, if_neg (fun e => hp e.symm)], ?_⟩
    rw [Tree.read, dget_dset, if_pos rfl]

theorem writeManifests_ok {m : ByAlg} {d d' : Tree} (ho : m.Ok) (h : writeManifests d m = .ok d') :
    (∀ p, (∀ a ∈ dkeys m, p ≠ manPath py!"manifest" a ∧ p ≠ manPath py!"tagmanifest" a) → dget d' p = dget d p) ∧
    (∀ a ps, (a, ps) ∈ m →
      (d'.read (manPath py!"manifest" a) =
        if ps.filter (fun ph => startsWith py!"data/" ph.1) = [] then d.read (manPath py!"manifest" a)
        else some ((ps.filter (fun ph => startsWith py!"data/" ph.1)).map (fun ph => hashLine ph.2 ph.1)).flatten) ∧
      (d'.read (manPath py!"tagmanifest" a) =
        if ps.filter (fun ph => !startsWith py!"data/" ph.1) = [] then d.read (manPath py!"tagmanifest" a)
        else some ((ps.filter (fun ph => !startsWith py!"data/" ph.1)).map (fun ph => hashLine ph.2 ph.1)).flatten)) := by
  induction m generalizing d with
  | nil => cases h; exact ⟨fun _ _ => rfl, by simp⟩
  | cons e m ih =>
    obtain ⟨alg, ps⟩ := e
    have ho' : ByAlg.Ok m := ⟨by have := ho.nodup; simp only [dkeys, List.map_cons, List.nodup_cons] at this; exact this.2,
      fun e he => ho.inner e (List.mem_cons_of_mem _ he)⟩
    have hna : alg ∉ dkeys m := by
      have := ho.nodup; simp only [dkeys, List.map_cons, List.nodup_cons] at this; exact this.1
    simp only [writeManifests] at h
    cases h1 : writeManifest d py!"manifest" alg (ps.filter (fun ph => startsWith py!"data/" ph.1)) with
    | error e => rw [h1] at h; cases h
    | ok d1 =>
      rw [h1] at h
      simp only at h
      cases h2 : writeManifest d1 py!"tagmanifest" alg (ps.filter (fun ph => !startsWith py!"data/" ph.1)) with
      | error e => rw [h2] at h; cases h
      | ok d2 =>
        rw [h2] at h
        simp only at h
        obtain ⟨f1, r1⟩ := writeManifest_ok h1
        obtain ⟨f2, r2⟩ := writeManifest_ok h2
        obtain ⟨f3, r3⟩ := ih ho' h
        refine ⟨?_, ?_⟩
        · intro p hp
          rw [f3 p (fun a ha => hp a (by simp only [dkeys, List.map_cons, List.mem_cons]; exact .inr ha)),
            f2 p (hp alg (by simp [dkeys])).2, f1 p (hp alg (by simp [dkeys])).1]
        · intro a qs hm
          rcases List.mem_cons.1 hm with e | hm'
          · obtain ⟨rfl, rfl⟩ : a = alg ∧ qs = ps := by simpa using e
            have na : ∀ b ∈ dkeys m, manPath py!"manifest" a ≠ manPath py!"manifest" b ∧
                manPath py!"manifest" a ≠ manPath py!"tagmanifest" b := fun b hb =>
              ⟨fun e => hna (by rw [manPath_inj e]; exact hb), manPath_ne _ _⟩
            have nb : ∀ b ∈ dkeys m, manPath py!"tagmanifest" a ≠ manPath py!"manifest" b ∧
                manPath py!"tagmanifest" a ≠ manPath py!"tagmanifest" b := fun b hb =>
              ⟨fun e => manPath_ne _ _ e.symm, fun e => hna (by rw [manPath_inj e]; exact hb)⟩
            refine ⟨?_, ?_⟩
            · rw [read_of_dget (f3 _ na), read_of_dget (f2 _ (manPath_ne _ _)), r1]
            · rw [read_of_dget (f3 _ nb), r2, read_of_dget (f1 _ (fun e => manPath_ne _ _ e.symm))]
          · have hb : a ≠ alg := by
              rintro rfl
              exact hna (List.mem_map.2 ⟨(a, qs), hm', rfl⟩)
            obtain ⟨q1, q2⟩ := r3 a qs hm'
            have e1 : dget d2 (manPath py!"manifest" a) = dget d (manPath py!"manifest" a) := by
              rw [f2 _ (manPath_ne _ _), f1 _ (fun e => hb (manPath_inj e))]
            have e2 : dget d2 (manPath py!"tagmanifest" a) = dget d (manPath py!"tagmanifest" a) := by
              rw [f2 _ (fun e => hb (manPath_inj e)), f1 _ (fun e => manPath_ne _ _ e.symm)]
            rw [q1, q2, read_of_dget e1, read_of_dget e2]
            exact ⟨rfl, rfl⟩

theorem wf_writeManifest {d d' : Tree} {kind alg : Str} {es : List (Str × Str)} (hw : WfTree d)
    (hk : kind = py!"manifest" ∨ kind = py!"tagmanifest") (ha : '/' ∉ alg)
    (h : writeManifest d kind alg es = .ok d') : WfTree d' := by
  unfold writeManifest at h
  split at h
  · cases h; exact hw
  · exact wf_write hw (manPath_good kind alg hk ha) h

theorem wf_writeManifests {m : ByAlg} {d d' : Tree} (hw : WfTree d) (ha : ∀ a ∈ dkeys m, '/' ∉ a)
    (h : writeManifests d m = .ok d') : WfTree d' := by
  induction m generalizing d with
  | nil => cases h; exact hw
  | cons e m ih =>
    obtain ⟨alg, ps⟩ := e
    simp only [writeManifests] at h
    have hal := ha alg (by simp [dkeys])
    cases h1 : writeManifest d py!"manifest" alg (ps.filter (fun ph => startsWith py!"data/" ph.1)) with
    | error e => rw [h1] at h; cases h
    | ok d1 =>
      rw [h1] at h
      simp only at h
      cases h2 : writeManifest d1 py!"tagmanifest" alg (ps.filter (fun ph => !startsWith py!"data/" ph.1)) with
      | error e => rw [h2] at h; cases h
      | ok d2 =>
        rw [h2] at h
        simp only at h
        exact ih (wf_writeManifest (wf_writeManifest hw (.inl rfl) hal h1) (.inr rfl) hal h2)
          (fun a h => ha a (by simp only [dkeys, List.map_cons, List.mem_cons]; exact .inr h)) h

/-! ## Reading them back -/

theorem isNl_space {c : Char} (h : isSpace c = false) : isNl c = false := by
  cases hn : isNl c with
  | false => rfl
  | true =>
    unfold isNl at hn
    simp only [Bool.or_eq_true, beq_iff_eq] at hn
    rcases hn with rfl | rfl <;> exact absurd h (by decide)

theorem manifestLines_written {es : List (Str × Str)} (h : ∀ e ∈ es, PlainLine e.2 e.1) :
    manifestLines py!"UTF-8" (es.map (fun ph => hashLine ph.2 ph.1)).flatten =
      es.map (fun ph => hashLine ph.2 ph.1) := by
  have e : es.map (fun ph => hashLine ph.2 ph.1) = (es.map (fun ph => ph.2 ++ ' ' :: ph.1)).map (· ++ ['\n']) := by
    rw [List.map_map]
    refine List.map_congr_left (fun ph _ => ?_)
    simp [hashLine]
  unfold manifestLines
  rw [if_pos (by decide)]
  have hb : dropBom (es.map (fun ph => hashLine ph.2 ph.1)).flatten = (es.map (fun ph => hashLine ph.2 ph.1)).flatten := by
    cases es with
    | nil => rfl
    | cons x es =>
      obtain ⟨hw, _, hnb, _⟩ := h x List.mem_cons_self
      cases hx : x.2 with
      | nil => exact absurd hx hw.1
      | cons c w =>
        rw [hx] at hnb
        simp only [List.head?_cons, ne_eq, Option.some.injEq] at hnb
        simp [hashLine, hx, dropBom, hnb]
  rw [hb, e]
  refine textLines_universal _ ?_
  intro l hl c hc
  obtain ⟨ph, hph, rfl⟩ := List.mem_map.1 hl
  obtain ⟨hw, _, _, hp⟩ := h ph hph
  rcases List.mem_append.1 hc with hc | hc
  · exact isNl_space (hw.2 c hc)
  · rcases List.mem_cons.1 hc with rfl | hc
    · decide
    · exact hp.nobreak c hc

theorem lists_written {es : List (Str × Str)} (h : ∀ e ∈ es, PlainLine e.2 e.1) {c p : Str} :
    (∃ line ∈ manifestLines py!"UTF-8" (es.map (fun ph => hashLine ph.2 ph.1)).flatten, Lists line c p) ↔
      (p, c) ∈ es := by
  rw [manifestLines_written h]
  constructor
  · rintro ⟨line, hl, hc⟩
    obtain ⟨⟨p', c'⟩, hm, rfl⟩ := List.mem_map.1 hl
    obtain ⟨hw, hh, _, hp⟩ := h _ hm
    obtain ⟨rfl, rfl⟩ := (C70_plain_line hw hh hp c p).1 hc
    exact hm
  · intro hm
    obtain ⟨hw, hh, _, hp⟩ := h _ hm
    exact ⟨_, List.mem_map.2 ⟨_, hm, rfl⟩, (C70_plain_line hw hh hp c p).2 ⟨rfl, rfl⟩⟩

theorem manifestLines_utf {enc text : Str} (h : startsWith py!"UTF" enc = true) :
    manifestLines enc text = manifestLines py!"UTF-8" text := by
  unfold manifestLines
  rw [if_pos h, if_pos (by decide)]

/-- The entries of an opened bag are what its manifests record. -/
theorem look_recorded {cfg : ReadCfg} {t : Tree} {b : RBag} (h : openBag cfg t = .ok b)
    (he : startsWith py!"UTF" b.encoding = true) {p alg c : Str} :
    b.entries.look p alg = some c ↔ alg ∈ cfg.algs ∧
      (Recorded py!"manifest" t alg p c ∨ (tupLe [0, 97] b.version = true ∧ Recorded py!"tagmanifest" t alg p c)) := by
  have hl := (openBag_parts h).2.1
  rw [C70_loads hl]
  have key : ∀ kind, (∃ line, (alg, line) ∈ (cfg.algs.flatMap (fun alg =>
      match t.read [kind ++ '-' :: alg ++ py!".txt"] with
      | some text => (manifestLines b.encoding text).map (fun l => (alg, l))
      | none => [])) ∧ Lists line c p) ↔ alg ∈ cfg.algs ∧ Recorded kind t alg p c := by
    intro kind
    constructor
    · rintro ⟨line, hm, hls⟩
      obtain ⟨a, ha, hm⟩ := List.mem_flatMap.1 hm
      cases hr : t.read [kind ++ '-' :: a ++ py!".txt"] with
      | none => rw [hr] at hm; simp at hm
      | some text =>
        rw [hr] at hm
        obtain ⟨l, hl, e⟩ := List.mem_map.1 hm
        cases e
        rw [manifestLines_utf he] at hl
        exact ⟨ha, text, line, hr, hl, hls⟩
    · rintro ⟨ha, text, line, hr, hl, hls⟩
      refine ⟨line, List.mem_flatMap.2 ⟨alg, ha, ?_⟩, hls⟩
      rw [hr]
      exact List.mem_map.2 ⟨line, by rw [manifestLines_utf he]; exact hl, rfl⟩
  unfold manifestText
  have k1 := key py!"manifest"
  have k2 := key py!"tagmanifest"
  constructor
  · rintro ⟨line, hm, hls⟩
    rcases List.mem_append.1 hm with hm | hm
    · obtain ⟨ha, hr⟩ := k1.1 ⟨line, hm, hls⟩
      exact ⟨ha, .inl hr⟩
    · cases hv : tupLt b.version [0, 97] with
      | true => rw [hv] at hm; simp at hm
      | false =>
        rw [hv] at hm
        obtain ⟨ha, hr⟩ := k2.1 ⟨line, hm, hls⟩
        exact ⟨ha, .inr ⟨by unfold tupLe; rw [hv]; rfl, hr⟩⟩
  · rintro ⟨ha, hr | ⟨hv, hr⟩⟩
    · obtain ⟨line, hm, hls⟩ := k1.2 ⟨ha, hr⟩
      exact ⟨line, List.mem_append.2 (.inl hm), hls⟩
    · obtain ⟨line, hm, hls⟩ := k2.2 ⟨ha, hr⟩
      refine ⟨line, List.mem_append.2 (.inr ?_), hls⟩
      have : tupLt b.version [0, 97] = false := by
        unfold tupLe at hv; simpa using hv
      rw [this]
      exact hm

/-! ## `_update_manifests` -/

theorem Spec.Orderly.look {cfg : ReadCfg} {t : Tree} {b : RBag} (ho : Orderly cfg.algs t) (h : openBag cfg t = .ok b)
    (he : startsWith py!"UTF" b.encoding = true) {p alg c : Str} (hp : isPayload p = true) :
    b.entries.look p alg = some c ↔ alg ∈ cfg.algs ∧ Recorded py!"manifest" t alg p c := by
  rw [look_recorded h he]
  refine and_congr_right (fun ha => ⟨?_, .inl⟩)
  rintro (h | ⟨_, h⟩)
  · exact h
  · rw [(ho.tag alg ha p c h).1] at hp; cases hp

theorem Spec.Orderly.plain {cfg : ReadCfg} {t : Tree} {b : RBag} (ho : Orderly cfg.algs t) (h : openBag cfg t = .ok b)
    (he : startsWith py!"UTF" b.encoding = true) {p alg c : Str} (hl : b.entries.look p alg = some c) :
    alg ∈ cfg.algs ∧ PlainLine c p := by
  obtain ⟨ha, h | ⟨_, h⟩⟩ := (look_recorded h he).1 hl
  · exact ⟨ha, (ho.payload alg ha p c h).2⟩
  · exact ⟨ha, (ho.tag alg ha p c h).2⟩

theorem recorded_of_read {kind : Str} {t t' : Tree} {a p h : Str}
    (e : t.read (manPath kind a) = t'.read (manPath kind a)) :
    Recorded kind t a p h ↔ Recorded kind t' a p h := by
  unfold Recorded
  unfold manPath at e
  rw [e]

theorem recorded_written {kind : Str} {t : Tree} {a : Str} {es : List (Str × Str)}
    (e : t.read (manPath kind a) = some (es.map (fun ph => hashLine ph.2 ph.1)).flatten)
    (hp : ∀ e ∈ es, PlainLine e.2 e.1) {p h : Str} : Recorded kind t a p h ↔ (p, h) ∈ es := by
  rw [← lists_written hp]
  unfold Recorded
  unfold manPath at e
  constructor
  · rintro ⟨text, line, hr, hl, hs⟩
    rw [e] at hr; cases hr
    exact ⟨line, hl, hs⟩
  · rintro ⟨line, hl, hs⟩
    exact ⟨_, line, e, hl, hs⟩

theorem updateManifests_frame {cfg : ReadCfg} {es : Entries} {upd : List Str} {d d' : Tree}
    (h : updateManifests cfg es upd d = .ok d') (hes : ∀ e ∈ es, (dkeys e.2).Nodup)
    {p : Path} (hp : ¬ ManifestFile p) : dget d' p = dget d p := by
  unfold updateManifests at h
  cases hb : openBag cfg d with
  | error e => rw [hb] at h; cases h
  | ok b =>
    rw [hb] at h
    simp only at h
    cases hm : mergeAll b.entries (collect es upd) with
    | error e => rw [hm] at h; cases h
    | ok m =>
      rw [hm] at h
      simp only at h
      have hl := (openBag_parts hb).2.1
      obtain ⟨_, ho, _⟩ := mergeAll_ok (entries_inv hl).1 hm (collect_spec hes upd).1
      refine (writeManifests_ok ho h).1 p (fun a _ => ?_)
      unfold manPath
      refine ⟨fun e => hp ⟨a, .inl ?_⟩, fun e => hp ⟨a, .inr ?_⟩⟩ <;> simpa using e

theorem wf_updateManifests {cfg : ReadCfg} {es : Entries} {upd : List Str} {d d' : Tree}
    (h : updateManifests cfg es upd d = .ok d') (hes : ∀ e ∈ es, (dkeys e.2).Nodup)
    (ha : ∀ p a v, es.look p a = some v → '/' ∉ a) (hw : WfTree d) : WfTree d' := by
  unfold updateManifests at h
  cases hb : openBag cfg d with
  | error e => rw [hb] at h; cases h
  | ok b =>
    rw [hb] at h
    simp only at h
    cases hm : mergeAll b.entries (collect es upd) with
    | error e => rw [hm] at h; cases h
    | ok m =>
      rw [hm] at h
      simp only at h
      have hl := (openBag_parts hb).2.1
      obtain ⟨hk, ho, _⟩ := mergeAll_ok (entries_inv hl).1 hm (collect_spec hes upd).1
      refine wf_writeManifests hw ?_ h
      intro a hak
      rw [hk, (collect_spec hes upd).2.2] at hak
      obtain ⟨q, _, hq⟩ := hak
      obtain ⟨v, hv⟩ := Option.isSome_iff_exists.1 hq
      exact ha q a v hv

theorem updateManifests_recorded {cfg : ReadCfg} {es : Entries} {upd : List Str} {d d' : Tree} {b : RBag}
    (hb : openBag cfg d = .ok b) (he : startsWith py!"UTF" b.encoding = true) (hod : Orderly cfg.algs d)
    (h : updateManifests cfg es upd d = .ok d') (hes : ∀ e ∈ es, (dkeys e.2).Nodup)
    (hpl : ∀ p a v, es.look p a = some v → a ∈ cfg.algs ∧ PlainLine v p) :
    Orderly cfg.algs d' ∧
    ∀ a ∈ cfg.algs, ∀ p, isPayload p = true → ∀ v,
      Recorded py!"manifest" d' a p v ↔
        if p ∈ upd ∧ (es.look p a).isSome = true then es.look p a = some v
        else Recorded py!"manifest" d a p v := by
  unfold updateManifests at h
  rw [hb] at h
  simp only at h
  cases hm : mergeAll b.entries (collect es upd) with
  | error e => rw [hm] at h; cases h
  | ok m =>
    rw [hm] at h
    simp only at h
    have hl := (openBag_parts hb).2.1
    obtain ⟨c1, c2, c3⟩ := collect_spec hes upd
    obtain ⟨hk, ho, hg⟩ := mergeAll_ok (entries_inv hl).1 hm c1
    obtain ⟨w1, w2⟩ := writeManifests_ok ho h
    -- every merged line is plain
    have plain : ∀ a q v, m.get a q = some v → PlainLine v q := by
      intro a q v hv
      rw [hg, c2] at hv
      have : es.look q a = some v ∨ b.entries.look q a = some v := by
        split at hv
        · split at hv
          · cases hx : es.look q a with
            | none => rw [hx] at hv; right; simpa using hv
            | some x => rw [hx] at hv; left; simpa using hv
          · right; simpa using hv
        · split at hv
          · exact .inl hv
          · cases hv
      rcases this with h | h
      · exact (hpl _ _ _ h).2
      · exact (hod.plain hb he h).2
    have mem : ∀ a ps, (a, ps) ∈ m → ∀ q v, (q, v) ∈ ps ↔ m.get a q = some v := by
      intro a ps hps q v
      unfold ByAlg.get
      rw [dget_of_mem ho.nodup hps, Option.getD_some]
      exact (dget_iff_mem (ho.inner _ hps)).symm
    have plain' : ∀ a ps, (a, ps) ∈ m → ∀ e ∈ ps, PlainLine e.2 e.1 := by
      intro a ps hps e hep
      exact plain a _ _ ((mem a ps hps e.1 e.2).1 hep)
    -- files that are not written
    have keep : ∀ a, a ∉ dkeys m → ∀ kind, (kind = py!"manifest" ∨ kind = py!"tagmanifest") →
        dget d' (manPath kind a) = dget d (manPath kind a) := by
      intro a ha kind hkind
      refine w1 _ (fun b' hb' => ?_)
      rcases hkind with rfl | rfl
      · exact ⟨fun e => ha (by rw [manPath_inj e]; exact hb'), manPath_ne _ _⟩
      · exact ⟨fun e => manPath_ne _ _ e.symm, fun e => ha (by rw [manPath_inj e]; exact hb')⟩
    -- what the payload manifest of a written algorithm lists
    have key1 : ∀ a ps, (a, ps) ∈ m → ∀ q v, Recorded py!"manifest" d' a q v ↔ (q, v) ∈ ps ∧ isPayload q = true ∨
        ((∀ e ∈ ps, isPayload e.1 = false) ∧ Recorded py!"manifest" d a q v) := by
      intro a ps hps q v
      obtain ⟨r1, _⟩ := w2 a ps hps
      by_cases hnil : ps.filter (fun ph => startsWith py!"data/" ph.1) = []
      · rw [if_pos hnil] at r1
        rw [recorded_of_read r1]
        have hall : ∀ e ∈ ps, isPayload e.1 = false := by
          intro e hep
          have := List.filter_eq_nil_iff.1 hnil e hep
          simpa [isPayload] using this
        constructor
        · intro hr; exact .inr ⟨hall, hr⟩
        · rintro (⟨h1, h2⟩ | ⟨_, h2⟩)
          · rw [hall _ h1] at h2; cases h2
          · exact h2
      · rw [if_neg hnil] at r1
        rw [recorded_written r1 (fun e he => plain' a ps hps e (List.mem_filter.1 he).1), List.mem_filter]
        constructor
        · rintro ⟨h1, h2⟩; exact .inl ⟨h1, h2⟩
        · rintro (⟨h1, h2⟩ | ⟨h1, _⟩)
          · exact ⟨h1, h2⟩
          · exfalso; apply hnil
            rw [List.filter_eq_nil_iff]
            intro e hep
            have := h1 e hep
            simpa [isPayload] using this
    have key2 : ∀ a ps, (a, ps) ∈ m → ∀ q v, Recorded py!"tagmanifest" d' a q v →
        ((q, v) ∈ ps ∧ isPayload q = false) ∨ Recorded py!"tagmanifest" d a q v := by
      intro a ps hps q v hr
      obtain ⟨_, r1⟩ := w2 a ps hps
      by_cases hnil : ps.filter (fun ph => !startsWith py!"data/" ph.1) = []
      · rw [if_pos hnil] at r1
        rw [recorded_of_read r1] at hr
        exact .inr hr
      · rw [if_neg hnil] at r1
        rw [recorded_written r1 (fun e he => plain' a ps hps e (List.mem_filter.1 he).1), List.mem_filter] at hr
        exact .inl ⟨hr.1, by simpa [isPayload] using hr.2⟩
    refine ⟨⟨?_, ?_⟩, ?_⟩
    · intro a ha p v hr
      by_cases hak : a ∈ dkeys m
      · obtain ⟨ps, hps⟩ := mem_dkeys_iff.1 hak
        have hps := mem_of_dget hps
        rcases (key1 a ps hps p v).1 hr with ⟨h1, h2⟩ | ⟨_, h2⟩
        · exact ⟨h2, plain' a ps hps _ h1⟩
        · exact hod.payload a ha p v h2
      · rw [recorded_of_read (read_of_dget (keep a hak _ (.inl rfl)))] at hr
        exact hod.payload a ha p v hr
    · intro a ha p v hr
      by_cases hak : a ∈ dkeys m
      · obtain ⟨ps, hps⟩ := mem_dkeys_iff.1 hak
        have hps := mem_of_dget hps
        rcases key2 a ps hps p v hr with ⟨h1, h2⟩ | h2
        · exact ⟨h2, plain' a ps hps _ h1⟩
        · exact hod.tag a ha p v h2
      · rw [recorded_of_read (read_of_dget (keep a hak _ (.inr rfl)))] at hr
        exact hod.tag a ha p v hr
    · intro a ha p hp v
      by_cases hak : a ∈ dkeys m
      · obtain ⟨ps, hps⟩ := mem_dkeys_iff.1 hak
        have hps := mem_of_dget hps
        rw [key1 a ps hps, mem a ps hps, hg]
        rw [hk] at hak
        rw [if_pos hak, c2]
        have hd : ∀ x, b.entries.look p a = some x ↔ Recorded py!"manifest" d a p x := by
          intro x
          rw [hod.look hb he hp]
          exact ⟨fun h => h.2, fun h => ⟨ha, h⟩⟩
        -- the second alternative does not occur for a recorded path
        have second : (∀ e ∈ ps, isPayload e.1 = false) → ¬ Recorded py!"manifest" d a p v := by
          intro hall hr
          have h1 := mergeAll_total (entries_inv hl).1 c1 hm hak ((hd v).2 hr)
          obtain ⟨x, hx⟩ := Option.isSome_iff_exists.1 h1
          have h2 := hall _ ((mem a ps hps p x).2 hx)
          rw [h2] at hp; cases hp
        constructor
        · rintro (⟨h1, _⟩ | ⟨h1, h2⟩)
          · by_cases hu : p ∈ upd
            · rw [if_pos hu] at h1
              cases hx : es.look p a with
              | none =>
                rw [if_neg (by simp)]
                rw [hx] at h1
                exact (hd v).1 (by simpa using h1)
              | some x =>
                rw [if_pos ⟨hu, rfl⟩]
                rw [hx] at h1
                simpa using h1
            · rw [if_neg hu] at h1
              rw [if_neg (fun h => hu h.1)]
              exact (hd v).1 (by simpa using h1)
          · exact absurd h2 (second h1)
        · intro hh
          left
          refine ⟨?_, hp⟩
          by_cases hu : p ∈ upd
          · rw [if_pos hu]
            cases hx : es.look p a with
            | none =>
              rw [hx, if_neg (by simp)] at hh
              simpa using (hd v).2 hh
            | some x =>
              rw [hx, if_pos ⟨hu, rfl⟩] at hh
              simpa using hh
          · rw [if_neg (fun h => hu h.1)] at hh
            rw [if_neg hu]
            simpa using (hd v).2 hh
      · rw [recorded_of_read (read_of_dget (keep a hak _ (.inl rfl)))]
        have : ¬ (p ∈ upd ∧ (es.look p a).isSome = true) := by
          rintro ⟨h1, h2⟩
          exact hak (by rw [hk]; exact (c3 a).2 ⟨p, h1, h2⟩)
        rw [if_neg this]

end Verif
