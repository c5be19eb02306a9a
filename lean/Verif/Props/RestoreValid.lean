import Verif.Lemmas.RestoreRight
import Verif.Props.BagValidate
/-!
# The restored bag is valid: C84
-/

namespace Verif

open Spec

theorem payload_not_info {p : Path} (hg : GoodPath p) (hp : isPayload (joinPath p) = true) :
    p ≠ [py!"bag-info.txt"] ∧ p ≠ [py!"package-info.txt"] ∧ p ≠ [py!"fetch.txt"] ∧ (∀ a, p ≠ manPath py!"tagmanifest" a) ∧
      ¬ [py!"multibag"] <+: p := by
  have hl := payload_long hg hp
  have hh := ((isPayload_iff hg).1 hp).1
  refine ⟨?_, ?_, ?_, ?_, ?_⟩
  · rintro rfl; simp at hl
  · rintro rfl; simp at hl
  · rintro rfl; simp at hl
  · rintro a rfl; simp [manPath] at hl
  · rintro ⟨r, rfl⟩
    simp at hh

theorem Spec.Sums.congr {algs : List Str} {A : Str → Prop} {t t' : Tree} (h : Sums algs A t) (ho : Orderly algs t')
    (e : ∀ a, dget t' (manPath py!"manifest" a) = dget t (manPath py!"manifest" a))
    (e' : ∀ p, GoodPath p → isPayload (joinPath p) = true → dget t' p = dget t p) : Sums algs A t' := by
  have hr : ∀ a p v, Recorded py!"manifest" t' a p v ↔ Recorded py!"manifest" t a p v :=
    fun a p v => recorded_of_read (read_of_dget (e a))
  refine ⟨ho, ?_, ?_⟩
  · intro a ha hA p v hx
    exact h.only a ha hA p v ((hr a p v).1 hx)
  · intro p hg hp hf a ha hA
    rw [isfile_of_dget (e' p hg hp)] at hf
    obtain ⟨v, hv⟩ := h.listed p hg hp hf a ha hA
    exact ⟨v, (hr _ _ _).2 hv⟩

theorem Spec.Tidy.orderly {safe : Str → Prop} {algs : List Str} {A : Str → Prop} {t : Tree} (h : Tidy safe algs A t) :
    Orderly algs t :=
  ⟨fun a ha p v hr => ⟨(h.payload.lines a ha p v hr).1, (h.payload.lines a ha p v hr).2.1⟩,
   fun a ha p v hr => ⟨(h.tag.lines a ha p v hr).1, (h.tag.lines a ha p v hr).2.1⟩⟩

theorem lower_hex {s : Str} (h : ∀ x ∈ s, x ∈ py!"0123456789abcdef") : lower s = s := by
  have hx : ∀ x ∈ py!"0123456789abcdef", x.toLower = x := by decide
  unfold lower
  conv => rhs; rw [← List.map_id s]
  exact List.map_congr_left (fun x hm => hx x (h x hm))

/-- The checksums after all member bags are copied. -/
theorem restored_right {E : RestoreEnv} (hE : EnvOk E) (hF : EnvFits E) {H : RHead} {srcs : List RSource}
    (hA : Aggregation E H srcs) (hc : NoClash (memberTrees H srcs)) {A : Str → Prop}
    (hs : ∀ s ∈ srcs ++ [⟨H.path, H.tree⟩], Fits E A s)
    (hr : ∀ s ∈ srcs ++ [⟨H.path, H.tree⟩], Sums E.base.algs A s.tree ∧ Right E s.tree)
    (hone : ∃ a ∈ E.base.algs, H.tree.isfile (manPath py!"manifest" a) = true)
    {deleted : List Str} (hd : iterDeleted H.mode H.tree H.info = .ok deleted)
    (hkeep : ∀ p, (p = [py!"bagit.txt"] ∨ ManifestFile p) → ¬ Deleted deleted p)
    (hhead : ∀ p, H.tree.isfile p = true → p.head? = some py!"data" → ¬ Deleted deleted p)
    (hinfo : ∀ c, H.tree.read aggregationInfo = some c → ∃ l, parseTags .universal (copiedText H.mode c) = .ok l)
    {us rm : Bool} {d out : Tree} (hst : StartsFrom E H d) (h : restore E H us rm d = .ok out)
    (hout : Orderly E.base.algs out) :
    Right E out ∧ Sums E.base.algs A out ∧ ∀ a ∈ E.base.algs, A a → out.isfile (manPath py!"manifest" a) = true := by
  have hin : H.tree ∈ memberTrees H srcs := by unfold memberTrees; simp
  have hins : ∀ s ∈ srcs, s.tree ∈ memberTrees H srcs := fun s hx =>
    List.mem_append_left _ (List.mem_map.2 ⟨s, hx, rfl⟩)
  have hH : Fits E A ⟨H.path, H.tree⟩ := hs _ (by simp)
  have hrH := hr ⟨H.path, H.tree⟩ (by simp)
  have hsrc : ∀ s ∈ srcs, Fits E A s := fun s hx => hs s (List.mem_append_left _ hx)
  have hts : ∀ t ∈ memberTrees H srcs, Tidy (AtDest E) E.base.algs A t ∧ TagInfoOk t ∧ WfTree t := by
    intro t ht
    unfold memberTrees at ht
    rcases List.mem_append.1 ht with ht | ht
    · obtain ⟨s, hx, rfl⟩ := List.mem_map.1 ht
      exact ⟨(hsrc s hx).tidy, (hsrc s hx).info, hA.wf s hx⟩
    · rw [List.mem_singleton] at ht
      subst ht
      exact ⟨hH.tidy, hH.info, hA.head⟩
  have hnil : [] ∉ pySet deleted := by
    rw [mem_pySet]; exact nil_notMem_deleted hd
  have hk' : ∀ p, (p = [py!"bagit.txt"] ∨ ManifestFile p) → ¬ Deleted (pySet deleted) p := by
    intro p hp
    rw [deleted_pySet]
    exact hkeep p hp
  have hman : ∀ a ∈ E.base.algs, A a → H.tree.isfile (manPath py!"manifest" a) = true := by
    obtain ⟨a0, h0, hf0⟩ := hone
    exact fun a ha hAa => hH.tidy.payload.all a0 h0 a ha hf0 hAa
  obtain ⟨ms, hms, hf⟩ := aggregation_parts hA
  obtain ⟨hb, hopen, htag⟩ := hH.opens
  obtain ⟨deleted', ms', d1, d2, d3, e1, e2, e3, e4, e5, e6⟩ := restore_parts h
  rw [hd] at e1
  cases e1
  rw [hms] at e2
  cases e2
  obtain ⟨d1', e1', r1, b1⟩ := startRestore_ready hE hF hc hts hnil hk' hH hin hinfo hst
  rw [e3] at e1'
  cases e1'
  obtain ⟨d0, h0, r0, f0⟩ := startRestore_first hE hts (skip := pySet deleted) hH hin hinfo hst
  rw [e3] at h0
  have hmi : ∀ a, manPath py!"manifest" a ≠ [py!"bag-info.txt"] := fun a e =>
    bag_info_not_manifest (e ▸ (manPath_manifestFile a).1)
  -- after the head bag
  have q1 : Right E d1 ∧ Sums E.base.algs A d1 ∧ ∀ a ∈ E.base.algs, A a → d1.isfile (manPath py!"manifest" a) = true := by
    by_cases hp : H.path = E.base.bagpath
    · rw [if_pos hp] at h0
      cases h0
      have hdH : d = H.tree := by
        rcases hst with ⟨hx, _⟩ | ⟨_, rfl⟩
        · exact absurd hp hx
        · rfl
      subst hdH
      have g1 : ∀ a, dget d1 (manPath py!"manifest" a) = dget H.tree (manPath py!"manifest" a) := fun a => f0 _ (hmi a)
      have g2 : ∀ p, GoodPath p → isPayload (joinPath p) = true → dget d1 p = dget H.tree p :=
        fun p hg hpay => f0 _ (payload_not_info hg hpay).1
      exact ⟨hrH.2.congr hH.tidy.orderly g1 g2, hrH.1.congr r1.tidy.orderly g1 g2,
        fun a ha hAa => by rw [isfile_of_dget (g1 a)]; exact hman a ha hAa⟩
    · rw [if_neg hp] at h0
      have hdH : d = [] := by
        rcases hst with ⟨_, rfl⟩ | ⟨hx, _⟩
        · rfl
        · exact absurd hx hp
      subst hdH
      have hno : ∀ a p v, ¬ Recorded py!"manifest" d0 a p v := by
        rintro a p v ⟨text, line, hx, _⟩
        have : d0.read (manPath py!"manifest" a) = Tree.read [] (manPath py!"manifest" a) := read_of_dget (f0 _ (hmi a))
        unfold manPath at this
        rw [this] at hx; cases hx
      have hS0 : Sums E.base.algs A d0 := by
        refine ⟨r0.tidy.orderly, fun a _ _ p v => hno a p v, ?_⟩
        intro p hg hpay hfp
        rw [isfile_of_dget (f0 p (payload_not_info hg hpay).1)] at hfp
        cases hfp
      have hR0 : Right E d0 := fun a _ p v hx => absurd hx (hno a p v)
      obtain ⟨k1, k2⟩ := restoreFrom_right hE hF hc hts (src := ⟨H.path, H.tree⟩) hin hp hnil (fun p hx => hk' p (.inr hx))
        hrH.1 hrH.2 r0 hS0 hR0 (by
          intro a _ _ _ p hg hpay hfp
          rw [deleted_pySet]
          exact hhead p hfp ((isPayload_iff hg).1 hpay).1) h0.symm
      exact ⟨k1, (restoreFrom_sums hE hF.utf hA.head hp hnil hrH.1 hS0 h0.symm).1,
        fun a ha hAa => k2 a ha (.inr (hman a ha hAa))⟩
  obtain ⟨q1, q2, q3⟩ := q1
  rw [restoreMembers_eq hf] at e4
  have hmem : ∀ s ∈ srcs.reverse, s ∈ srcs := fun s hx => List.mem_reverse.1 hx
  obtain ⟨p1, p2, p3⟩ := restoreList_right hE hF hc hts hnil hk' (cfg := { E.base with bagpath := H.path }) rfl hopen htag
    (srcs := srcs.reverse) (fun s hx => ⟨hsrc s (hmem s hx), hins s (hmem s hx), hA.outside s (hmem s hx)⟩)
    (fun s hx => hr s (List.mem_append_left _ (hmem s hx))) r1 b1 q2 q1 q3 e4
  have hfr := (fetchStep_frame e5).1
  have g1 : ∀ a, dget out (manPath py!"manifest" a) = dget d2 (manPath py!"manifest" a) := by
    intro a
    rw [(finishRestore_spec e6).2.2.2.2.1 a, hfr]
    intro e
    unfold manPath at e
    simp at e
  have g2 : ∀ p, GoodPath p → isPayload (joinPath p) = true → dget out p = dget d2 p := by
    intro p hg hpay
    obtain ⟨n1, n2, n3, n4, n5⟩ := payload_not_info hg hpay
    rw [finishRestore_frame e6 n1 n2 n4 n5, hfr _ n3]
  exact ⟨p1.congr p2.orderly g1 g2, p2.congr hout g1 g2, fun a ha hAa => by rw [isfile_of_dget (g1 a)]; exact p3 a ha hAa⟩

/-- A field that was read has a value. -/
theorem loaded_values {info : Info} (h : Loaded info) {k : Str} {v : InfoVal} (hv : dget info k = some v) : v.values ≠ [] := by
  have := h k v hv
  cases v with
  | one s => simp [InfoVal.values]
  | many l =>
    intro e
    simp only [InfoVal.values] at e this
    rw [e] at this
    simp at this

/-- C49 for any metadata of the aggregation that can be read, with values of several lines, say: they come back without
the line breaks.  Missing: other tag directories (`C49_negation`). -/
theorem C49_values_partial {E : RestoreEnv} (hE : EnvOk E) {H : RHead} {srcs : List RSource} (hA : Aggregation E H srcs)
    {c : Str} {fs : List (Str × Str)} (hagg : H.tree.read [py!"multibag", py!"aggregation-info.txt"] = some c)
    (hfs : parseTags .universal (copiedText H.mode c) = .ok fs) (hsz : ∀ t i, Trimmed (E.sizeText t i))
    {us : Bool} {d out : Tree} (h : restore E H us true d = .ok out) {b : RBag}
    (hb : openBag E.base out = .ok b) (htag : b.tagFile = py!"bag-info.txt") :
    ∀ k, (us = true → k ≠ py!"Payload-Oxum" ∧ k ≠ py!"Bag-Size") →
      fields b.info k = if k ∈ multibagFields then [] else (valuesOf fs k).map unbroken := by
  intro k hk
  obtain ⟨info', hfin, hread⟩ := restored_info_text hE hA hagg hfs (.inr rfl) h hb htag
  have hwr := writable_finalInfo (parseTags_loaded hfs) rfl hsz hfin
  obtain ⟨_, _, _, t2, _⟩ := openBag_parts hb
  rw [htag, if_pos (by
    rw [exists_iff (by simp)]
    obtain ⟨c, hc⟩ := isfile_iff.1 (isfile_of_read hread)
    rw [hc]; simp)] at t2
  have hlt : loadTagFile false out [py!"bag-info.txt"] = .ok (loadTags (tagFields info')) := by
    unfold loadTagFile
    rw [hread]
    simp only [Bool.false_eq_true, if_false, parse_finalInfo hwr]
  rw [hlt] at t2
  rw [← Except.ok.inj t2, fields_loadTags, valuesOf_tagFields (nodup_finalInfo hfin (nodup_loadTags fs)),
    fields_finalInfo hfin (fun hu => (hk hu).2), if_neg (fun h => (hk h.1).1 h.2), fields_loadTags]
  have : k ∈ multibagFields ↔ k ∈ multibagKeys := Iff.rfl
  simp only [this, true_and]
  by_cases hm : k ∈ multibagKeys
  · rw [if_pos hm, if_pos hm]; rfl
  · rw [if_neg hm, if_neg hm]; rfl

/-- The sample head bag with a value of three lines in the metadata of the aggregation. -/
example : ∃ (H : RHead) (srcs : List RSource) (c : Str) (fs : List (Str × Str)) (out : Tree) (b : RBag),
    Aggregation Sample.renv H srcs ∧ H.tree.read [py!"multibag", py!"aggregation-info.txt"] = some c ∧
    parseTags .universal (copiedText H.mode c) = .ok fs ∧ restore Sample.renv H true true [] = .ok out ∧
    openBag Sample.renv.base out = .ok b ∧ b.tagFile = py!"bag-info.txt" ∧
    valuesOf fs py!"Note" = [py!"one two\n three"] ∧ fields b.info py!"Note" = [py!"one two three"] := by
  let H : RHead := { Sample.head with tree := dset Sample.hb [py!"multibag", py!"aggregation-info.txt"] (.file py!"Note: one\n two\n three\n") }
  obtain ⟨out, h1, h2⟩ : ∃ out, restore Sample.renv H true true [] = .ok out ∧
      (match openBag Sample.renv.base out with
        | .ok b => decide (b.tagFile = py!"bag-info.txt") && decide (fields b.info py!"Note" = [py!"one two three"])
        | .error _ => false) = true := Sample.ok_of_check (by decide +kernel)
  obtain ⟨b, h3, h4⟩ : ∃ b, openBag Sample.renv.base out = .ok b ∧
      (decide (b.tagFile = py!"bag-info.txt") && decide (fields b.info py!"Note" = [py!"one two three"])) = true := by
    cases hb : openBag Sample.renv.base out with
    | error e => rw [hb] at h2; cases h2
    | ok b => rw [hb] at h2; exact ⟨b, rfl, h2⟩
  rw [Bool.and_eq_true, decide_eq_true_eq, decide_eq_true_eq] at h4
  refine ⟨H, [⟨py!"/store/m1", Sample.m1⟩], _, [(py!"Note", py!"one two\n three")], out, b,
    ⟨⟨_, [py!"m1"], rfl, .inl rfl, .cons rfl .nil⟩, Sample.wf_of_check (by decide), ?_, by decide⟩, rfl, by decide +kernel, h1, h3, h4.1,
    by decide, h4.2⟩
  intro s hs
  rw [List.mem_singleton] at hs
  subst hs
  exact Sample.wf_m1

/-- What is known of a bag `out` that was put together from the trees `ts` and is opened as `b`. -/
structure Assembled (E : RestoreEnv) (A : Str → Prop) (ts : List Tree) (rm : Bool) (out : Tree) (b : RBag) : Prop where
  wf : WfTree out
  tidy : Tidy (AtDest E) E.base.algs A out
  tagFile : b.tagFile = py!"bag-info.txt"
  info : out.isfile [py!"bag-info.txt"] = true
  files : ∀ p, out.isfile p = true → (∃ t ∈ ts, t.isfile p = true) ∨ p = [py!"bag-info.txt"] ∨
    ∃ a ∈ E.base.algs, p = manPath py!"manifest" a ∨ p = manPath py!"tagmanifest" a
  dirs : ∀ p, out.isdir p = true → p = [] ∨ ∃ t ∈ ts, t.isdir p = true
  tags : rm = true → ∀ p, [py!"multibag"] <+: p → out.exists p = false
  keys : rm = true → ∀ k ∈ multibagKeys, k ∉ dkeys b.info
  listed : ∀ kind, kind = py!"manifest" ∨ kind = py!"tagmanifest" → ∀ a ∈ E.base.algs, ∀ p v, Recorded kind out a p v →
    ∃ c, out.read (comps p) = some c

/-- C84, with more of what is known of the result. -/
theorem restored_valid_parts {E : RestoreEnv} (hE : EnvOk E) (hF : EnvFits E) {H : RHead} {srcs : List RSource}
    (hA : Aggregation E H srcs) (hc : NoClash (memberTrees H srcs)) {A : Str → Prop} {hostOk : Str → Bool}
    (hs : ∀ s ∈ srcs ++ [⟨H.path, H.tree⟩], Fits E A s ∧ s.tree.isfile [py!"fetch.txt"] = false ∧
      ∃ b, openBag { E.base with bagpath := s.path } s.tree = .ok b ∧
        bagValidate hostOk E.sum E.blen { E.base with bagpath := s.path } b = .ok ())
    {deleted : List Str} (hd : iterDeleted H.mode H.tree H.info = .ok deleted)
    (hkeep : ∀ p, (p = [py!"bagit.txt"] ∨ p = [py!"multibag"] ∨ p = [py!"data"] ∨ ManifestFile p) → ¬ Deleted deleted p)
    (hhead : ∀ p, H.tree.isfile p = true → p.head? = some py!"data" → ¬ Deleted deleted p)
    (hinfo : ∀ c, H.tree.read aggregationInfo = some c → ∃ l, parseTags .universal (copiedText H.mode c) = .ok l)
    (hsz : ∀ t i, Trimmed (E.sizeText t i))
    {rm : Bool} (hmb : rm = true → H.tree.isdir [py!"multibag"] = true) {d : Tree} (hst : StartsFrom E H d) :
    ∃ out b, restore E H true rm d = .ok out ∧ openBag E.base out = .ok b ∧
      bagValidate hostOk E.sum E.blen E.base b = .ok () ∧ Assembled E A (memberTrees H srcs) rm out b := by
  have hfit : ∀ s ∈ srcs ++ [⟨H.path, H.tree⟩], Fits E A s := fun s hx => (hs s hx).1
  have hwf : ∀ s ∈ srcs ++ [⟨H.path, H.tree⟩], WfTree s.tree := by
    intro s hx
    rcases List.mem_append.1 hx with hx | hx
    · exact hA.wf s hx
    · rw [List.mem_singleton] at hx; subst hx; exact hA.head
  have hval : ∀ s ∈ srcs ++ [⟨H.path, H.tree⟩], ∃ b, openBag { E.base with bagpath := s.path } s.tree = .ok b ∧
      ValidBag hostOk E.sum E.blen { E.base with bagpath := s.path } b := by
    intro s hx
    obtain ⟨b, h1, h2⟩ := (hs s hx).2.2
    exact ⟨b, h1, (C80_valid_iff h1 (hwf s hx) hostOk E.sum E.blen).1 h2⟩
  have hright : ∀ s ∈ srcs ++ [⟨H.path, H.tree⟩], Sums E.base.algs A s.tree ∧ Right E s.tree := by
    intro s hx
    obtain ⟨b, h1, h2⟩ := hval s hx
    exact valid_right hF (hfit s hx) (hwf s hx) h1 h2
  obtain ⟨hb, hbo, hbv⟩ := hval ⟨H.path, H.tree⟩ (by simp)
  have hbt : hb.tree = H.tree := (openBag_parts hbo).1
  have hone : ∃ a ∈ E.base.algs, H.tree.isfile (manPath py!"manifest" a) = true := by
    obtain ⟨a, ha, h⟩ := hbv.manifest
    exact ⟨a, ha, by rw [← hbt]; exact h⟩
  obtain ⟨out, d3, b3, hres, hw, hT, hR3, hb3, htag, hbag, hfin, htags⟩ := restore_ready hE hF hA hc hfit hd
    (fun p hp => hkeep p (hp.elim .inl (fun h => .inr (h.elim .inl (fun h => .inr (.inr h)))))) hinfo (us := true) hmb hst
  obtain ⟨hright, hsums, hmans⟩ := restored_right hE hF hA hc hfit hright hone hd
    (fun p hp => hkeep p (hp.elim .inl (fun h => .inr (.inr (.inr h))))) hhead hinfo hst hres hT.orderly
  obtain ⟨a0, ha0, hf0⟩ := hone
  have hA0 : A a0 := (hfit ⟨H.path, H.tree⟩ (by simp)).tidy.payload.only a0 ha0 hf0
  obtain ⟨_, _, _, fpay, fman, b', hb', info', hfi, hread⟩ := finishRestore_spec hfin
  rw [hb3] at hb'
  cases hb'
  obtain ⟨ht3, hm3, htf3, hi3, tags, v, p1, p2, p3, p4, p5⟩ := openBag_parts hb3
  have hu3 : startsWith py!"UTF" b3.encoding = true := hF.utf _ p5
  have halg : b3.algorithms ≠ [] := by
    intro e
    have : a0 ∈ b3.algorithms := (mem_algorithms hm3 a0).2 ⟨ha0, .inl (by rw [← isfile_of_dget (fman a0)]; exact hmans a0 ha0 hA0)⟩
    rw [e] at this; cases this
  have htags := htags (.inl rfl) halg
  -- opening
  have ebag : dget out [py!"bagit.txt"] = dget d3 [py!"bagit.txt"] :=
    finishRestore_frame hfin (by decide) (by decide) (by intro a e; simp [manPath] at e) (by simp)
  obtain ⟨l, hl, hil⟩ := source_info hb3
  have hwr := writable_finalInfo hl hil hsz hfi
  have hread := hread (.inl rfl)
  rw [htag] at hread
  obtain ⟨⟨algs, es⟩, hload⟩ := hT.loads (cfg := E.base) hF.algs b3.version hu3
  have hlt : loadTagFile false out [py!"bag-info.txt"] = .ok (loadTags (tagFields info')) := by
    unfold loadTagFile
    rw [hread]
    simp only [Bool.false_eq_true, if_false, parse_finalInfo hwr]
  have hlb : loadTagFile true out [py!"bagit.txt"] = .ok tags := by
    rw [← p1]; unfold loadTagFile; rw [read_of_dget ebag]
  have hfb : out.isfile [py!"bagit.txt"] = true := by
    unfold loadTagFile at hlb
    cases hr : out.read [py!"bagit.txt"] with
    | none => rw [hr] at hlb; cases hlb
    | some c => exact isfile_of_read hr
  have hopen := openBag_of_parts (cfg := E.base) hfb hlb p2 p3 htf3 p4 p5 (info := loadTags (tagFields info')) (by
    rw [htag, if_pos, hlt]
    rw [exists_iff (by simp)]
    obtain ⟨c, hc⟩ := isfile_iff.1 (isfile_of_read hread)
    rw [hc]; simp) hload
  refine ⟨out, _, hres, hopen, (C80_valid_iff hopen hw hostOk E.sum E.blen).2 ?_, ?_⟩
  rotate_left
  · have hfr : ∀ p, p ≠ [py!"bag-info.txt"] → (∀ a ∈ E.base.algs, p ≠ manPath py!"tagmanifest" a) → ¬ [py!"multibag"] <+: p →
        dget out p = dget d3 p := fun p q1 q2 q3 => finishRestore_only hfin hb3 htag q1 q2 q3
    have hmbf : rm = true → ∀ p, [py!"multibag"] <+: p → out.exists p = false := (finishRestore_spec hfin).2.1
    have hif : out.isfile [py!"bag-info.txt"] = true := isfile_of_read hread
    have hgen : ∀ p, out.exists p = true → p ≠ [] → p ≠ [py!"bag-info.txt"] →
        (∀ a ∈ E.base.algs, p ≠ manPath py!"tagmanifest" a) → dget out p = dget d3 p := by
      intro p hp hne q1 q2
      by_cases hm : [py!"multibag"] <+: p
      · exact finishRestore_below hfin hm (by cases rm with
          | false => rfl
          | true => rw [hmbf rfl p hm] at hp; cases hp)
      · exact hfr p q1 q2 hm
    refine ⟨hw, hT, htag, hif, ?_, ?_, hmbf, ?_, ?_⟩
    · intro p hp
      by_cases q1 : p = [py!"bag-info.txt"]
      · exact .inr (.inl q1)
      · by_cases q2 : ∃ a ∈ E.base.algs, p = manPath py!"tagmanifest" a
        · obtain ⟨a, ha, e⟩ := q2
          exact .inr (.inr ⟨a, ha, .inr e⟩)
        · refine hR3.files p ?_
          rw [← isfile_of_dget (hgen p (by obtain ⟨c, hc⟩ := isfile_iff.1 hp; unfold Tree.exists; rw [hc]; simp) (file_ne_nil hw hp).1 q1 (fun a ha e => q2 ⟨a, ha, e⟩))]
          exact hp
    · intro p hp
      by_cases hne : p = []
      · exact .inl hne
      have q1 : p ≠ [py!"bag-info.txt"] := by
        rintro rfl
        rw [not_dir_of_file hw hif] at hp; cases hp
      refine hR3.dirs p ?_
      have := hgen p (by unfold Tree.exists; rw [(isdir_iff.1 hp).resolve_left hne]; simp) hne q1 (by
        rintro a ha rfl
        have := hT.tag.nodir a ha
        unfold manPath at hp
        rw [this] at hp; cases hp)
      rcases isdir_iff.1 hp with e | e
      · exact absurd e hne
      · rw [this] at e
        exact isdir_iff.2 (.inr e)
    · intro hrm k hk hkm
      have hf : fields (loadTags (tagFields info')) k = [] := by
        rw [fields_loadTags, valuesOf_tagFields (nodup_finalInfo hfi (nodup_openBag hb3)), fields_finalInfo hfi (fun _ e => by
            subst e; revert hk; decide),
          if_neg (fun h => by rw [h.2] at hk; revert hk; decide), if_pos ⟨hrm, hk⟩]
        rfl
      obtain ⟨v, hv⟩ := mem_dkeys_iff.1 hkm
      exact loaded_values (loaded_loadTags (tagFields info')) hv (by unfold fields at hf; simp only at hv; rw [hv] at hf; exact hf)
    · rintro kind (rfl | rfl) a ha p v hrec
      · obtain ⟨c, hc, _⟩ := hright a ha p v hrec
        exact ⟨c, hc⟩
      · obtain ⟨c, hc, _⟩ := htags a ha p v hrec
        exact ⟨c, hc⟩
  have hdata : out.isdir [py!"data"] = true := by
    have hne : dget H.tree [py!"data"] = some .dir := by
      rcases isdir_iff.1 (hbt ▸ hbv.data) with e | e
      · cases e
      · exact e
    rw [isdir_iff]; right
    obtain ⟨g1, _, g3⟩ := restored_dget hE hA hres hd (p := [py!"data"]) (by simp) (by
      rintro (h | h | h | ⟨a, h | h⟩ | h) <;> simp at h)
    rcases hst with ⟨hp, rfl⟩ | ⟨_, rfl⟩
    · rw [g3 rfl (hkeep _ (by simp))]
      unfold sourcesOf
      rw [if_neg hp]
      simp only [firstAt, hne, Option.some_or]
    · rw [g1 (by rw [hne]; simp), hne]
  have hlist : ∀ alg line, (alg, line) ∈ manifestText E.base b3.version b3.encoding out → ∀ c p, Lists line c p →
      alg ∈ E.base.algs ∧ (Recorded py!"manifest" out alg p c ∨ Recorded py!"tagmanifest" out alg p c) := by
    intro alg line hm c p hl
    rw [manifestText_kinds hu3] at hm
    rcases List.mem_append.1 hm with hm | hm
    · exact ⟨(mem_kindText.1 hm).1, .inl (recorded_kindText hm hl)⟩
    · split at hm
      · cases hm
      · exact ⟨(mem_kindText.1 hm).1, .inr (recorded_kindText hm hl)⟩
  refine ⟨hdata, ⟨a0, ha0, hmans a0 ha0 hA0⟩, ?_, ?_, ?_, ?_, ?_, ?_⟩
  · intro text ht
    refine hbv.nobom text ?_
    rw [hbt, read_of_dget (hbag.symm.trans ebag.symm)]
    exact ht
  · intro text ht
    exfalso
    have h1 := isfile_of_read ht
    have h2 : dget out [py!"fetch.txt"] = dget d3 [py!"fetch.txt"] :=
      finishRestore_frame hfin (by decide) (by decide) (by intro a e; simp [manPath] at e) (by simp)
    simp only at h1
    rw [isfile_of_dget h2] at h1
    rcases hR3.files _ h1 with ⟨t, ht, hf⟩ | h | ⟨a, _, h | h⟩
    · unfold memberTrees at ht
      rcases List.mem_append.1 ht with ht | ht
      · obtain ⟨s, hx, rfl⟩ := List.mem_map.1 ht
        rw [(hs s (List.mem_append_left _ hx)).2.1] at hf; cases hf
      · rw [List.mem_singleton] at ht
        subst ht
        rw [(hs ⟨H.path, H.tree⟩ (by simp)).2.1] at hf; cases hf
    · simp at h
    · simp [manPath] at h
    · simp [manPath] at h
  · refine (oxum_iff (b := ⟨out, b3.version, b3.encoding, b3.tagFile, loadTags (tagFields info'), algs, es⟩) hw hdata E.blen).1 ?_
    have hone : dget (loadTags (tagFields info')) py!"Payload-Oxum" = some (.one (oxumText E.blen out)) := by
      have hf : fields (loadTags (tagFields info')) py!"Payload-Oxum" = [oxumText E.blen out] := by
        rw [fields_loadTags, valuesOf_tagFields (nodup_finalInfo hfi (nodup_openBag hb3)), fields_finalInfo hfi (fun _ => by decide),
          if_pos ⟨rfl, rfl⟩, List.map_singleton, oxumText_oneLine]
        unfold oxumText
        rw [fpay]
      have hld := loaded_loadTags (tagFields info') py!"Payload-Oxum"
      unfold fields at hf
      cases hv : dget (loadTags (tagFields info')) py!"Payload-Oxum" with
      | none => rw [hv] at hf; cases hf
      | some v =>
        rw [hv] at hf
        have := hld v hv
        cases v with
        | one s => simpa [InfoVal.values] using hf
        | many l =>
          simp only [InfoVal.values] at hf this
          rw [hf] at this
          simp at this
    unfold oxumText at hone
    rw [C72_written hw hdata E.blen hone, walkPayload_eq hw hdata, List.length_map]
    exact ⟨rfl, rfl⟩
  · intro p c hm
    obtain ⟨h1, h2⟩ := (mem_payload hw).1 hm
    have hg : GoodPath p := file_ne_nil hw (isfile_of_read h1)
    obtain ⟨v, text, line, k1, k2, k3⟩ := hsums.listed p hg (payload_isPayload hw hdata hm) (isfile_of_read h1) a0 ha0 hA0
    refine ⟨a0, line, v, ?_, k3⟩
    rw [manifestText_kinds hu3]
    exact List.mem_append_left _ (mem_kindText.2 ⟨ha0, text, k1, k2⟩)
  · rintro p ⟨alg, line, c, h1, h2⟩ hpay
    obtain ⟨h3, h4 | h4⟩ := hlist alg line h1 c p h2
    · obtain ⟨content, k1, _⟩ := hright alg h3 p c h4
      obtain ⟨q, hg, rfl⟩ := (hT.payload.lines alg h3 p c h4).2.1.path.path
      have hcq : comps (joinWith ['/'] q) = q := comps_joinPath hg
      rw [hcq] at k1
      exact ⟨q, content, (mem_payload hw).2 ⟨k1, ((isPayload_iff hg).1 hpay).1⟩, rfl⟩
    · have := (hT.tag.lines alg h3 p c h4).1
      rw [hpay] at this; cases this
  · intro alg line c p h1 h2
    obtain ⟨h3, h4 | h4⟩ := hlist alg line h1 c p h2
    · exact hright alg h3 p c h4
    · obtain ⟨content, k1, k2⟩ := htags alg h3 p c h4
      exact ⟨content, k1, by rw [k2]; exact lower_hex (hF.sums alg content).2⟩

/-- C84: the restored bag is valid.  Every member bag is valid and has no list of files to fetch, they fit
together (as for C83), the head bag contains none of the files that it lists as deleted, and sizes are updated.
Then restoring succeeds, and the result is a bag that can be opened and passes validation.  Missing: restoring
without updates (`C84_stale_negation`), deleted files in the head bag (`C84_deleted_negation`), lists of files to
fetch (`C47_fetch_negation`). -/
theorem C84_restored_valid_partial {E : RestoreEnv} (hE : EnvOk E) (hF : EnvFits E) {H : RHead} {srcs : List RSource}
    (hA : Aggregation E H srcs) (hc : NoClash (memberTrees H srcs)) {A : Str → Prop} {hostOk : Str → Bool}
    (hs : ∀ s ∈ srcs ++ [⟨H.path, H.tree⟩], Fits E A s ∧ s.tree.isfile [py!"fetch.txt"] = false ∧
      ∃ b, openBag { E.base with bagpath := s.path } s.tree = .ok b ∧
        bagValidate hostOk E.sum E.blen { E.base with bagpath := s.path } b = .ok ())
    {deleted : List Str} (hd : iterDeleted H.mode H.tree H.info = .ok deleted)
    (hkeep : ∀ p, (p = [py!"bagit.txt"] ∨ p = [py!"multibag"] ∨ p = [py!"data"] ∨ ManifestFile p) → ¬ Deleted deleted p)
    (hhead : ∀ p, H.tree.isfile p = true → p.head? = some py!"data" → ¬ Deleted deleted p)
    (hinfo : ∀ c, H.tree.read aggregationInfo = some c → ∃ l, parseTags .universal (copiedText H.mode c) = .ok l)
    (hsz : ∀ t i, Trimmed (E.sizeText t i))
    {rm : Bool} (hmb : rm = true → H.tree.isdir [py!"multibag"] = true) {d : Tree} (hst : StartsFrom E H d) :
    ∃ out b, restore E H true rm d = .ok out ∧ openBag E.base out = .ok b ∧
      bagValidate hostOk E.sum E.blen E.base b = .ok () := by
  obtain ⟨out, b, h1, h2, h3, _⟩ := restored_valid_parts hE hF hA hc hs hd hkeep hhead hinfo hsz hmb hst
  exact ⟨out, b, h1, h2, h3⟩

namespace Sample

theorem valid_of_check {cfg : ReadCfg} {t : Tree}
    (h : (match openBag cfg t with
      | .ok b => decide (bagValidate (fun _ => true) Sample.sum List.length cfg b = .ok ())
      | .error _ => false) = true) :
    ∃ b, openBag cfg t = .ok b ∧ bagValidate (fun _ => true) Sample.sum List.length cfg b = .ok () := by
  split at h
  · rename_i b hb
    exact ⟨b, hb, by simpa using h⟩
  · cases h

theorem keeps_sample {deleted : List Str} (h : deleted = [py!"data/x"] ∨ deleted = []) {p : Path}
    (hp : p = [py!"bagit.txt"] ∨ p = [py!"multibag"] ∨ p = [py!"data"] ∨ ManifestFile p) : ¬ Deleted deleted p := by
  rintro ⟨q, h1, h2, h3⟩
  have hx : ∃ x, p = [x] ∧ x ≠ py!"data/x" := by
    rcases hp with rfl | rfl | rfl | ⟨a, rfl | rfl⟩ <;> exact ⟨_, rfl, by simp⟩
  obtain ⟨x, rfl, hx⟩ := hx
  rcases h with rfl | rfl
  · cases q with
    | nil => exact h1 rfl
    | cons y q =>
      obtain ⟨rfl, h2'⟩ := List.cons_prefix_cons.1 h2
      rw [List.prefix_nil.1 h2', show joinPath [y] = y from rfl, List.mem_singleton] at h3
      exact hx h3
  · cases h3

theorem info_sample : ∀ c, head.tree.read aggregationInfo = some c → ∃ l, parseTags .universal (copiedText head.mode c) = .ok l := by
  intro c hc
  have : c = py!"Contact-Name: Jo\nMultibag-Version: 0.4\n" := by
    have : head.tree.read aggregationInfo = some py!"Contact-Name: Jo\nMultibag-Version: 0.4\n" := rfl
    rw [this] at hc; exact (Option.some.inj hc).symm
  subst this
  exact ⟨_, rfl⟩

end Sample

/-- The sample meets the hypotheses of `C84_restored_valid_partial`. -/
example (rm : Bool) : ∃ out b, restore Sample.renv Sample.head true rm [] = .ok out ∧ openBag Sample.renv.base out = .ok b ∧
    bagValidate (fun _ => true) Sample.sum List.length Sample.renv.base b = .ok () := by
  refine C84_restored_valid_partial Sample.renv_ok Sample.renv_fits Sample.aggregation Sample.clash_sample (A := (· = py!"md5")) ?_
    (deleted := [py!"data/x"]) rfl (fun p => Sample.keeps_sample (.inl rfl)) ?_ Sample.info_sample
    (fun _ _ => by show Trimmed py!"1 kB"; unfold Trimmed; decide) (fun _ => rfl) (.inl ⟨by decide, rfl⟩)
  · intro s hs
    simp only [List.cons_append, List.nil_append, List.mem_cons, List.not_mem_nil, or_false] at hs
    rcases hs with rfl | rfl
    · exact ⟨Sample.fits_m1, rfl, Sample.valid_of_check (by decide +kernel)⟩
    · exact ⟨Sample.fits_hb, rfl, Sample.valid_of_check (by decide +kernel)⟩
  · intro p hf hd
    have : p = [py!"data", py!"a"] := by
      obtain ⟨c, hc⟩ := isfile_iff.1 hf
      have hm := mem_of_dget hc
      simp only [Sample.head, Sample.hb, List.mem_cons, Prod.mk.injEq, reduceCtorEq, and_false, List.not_mem_nil, or_false, false_or] at hm
      rcases hm with ⟨rfl, _⟩ | ⟨rfl, _⟩ | ⟨rfl, _⟩ | ⟨rfl, _⟩ | ⟨rfl, _⟩ | ⟨rfl, _⟩ | ⟨rfl, _⟩
      all_goals first | rfl | (exfalso; revert hd; decide)
    subst this
    exact Sample.kept_a

/-! ### Where the property fails -/

namespace Sample

/-- The sample head bag with a tag manifest. -/
def tagged : Tree :=
  hb ++ [([py!"tagmanifest-md5.txt"], .file py!"d47 bag-info.txt\nd55 bagit.txt\n")]

def taggedHead : RHead := { head with tree := tagged }

/-- A head bag that lists a file of its own as deleted. -/
def selfDeleting : Tree :=
  [([py!"bagit.txt"], .file bagitText),
   ([py!"bag-info.txt"], .file py!"Multibag-Version: 0.4\nMultibag-Head-Version: 2\n"),
   ([py!"data"], .dir), ([py!"data", py!"a"], .file py!"new!"),
   ([py!"manifest-md5.txt"], .file py!"d4 data/a\n"),
   ([py!"multibag"], .dir), ([py!"multibag", py!"member-bags.tsv"], .file py!"m1\nhb\n"),
   ([py!"multibag", py!"deleted.txt"], .file py!"data/a\n")]

def selfDeletingHead : RHead := { head with tree := selfDeleting }

/-- How the validation of a restored bag ends. -/
def restoredVerdict (H : RHead) (us rm : Bool) : Option (Except PyErr Unit) :=
  match restore renv H us rm [] with
  | .error _ => none
  | .ok out => match openBag renv.base out with
    | .error _ => none
    | .ok b => some (bagValidate (fun _ => true) Sample.sum List.length renv.base b)

end Sample

/-- C84 is false of the code if sizes are not updated and the multibag tag files are kept: `bag-info.txt` is
replaced, and the tag manifest of the head bag has the checksum of the old one. -/
theorem C84_stale_negation : ∃ (E : RestoreEnv) (H : RHead) (srcs : List RSource), EnvOk E ∧ Aggregation E H srcs ∧
    NoClash (memberTrees H srcs) ∧
    (∀ s ∈ srcs ++ [⟨H.path, H.tree⟩], ∃ b, openBag { E.base with bagpath := s.path } s.tree = .ok b ∧
      bagValidate (fun _ => true) E.sum E.blen { E.base with bagpath := s.path } b = .ok ()) ∧
    ∃ out b, restore E H false false [] = .ok out ∧ openBag E.base out = .ok b ∧
      bagValidate (fun _ => true) E.sum E.blen E.base b = .error .bagValidationError := by
  have hw : WfTree Sample.tagged := Sample.wf_of_check (by decide)
  refine ⟨Sample.renv, Sample.taggedHead, [⟨py!"/store/m1", Sample.m1⟩], Sample.renv_ok, ?_, Sample.clash_of_check (by decide), ?_, ?_⟩
  · refine ⟨⟨_, [py!"m1"], rfl, .inl rfl, .cons rfl .nil⟩, hw, ?_, by decide⟩
    intro s hs
    rw [List.mem_singleton] at hs
    subst hs
    exact Sample.wf_m1
  · intro s hs
    simp only [List.cons_append, List.nil_append, List.mem_cons, List.not_mem_nil, or_false] at hs
    rcases hs with rfl | rfl
    · exact Sample.valid_of_check (by decide +kernel)
    · exact Sample.valid_of_check (by decide +kernel)
  · have h : Sample.restoredVerdict Sample.taggedHead false false = some (.error .bagValidationError) := by decide +kernel
    unfold Sample.restoredVerdict at h
    split at h
    · cases h
    · rename_i out ho
      split at h
      · cases h
      · rename_i b hb
        exact ⟨out, b, ho, hb, Option.some.inj h⟩

/-- C84 is false of the code if the head bag contains a file that it lists as deleted: the file is left out, but
the manifest, which is copied from the head bag, still lists it. -/
theorem C84_deleted_negation : ∃ (E : RestoreEnv) (H : RHead) (srcs : List RSource), EnvOk E ∧ Aggregation E H srcs ∧
    NoClash (memberTrees H srcs) ∧
    (∀ s ∈ srcs ++ [⟨H.path, H.tree⟩], ∃ b, openBag { E.base with bagpath := s.path } s.tree = .ok b ∧
      bagValidate (fun _ => true) E.sum E.blen { E.base with bagpath := s.path } b = .ok ()) ∧
    ∃ out b, restore E H true true [] = .ok out ∧ openBag E.base out = .ok b ∧
      bagValidate (fun _ => true) E.sum E.blen E.base b = .error .bagValidationError := by
  have hw : WfTree Sample.selfDeleting := Sample.wf_of_check (by decide)
  refine ⟨Sample.renv, Sample.selfDeletingHead, [⟨py!"/store/m1", Sample.m1⟩], Sample.renv_ok, ?_, Sample.clash_of_check (by decide), ?_, ?_⟩
  · refine ⟨⟨_, [py!"m1"], rfl, .inl rfl, .cons rfl .nil⟩, hw, ?_, by decide⟩
    intro s hs
    rw [List.mem_singleton] at hs
    subst hs
    exact Sample.wf_m1
  · intro s hs
    simp only [List.cons_append, List.nil_append, List.mem_cons, List.not_mem_nil, or_false] at hs
    rcases hs with rfl | rfl
    · exact Sample.valid_of_check (by decide +kernel)
    · exact Sample.valid_of_check (by decide +kernel)
  · have h : Sample.restoredVerdict Sample.selfDeletingHead true true = some (.error .bagValidationError) := by decide +kernel
    unfold Sample.restoredVerdict at h
    split at h
    · cases h
    · rename_i out ho
      split at h
      · cases h
      · rename_i b hb
        exact ⟨out, b, ho, hb, Option.some.inj h⟩

end Verif
