import Verif.Spec.SavedValid
import Verif.Props.Convert
import Verif.Props.RestoreValid
/-!
# C93: saving an updated bag keeps it valid
-/

namespace Verif

open Spec

theorem taggedFiles_saved {sum : Str → Str → Str} {algs : List Str} {t t' : Tree}
    (h : writeTagManifests sum algs t = .ok t') : taggedFiles t' = taggedFiles t ∧ ∀ a ∈ algs,
      dget t' (manPath py!"tagmanifest" a) =
        some (.file ((taggedFiles t).map (fun pc => hashLine (sum a pc.2) (joinPath pc.1))).flatten) := by
  induction algs generalizing t with
  | nil => simp only [writeTagManifests] at h; cases h; simp
  | cons a algs ih =>
    simp only [writeTagManifests] at h
    split at h
    · cases h
    · rename_i t1 hw
      obtain ⟨rfl, _⟩ := Tree.write_ok hw
      obtain ⟨h1, h2⟩ := ih h
      rw [taggedFiles_dset t (manPath_tag_last a)] at h1 h2
      refine ⟨h1, ?_⟩
      intro b hb
      by_cases hba : b ∈ algs
      · exact h2 b hba
      · rcases List.mem_cons.1 hb with rfl | hb
        · rw [(writeTagManifests_ok h).1 _ (fun c hc e => by have := manPath_inj e; subst this; exact hba hc), dget_dset,
            if_pos rfl]
        · exact absurd hb hba

theorem saveInfo_tags {E : SaveEnv} {s s' : HeadBag} (h : s.saveInfo E = (.ok (), s')) : ∀ a ∈ E.algs,
    s'.tree.read (manPath py!"tagmanifest" a) =
      some (((taggedFiles s'.tree).map (fun pc => (joinPath pc.1, E.sum a pc.2))).map
        (fun ph => hashLine ph.2 ph.1)).flatten := by
  unfold HeadBag.saveInfo at h
  split at h
  · cases h
  · split at h
    · cases h
    · rename_i t hm
      injection h with _ h
      subst h
      obtain ⟨h1, h2⟩ := taggedFiles_saved hm
      intro a ha
      simp only
      rw [Tree.read, h2 a ha, h1, List.map_map]
      rfl

theorem kindText_pairwise {algs : List Str} {kind : Str} {t : Tree} (hn : algs.Nodup)
    (once : ∀ a ∈ algs, ∀ text, t.read (manPath kind a) = some text →
      (manifestLines py!"UTF-8" text).Pairwise (fun l m => ∀ c c' p, Lists l c p → ¬ Lists m c' p)) :
    (kindText algs kind t).Pairwise (fun a b => ∀ c c' p, a.1 = b.1 → Lists a.2 c p → ¬ Lists b.2 c' p) := by
  unfold kindText
  rw [List.pairwise_flatMap]
  refine ⟨?_, ?_⟩
  · intro a ha
    cases hr : t.read (manPath kind a) with
    | none => simp
    | some text =>
      simp only
      rw [List.pairwise_map]
      exact (once a ha text hr).imp (fun hh c c' p _ => hh c c' p)
  · refine hn.imp (fun hne x hx y hy c c' p e => ?_)
    exfalso
    apply hne
    have h1 : ∀ a (z : Str × Str), z ∈ (match t.read (manPath kind a) with
        | some text => (manifestLines py!"UTF-8" text).map (fun l => (a, l))
        | none => []) → z.1 = a := by
      intro a z hz
      split at hz
      · obtain ⟨l, _, rfl⟩ := List.mem_map.1 hz; rfl
      · cases hz
    rw [← h1 _ x hx, ← h1 _ y hy, e]

theorem lines_once {es : List (Str × Str)} (hl : ∀ e ∈ es, PlainLine e.2 e.1) (hd : (dkeys es).Nodup) :
    (manifestLines py!"UTF-8" (es.map (fun ph => hashLine ph.2 ph.1)).flatten).Pairwise
      (fun l m => ∀ c c' p, Lists l c p → ¬ Lists m c' p) := by
  rw [manifestLines_written hl, List.pairwise_map]
  unfold dkeys at hd
  rw [List.nodup_iff_pairwise_ne, List.pairwise_map] at hd
  refine List.Pairwise.imp_of_mem ?_ hd
  intro e f he hf hne c c' p h1 h2
  obtain ⟨w1, n1, _, p1⟩ := hl e he
  obtain ⟨w2, n2, _, p2⟩ := hl f hf
  have e1 := ((C70_plain_line w1 n1 p1 c p).1 h1).2
  have e2 := ((C70_plain_line w2 n2 p2 c' p).1 h2).2
  exact hne (e1.symm.trans e2)

theorem payload_perm {t t' : Tree} (hw : WfTree t) (hw' : WfTree t')
    (h : ∀ p, p.head? = some py!"data" → dget t' p = dget t p) : (payload t').Perm (payload t) := by
  have nd : ∀ {t : Tree}, WfTree t → (payload t).Nodup := by
    intro t hw
    have := nodup_payload hw
    rw [List.nodup_iff_pairwise_ne, List.pairwise_map] at this
    exact this.imp (fun h e => h (congrArg Prod.fst e))
  refine (List.perm_ext_iff_of_nodup (nd hw') (nd hw)).2 ?_
  rintro ⟨p, c⟩
  rw [mem_payload hw', mem_payload hw]
  constructor
  · rintro ⟨h1, h2⟩; exact ⟨by rw [← h1]; exact read_of_dget (h p h2).symm, h2⟩
  · rintro ⟨h1, h2⟩; exact ⟨by rw [← h1]; exact read_of_dget (h p h2), h2⟩

theorem firstValue_loaded {i j : Info} (hi : Loaded i) (hj : Loaded j) {k : Str} (h : fields i k = fields j k)
    {v : InfoVal} (hv : dget i k = some v) : ∃ v', dget j k = some v' ∧ firstValue v' = firstValue v := by
  unfold fields at h
  rw [hv] at h
  have h1 := hi k v hv
  cases hw : dget j k with
  | none =>
    rw [hw] at h
    cases v with
    | one s => cases h
    | many l =>
      simp only [InfoVal.values] at h h1
      rw [h] at h1
      simp at h1
  | some w =>
    rw [hw] at h
    refine ⟨w, rfl, ?_⟩
    have h2 := hj k w hw
    cases v with
    | one s =>
      cases w with
      | one s' => simp only [InfoVal.values, List.cons.injEq, and_true] at h; rw [h]
      | many l => simp only [InfoVal.values] at h; simp only [firstValue]; rw [← h]; rfl
    | many l =>
      cases w with
      | one s' => simp only [InfoVal.values] at h; simp only [firstValue]; rw [h]; rfl
      | many l' => simp only [InfoVal.values] at h; rw [h]

/-- The tree after saving, seen from the valid bag before the changes. -/
theorem saved_valid {E : SaveEnv} {cfg : ReadCfg} {hostOk : Str → Bool} {blen : Str → Nat} {t t' : Tree} {b : RBag}
    (hb : openBag cfg t = .ok b) (hw : WfTree t) (hv : bagValidate hostOk E.sum blen cfg b = .ok ())
    (hs : Updatable E cfg b) (hw' : WfTree t') (kept : ∀ p, Kept p → dget t' p = dget t p)
    (htags : ∀ a ∈ E.algs, t'.read (manPath py!"tagmanifest" a) =
      some (((taggedFiles t').map (fun pc => (joinPath pc.1, E.sum a pc.2))).map (fun ph => hashLine ph.2 ph.1)).flatten)
    (hold : ∀ a ∈ cfg.algs, t'.isfile (manPath py!"tagmanifest" a) = true → a ∉ E.algs →
      t.isfile (manPath py!"tagmanifest" a) = true)
    (names : ∀ p, t'.isfile p = true → p.head? ≠ some py!"data" →
      startsWith py!"tagmanifest-" (p.getLast?.getD []) = false → Listable cfg (joinPath p))
    {info : Info} (hread : t'.read [py!"bag-info.txt"] = some (fieldsText (tagFields info)))
    (hn : (dkeys info).Nodup) (hc : CleanInfo info)
    (hox : fields info py!"Payload-Oxum" = fields b.info py!"Payload-Oxum") :
    ∃ b', openBag cfg t' = .ok b' ∧ bagValidate hostOk E.sum blen cfg b' = .ok () := by
  obtain ⟨ht, hm, htf, hi, tags, v, p1, p2, p3, p4, p5⟩ := openBag_parts hb
  have hV := (C80_valid_iff hb hw hostOk E.sum blen).1 hv
  have kman : ∀ a, t'.read (manPath py!"manifest" a) = t.read (manPath py!"manifest" a) :=
    fun a => read_of_dget (kept _ (.inr (.inr (.inr ⟨a, by unfold manPath; simp⟩))))
  have hkind : kindText cfg.algs py!"manifest" t' = kindText cfg.algs py!"manifest" t := by
    unfold kindText
    simp only [kman]
  have halg : ∀ a ∈ cfg.algs, tupLt b.version [0, 97] = false → t'.isfile (manPath py!"tagmanifest" a) = true → a ∈ E.algs := by
    intro a ha hver hf
    apply Classical.byContradiction
    intro hna
    have := hold a ha hf hna
    refine hna ?_
    rw [hs.algs, mem_algorithms hm]
    exact ⟨ha, .inr ⟨by unfold tupLe; rw [hver]; rfl, this⟩⟩
  have hline : ∀ pc ∈ taggedFiles t', GoodPath pc.1 ∧ pc.1.head? ≠ some py!"data" ∧ Listable cfg (joinPath pc.1) ∧
      t'.read pc.1 = some pc.2 := by
    rintro ⟨p, c⟩ hpc
    obtain ⟨h1, h2, h3⟩ := (mem_taggedFiles hw').1 hpc
    exact ⟨file_ne_nil hw' (isfile_of_read h1), h2, names p (isfile_of_read h1) h2 h3, h1⟩
  have hplain : ∀ a, ∀ e ∈ (taggedFiles t').map (fun pc => (joinPath pc.1, E.sum a pc.2)), PlainLine e.2 e.1 := by
    intro a e he
    obtain ⟨pc, hpc, rfl⟩ := List.mem_map.1 he
    exact hexDigest_line hs.sums _ _ (hline pc hpc).2.2.1.1
  have htag : ∀ a ∈ cfg.algs, tupLt b.version [0, 97] = false → ∀ p h, Recorded py!"tagmanifest" t' a p h →
      ∃ q c, (q, c) ∈ taggedFiles t' ∧ p = joinPath q ∧ h = E.sum a c := by
    intro a ha hver p h hr
    have hf : a ∈ E.algs := by
      obtain ⟨text, line, h1, _⟩ := hr
      exact halg a ha hver (isfile_of_read h1)
    obtain ⟨⟨q, c⟩, hqc, e⟩ := List.mem_map.1 ((recorded_written (htags a hf) (hplain a)).1 hr)
    cases e
    exact ⟨q, c, hqc, rfl, rfl⟩
  have hrm : ∀ a p h, Recorded py!"manifest" t' a p h ↔ Recorded py!"manifest" t a p h :=
    fun a p h => recorded_of_read (kman a)
  have hlists : ∀ (t : Tree) alg line c p, (alg, line) ∈ manifestText cfg b.version b.encoding t → Lists line c p →
      alg ∈ cfg.algs ∧ (Recorded py!"manifest" t alg p c ∨
        (tupLt b.version [0, 97] = false ∧ Recorded py!"tagmanifest" t alg p c)) := by
    intro t alg line c p hmt hl
    rw [manifestText_kinds hs.utf] at hmt
    rcases List.mem_append.1 hmt with hmt | hmt
    · exact ⟨(mem_kindText.1 hmt).1, .inl (recorded_kindText hmt hl)⟩
    · split at hmt
      · cases hmt
      · rename_i hver
        exact ⟨(mem_kindText.1 hmt).1, .inr ⟨by simpa using hver, recorded_kindText hmt hl⟩⟩
  have hman : ∀ (t : Tree) alg p c, alg ∈ cfg.algs → Recorded py!"manifest" t alg p c →
      ∃ line, (alg, line) ∈ manifestText cfg b.version b.encoding t ∧ Lists line c p := by
    rintro t alg p c ha ⟨text, line, h1, h2, h3⟩
    refine ⟨line, ?_, h3⟩
    rw [manifestText_kinds hs.utf]
    exact List.mem_append_left _ (mem_kindText.2 ⟨ha, text, h1, h2⟩)
  -- the manifests are read
  have hload : ∃ r, loadManifests cfg b.version b.encoding t' = .ok r := by
    obtain ⟨g1, g2⟩ := (C70_accepts cfg b.version b.encoding t).1 ⟨_, hm⟩
    refine (C70_accepts cfg b.version b.encoding t').2 ⟨?_, ?_⟩
    · intro alg line hmt c p hl
      obtain ⟨ha, hr | ⟨hver, hr⟩⟩ := hlists t' alg line c p hmt hl
      · obtain ⟨line', h1, h2⟩ := hman t alg p c ha ((hrm alg p c).1 hr)
        exact g1 alg line' h1 c p h2
      · obtain ⟨q, c', hq, rfl, _⟩ := htag alg ha hver p c hr
        exact (hline _ hq).2.2.1.2
    · rw [manifestText_kinds hs.utf] at g2 ⊢
      rw [hkind, List.pairwise_append]
      refine ⟨(List.pairwise_append.1 g2).1, ?_, ?_⟩
      · split
        · exact .nil
        · rename_i hver
          have hver : tupLt b.version [0, 97] = false := by simpa using hver
          refine (kindText_pairwise hs.nodup ?_).imp (fun hh c c' p e h1 h2 => absurd h2 (hh c c' p e h1))
          intro a ha text ht
          have hf := halg a ha hver (isfile_of_read ht)
          rw [htags a hf] at ht
          cases ht
          refine lines_once (hplain a) ?_
          have h0 := taggedFiles_nodup hw'
          unfold dkeys
          rw [List.map_map]
          rw [List.nodup_iff_pairwise_ne, List.pairwise_map] at h0 ⊢
          refine List.Pairwise.imp_of_mem ?_ h0
          intro x y hx hy hne e
          refine hne ?_
          simp only [Function.comp] at e
          rw [← comps_joinPath (hline x hx).1, e, comps_joinPath (hline y hy).1]
      · intro x hx y hy c c' p e h1 h2
        exfalso
        split at hy
        · cases hy
        · rename_i hver
          have hver : tupLt b.version [0, 97] = false := by simpa using hver
          have k1 := hs.payload x.1 (mem_kindText.1 hx).1 p c (by rw [ht]; exact recorded_kindText hx h1)
          obtain ⟨q, c0, hq, rfl, _⟩ := htag y.1 (mem_kindText.1 hy).1 hver p c' (recorded_kindText hy h2)
          exact (hline _ hq).2.1 ((isPayload_iff (hline _ hq).1).1 k1).1
  obtain ⟨⟨algs, es⟩, hload⟩ := hload
  have hct := clean_tagFields hc
  have hlt : loadTagFile false t' [py!"bag-info.txt"] = .ok (loadTags (tagFields info)) := by
    unfold loadTagFile
    rw [hread]
    simp only [Bool.false_eq_true, if_false]
    rw [parseTags_fieldsText .universal _ (fun f hf => (hct f hf).1)]
    intro f hf
    exact (hct f (List.mem_of_mem_head? hf)).2
  have hlb : loadTagFile true t' [py!"bagit.txt"] = .ok tags := by
    rw [← p1]; unfold loadTagFile; rw [read_of_dget (kept _ (.inr (.inl rfl)))]
  have hfb : t'.isfile [py!"bagit.txt"] = true := by
    unfold loadTagFile at hlb
    cases hr : t'.read [py!"bagit.txt"] with
    | none => rw [hr] at hlb; cases hlb
    | some c => exact isfile_of_read hr
  have hopen := openBag_of_parts (cfg := cfg) hfb hlb p2 p3 htf p4 p5 (info := loadTags (tagFields info)) (by
    rw [hs.tagFile, if_pos, hlt]
    rw [exists_iff (by simp)]
    obtain ⟨c, hc⟩ := isfile_iff.1 (isfile_of_read hread)
    rw [hc]; simp) hload
  refine ⟨_, hopen, (C80_valid_iff hopen hw' hostOk E.sum blen).2 ?_⟩
  have hpay := payload_perm hw hw' (fun p hp => kept p (.inl hp))
  have hlisted : ∀ p, isPayload p = true → Listed cfg b p →
      Listed cfg ⟨t', b.version, b.encoding, b.tagFile, loadTags (tagFields info), algs, es⟩ p := by
    rintro p hp ⟨alg, line, c, h1, h2⟩
    obtain ⟨ha, hr | ⟨hver, hr⟩⟩ := hlists b.tree alg line c p h1 h2
    · rw [ht] at hr
      obtain ⟨line', h3, h4⟩ := hman t' alg p c ha ((hrm alg p c).2 hr)
      exact ⟨alg, line', c, h3, h4⟩
    · rw [hs.tag alg ha p c hr] at hp; cases hp
  refine ⟨?_, ?_, ?_, ?_, ?_, ?_, ?_, ?_⟩
  · simp only
    rw [isdir_of_dget (kept [py!"data"] (.inl rfl)), ← ht]
    exact hV.data
  · obtain ⟨a, ha, hf⟩ := hV.manifest
    refine ⟨a, ha, ?_⟩
    simp only
    rw [isfile_of_dget (kept _ (.inr (.inr (.inr ⟨a, rfl⟩)))), ← ht]
    exact hf
  · intro text hr
    refine hV.nobom text ?_
    rw [ht, ← read_of_dget (kept [py!"bagit.txt"] (.inr (.inl rfl)))]
    exact hr
  · intro text hr line hl
    simp only at hr
    rw [read_of_dget (kept [py!"fetch.txt"] (.inr (.inr (.inl rfl))))] at hr
    obtain ⟨u, z, f, f1, f2, f3, f4, f5⟩ := hV.fetch text (by rw [ht]; exact hr) line hl
    exact ⟨u, z, f, f1, f2, f3, hlisted f f5 f4, f5⟩
  · intro v hvv
    have hfl : fields (loadTags (tagFields info)) py!"Payload-Oxum" = fields b.info py!"Payload-Oxum" := by
      rw [← hox]
      exact reopened_fields hread hn hc hopen hs.tagFile _
    obtain ⟨l, _, hil⟩ := source_info hb
    have hlb : Loaded b.info := by rw [hil]; exact loaded_loadTags l
    obtain ⟨v', h1, h2⟩ := firstValue_loaded (loaded_loadTags (tagFields info)) hlb hfl hvv
    obtain ⟨by', fi, f1, f2, f3, f4, f5, f6⟩ := hV.oxum v' h1
    refine ⟨by', fi, by rw [← h2]; exact f1, f2, f3, f4, ?_, ?_⟩
    · simp only
      rw [f5, ht]
      exact congrArg (fun n => some (Int.ofNat n)) (List.Perm.sum_nat (hpay.map (fun e => blen e.2))).symm
    · simp only
      rw [f6, ht, hpay.length_eq]
  · intro p c hm'
    simp only at hm'
    have hm2 : (p, c) ∈ payload b.tree := by rw [ht]; exact hpay.mem_iff.1 hm'
    exact hlisted _ (payload_isPayload (ht ▸ hw) hV.data hm2) (hV.listed p c hm2)
  · rintro p ⟨alg, line, c, h1, h2⟩ hpp
    obtain ⟨ha, hr | ⟨hver, hr⟩⟩ := hlists t' alg line c p h1 h2
    · obtain ⟨line', h3, h4⟩ := hman t alg p c ha ((hrm alg p c).1 hr)
      obtain ⟨q, c', h5, rfl⟩ := hV.present p ⟨alg, line', c, by rw [ht]; exact h3, h4⟩ hpp
      exact ⟨q, c', hpay.mem_iff.2 (by rw [← ht]; exact h5), rfl⟩
    · exfalso
      obtain ⟨q, c0, hq, rfl, _⟩ := htag alg ha hver p c hr
      exact (hline _ hq).2.1 ((isPayload_iff (hline _ hq).1).1 hpp).1
  · intro alg line c p h1 h2
    obtain ⟨ha, hr | ⟨hver, hr⟩⟩ := hlists t' alg line c p h1 h2
    · have hr' := (hrm alg p c).1 hr
      obtain ⟨line', h3, h4⟩ := hman t alg p c ha hr'
      obtain ⟨content, h5, h6⟩ := hV.sums alg line' c p (by rw [ht]; exact h3) h4
      refine ⟨content, ?_, h6⟩
      have hpp := hs.payload alg ha p c (by rw [ht]; exact hr')
      obtain ⟨q, c', h7, rfl⟩ := hV.present p ⟨alg, line', c, by rw [ht]; exact h3, h4⟩ hpp
      have hg : GoodPath q := by
        have := (mem_payload (ht ▸ hw)).1 h7
        exact file_ne_nil (ht ▸ hw) (isfile_of_read this.1)
      rw [comps_joinPath hg] at h5 ⊢
      simp only
      rw [← h5, ht]
      exact read_of_dget (kept q (.inl ((mem_payload (ht ▸ hw)).1 h7).2))
    · obtain ⟨q, c0, hq, rfl, rfl⟩ := htag alg ha hver p c hr
      refine ⟨c0, ?_, lower_hex (hs.sums alg c0).2⟩
      rw [comps_joinPath (hline _ hq).1]
      exact (hline _ hq).2.2.2

/-- `update_info` of a bag of which only tag files have changed since it was valid. -/
theorem update_valid {E : SaveEnv} {cfg : ReadCfg} {hostOk : Str → Bool} {blen : Str → Nat} {t : Tree} {b : RBag}
    (hb : openBag cfg t = .ok b) (hw : WfTree t) (hv : bagValidate hostOk E.sum blen cfg b = .ok ())
    (hs : Updatable E cfg b) {s s' : HeadBag} (hws : WfTree s.tree) (kept : ∀ p, Kept p → dget s.tree p = dget t p)
    (hold : ∀ a, a ∉ E.algs → s.tree.isfile (manPath py!"tagmanifest" a) = true →
      t.isfile (manPath py!"tagmanifest" a) = true)
    (names : ∀ p, s.tree.isfile p = true → p.head? ≠ some py!"data" →
      startsWith py!"tagmanifest-" (p.getLast?.getD []) = false → Listable cfg (joinPath p))
    (hbi : Listable cfg py!"bag-info.txt")
    (hn : (dkeys s.info).Nodup) (hc : CleanInfo s.info)
    (hox : fields s.info py!"Payload-Oxum" = fields b.info py!"Payload-Oxum")
    {version : Option Str} {pv : Str} (hver : ∀ v, version = some v → OneLine v) (hpv : OneLine pv)
    (hsz : ∀ t, OneLine (E.size t)) (h : s.updateInfo E version pv = (.ok (), s')) :
    ∃ b', openBag cfg s'.tree = .ok b' ∧ bagValidate hostOk E.sum blen cfg b' = .ok () := by
  obtain ⟨⟨z, ez⟩, hread, hfr, hwf, _⟩ := updateInfo_ok h
  have hslash : ∀ a ∈ E.algs, '/' ∉ a := by
    intro a ha
    rw [hs.algs] at ha
    obtain ⟨_, hm, _⟩ := openBag_parts hb
    exact hs.slash a ((mem_algorithms hm a).1 ha).1
  have htags : ∀ a ∈ E.algs, s'.tree.read (manPath py!"tagmanifest" a) =
      some (((taggedFiles s'.tree).map (fun pc => (joinPath pc.1, E.sum a pc.2))).map
        (fun ph => hashLine ph.2 ph.1)).flatten := by
    unfold HeadBag.updateInfo at h
    split at h
    · injection h with h; cases h
    · exact saveInfo_tags h
  have hne : ∀ q, Kept q → q ≠ [py!"bag-info.txt"] ∧ ∀ a, q ≠ manPath py!"tagmanifest" a := by
    intro q hq
    unfold manPath
    rcases hq with hq | rfl | rfl | ⟨a, rfl⟩
    · constructor
      · rintro rfl; exact absurd hq (by decide)
      · rintro a rfl; simp at hq
    · exact ⟨by decide, fun a => by simp⟩
    · exact ⟨by decide, fun a => by simp⟩
    · exact ⟨by simp, fun a => by simp⟩
  refine saved_valid hb hw hv hs (hwf hslash hws) (fun p hp => ?_) htags ?_ ?_ (info := s'.info) hread ?_ ?_ ?_
  · rw [hfr p (hne p hp).1 (fun a _ => (hne p hp).2 a), kept p hp]
  · intro a _ hf ha
    refine hold a ha ?_
    rw [← isfile_of_dget (hfr _ ?_ ?_)]
    · exact hf
    · unfold manPath; simp
    · intro c hc e
      exact ha (manPath_inj e ▸ hc)
  · intro p hf hd hl
    by_cases h1 : p = [py!"bag-info.txt"]
    · subst h1; exact hbi
    · refine names p ?_ hd hl
      rw [← isfile_of_dget (hfr p h1 ?_)]
      · exact hf
      · rintro a _ rfl
        rw [manPath_tag_last a] at hl
        cases hl
  · rw [ez]; exact nodup_updateInfo hn _ _ _
  · rw [ez]
    cases version with
    | none =>
      have : updateInfo (fun _ => E.size z) none pv s.info = updateInfo (fun _ => E.size z) (some []) pv s.info := by
        simp [updateInfo, headInfo]
      rw [this]
      exact clean_updateInfo hc (fun _ => hsz z) (oneLine_of_check (by decide)) hpv
    | some v => exact clean_updateInfo hc (fun _ => hsz z) (hver v rfl) hpv
  · rw [ez, C20_preserves _ _ _ _ _ (by decide), hox]

/-- The tag files of a multibag are not among what must be kept, nor a tag manifest. -/
theorem tagFiles_kept {E : SaveEnv} {cfg : ReadCfg} {t u : Tree} {dir : Str} (hg : GoodPath (comps dir))
    (hk : ¬ Kept (comps dir)) (ht : ∀ a, comps dir ≠ [py!"tagmanifest-" ++ a ++ py!".txt"])
    (hfr : ∀ p, p ≠ tagFile dir py!"member-bags.tsv" → p ≠ tagFile dir py!"file-lookup.tsv" → p ≠ comps dir →
      p ≠ [py!"bag-info.txt"] → (∀ a ∈ E.algs, p ≠ manPath py!"tagmanifest" a) → dget u p = dget t p)
    (names : ∀ p, t.isfile p = true → p.head? ≠ some py!"data" →
      startsWith py!"tagmanifest-" (p.getLast?.getD []) = false → Listable cfg (joinPath p))
    (hbi : Listable cfg py!"bag-info.txt")
    (hd : Listable cfg (joinPath (comps dir)))
    (hmb : Listable cfg (joinPath (comps dir ++ [py!"member-bags.tsv"])))
    (hfl : Listable cfg (joinPath (comps dir ++ [py!"file-lookup.tsv"]))) :
    (∀ p, Kept p → dget u p = dget t p) ∧
    (∀ a, a ∉ E.algs → u.isfile (manPath py!"tagmanifest" a) = true → t.isfile (manPath py!"tagmanifest" a) = true) ∧
    (∀ p, u.isfile p = true → p.head? ≠ some py!"data" →
      startsWith py!"tagmanifest-" (p.getLast?.getD []) = false → Listable cfg (joinPath p)) := by
  rw [tagFile_eq _ comps_members, tagFile_eq _ comps_lookup] at hfr
  obtain ⟨c, cs, ec⟩ : ∃ c cs, comps dir = c :: cs := by
    cases h : comps dir with
    | nil => exact absurd h hg.1
    | cons c cs => exact ⟨c, cs, rfl⟩
  have hsub : ∀ n, ¬ Kept (comps dir ++ [n]) := by
    intro n h
    rcases h with h | h | h | ⟨a, h⟩
    · exact hk (.inl (by rw [ec] at h ⊢; exact h))
    all_goals
      rw [ec] at h
      have := congrArg List.length h
      simp at this
  refine ⟨fun p hp => ?_, fun a ha hf => ?_, fun p hf hdata hl => ?_⟩
  · refine hfr p ?_ ?_ ?_ ?_ ?_
    · rintro rfl; exact hsub _ hp
    · rintro rfl; exact hsub _ hp
    · rintro rfl; exact hk hp
    · rintro rfl
      rcases hp with hp | hp | hp | ⟨a, hp⟩
      · exact absurd hp (by decide)
      · exact absurd hp (by decide)
      · exact absurd hp (by decide)
      · simp at hp
    · rintro a _ rfl
      unfold manPath at hp
      rcases hp with hp | hp | hp | ⟨a, hp⟩ <;> simp at hp
  · rw [← isfile_of_dget (hfr _ ?_ ?_ ?_ ?_ ?_)]
    · exact hf
    · unfold manPath; rw [ec]; intro e; have := congrArg List.length e; simp at this
    · unfold manPath; rw [ec]; intro e; have := congrArg List.length e; simp at this
    · intro e; exact ht a (by rw [← e]; unfold manPath; simp)
    · unfold manPath; simp
    · intro c hc e; exact ha (manPath_inj e ▸ hc)
  · by_cases h1 : p = comps dir ++ [py!"member-bags.tsv"]
    · subst h1; exact hmb
    by_cases h2 : p = comps dir ++ [py!"file-lookup.tsv"]
    · subst h2; exact hfl
    by_cases h3 : p = [py!"bag-info.txt"]
    · subst h3; exact hbi
    by_cases h4 : p = comps dir
    · subst h4; exact hd
    refine names p ?_ hdata hl
    rw [← isfile_of_dget (hfr p h1 h2 h4 h3 ?_)]
    · exact hf
    · rintro a _ rfl
      rw [manPath_tag_last a] at hl
      cases hl

/-- C93: a valid bag stays valid when `update_info` is called on it. -/
theorem C93_update_info (E : SaveEnv) (cfg : ReadCfg) (hostOk : Str → Bool) (blen : Str → Nat) (t : Tree) (b : RBag)
    (hb : openBag cfg t = .ok b) (hw : WfTree t) (hv : bagValidate hostOk E.sum blen cfg b = .ok ())
    (hs : Updatable E cfg b) (hc : CleanInfo b.info)
    (names : ∀ p, t.isfile p = true → p.head? ≠ some py!"data" →
      startsWith py!"tagmanifest-" (p.getLast?.getD []) = false → Listable cfg (joinPath p))
    (hbi : Listable cfg py!"bag-info.txt") (version : Option Str) (pv : Str) (hver : ∀ v, version = some v → OneLine v)
    (hpv : OneLine pv) (hsz : ∀ t, OneLine (E.size t)) (s' : HeadBag)
    (h : (HeadBag.open t b.info).updateInfo E version pv = (.ok (), s')) :
    ∃ b', openBag cfg s'.tree = .ok b' ∧ bagValidate hostOk E.sum blen cfg b' = .ok () :=
  update_valid hb hw hv hs (s := HeadBag.open t b.info) hw (fun _ _ => rfl) (fun _ _ h => h) names hbi (nodup_openBag hb) hc rfl
    hver hpv hsz h

/-- C93: converting a valid bag into a multibag of one bag leaves it valid. -/
theorem C93_converted (E : SaveEnv) (cfg : ReadCfg) (hostOk : Str → Bool) (blen : Str → Nat) (t : Tree) (b : RBag)
    (hb : openBag cfg t = .ok b) (hw : WfTree t) (hv : bagValidate hostOk E.sum blen cfg b = .ok ())
    (hs : Updatable E cfg b) (hc : CleanInfo b.info)
    (names : ∀ p, t.isfile p = true → p.head? ≠ some py!"data" →
      startsWith py!"tagmanifest-" (p.getLast?.getD []) = false → Listable cfg (joinPath p))
    (hbi : Listable cfg py!"bag-info.txt")
    (hdir : ∀ n ∈ [[], [py!"member-bags.tsv"], [py!"file-lookup.tsv"]], Listable cfg (joinPath (comps (tagDir b.info) ++ n)))
    (hk : ¬ Kept (comps (tagDir b.info))) (ht : ∀ a, comps (tagDir b.info) ≠ [py!"tagmanifest-" ++ a ++ py!".txt"])
    (dir version : Str) (pid : Option Str) (c : Convertible E t b.info) (hver : OneLine version)
    (hsz : ∀ t, OneLine (E.size t)) (s' : HeadBag)
    (h : (HeadBag.open t b.info).convert E dir version pid = (.ok (), s')) :
    ∃ b', openBag cfg s'.tree = .ok b' ∧ bagValidate hostOk E.sum blen cfg b' = .ok () := by
  obtain ⟨u, a⟩ := converted c.tag c.ver' h
  obtain ⟨s, hup, ⟨t0, ei⟩, hwf, hfr⟩ := a.last
  have hcv : OneLine CURRENT_VERSION := oneLine_of_check (by decide +kernel)
  have hn := nodup_openBag hb
  have h0 : CleanInfo s.info ∧ (dkeys s.info).Nodup ∧ fields s.info py!"Payload-Oxum" = fields b.info py!"Payload-Oxum" := by
    rw [ei]
    split
    · exact ⟨clean_updateInfo hc (fun _ => hsz t0) (oneLine_of_check (by decide)) hcv, nodup_updateInfo hn _ _ _,
        C20_preserves _ _ _ _ _ (by decide)⟩
    · exact ⟨hc, hn, rfl⟩
  have hd := hdir [] (by simp)
  rw [List.append_nil] at hd
  obtain ⟨k1, k2, k3⟩ := tagFiles_kept c.dir.1 hk ht hfr names hbi hd (hdir _ (by simp)) (hdir _ (by simp))
  exact update_valid hb hw hv hs (hwf c.algs c.dir.1 hw) k1 k2 k3 hbi h0.2.1 h0.1 h0.2.2
    (by intro v e; cases e; exact hver) hcv hsz hup

/-- C93: amending a multibag with a valid bag leaves that bag valid. -/
theorem C93_amended (E : SaveEnv) (cfg : ReadCfg) (hostOk : Str → Bool) (blen : Str → Nat) (t : Tree) (b : RBag)
    (hb : openBag cfg t = .ok b) (hw : WfTree t) (hv : bagValidate hostOk E.sum blen cfg b = .ok ())
    (hs : Updatable E cfg b) (hc : CleanInfo b.info)
    (names : ∀ p, t.isfile p = true → p.head? ≠ some py!"data" →
      startsWith py!"tagmanifest-" (p.getLast?.getD []) = false → Listable cfg (joinPath p))
    (hbi : Listable cfg py!"bag-info.txt")
    (hdir : ∀ n ∈ [[], [py!"member-bags.tsv"], [py!"file-lookup.tsv"]], Listable cfg (joinPath (comps (tagDir b.info) ++ n)))
    (hg : GoodPath (comps (tagDir b.info)))
    (hk : ¬ Kept (comps (tagDir b.info))) (ht : ∀ a, comps (tagDir b.info) ≠ [py!"tagmanifest-" ++ a ++ py!".txt"])
    (keep : Bool) (old : Amendee) (me : NewHead) (version : Str) (bags : List Amending) (o : Opened t b.info)
    (hpv : keep = true → verLt (profileVersion old.info) py!"0.3" = false)
    (hold : ∀ v ∈ profileVersion old.info :: oldVersion old.info :: fields old.info py!"Multibag-Head-Deprecates", OneLine v)
    (hpk : keep = true → fields old.info py!"Multibag-Version" = [] ∨ ∃ v, fields old.info py!"Multibag-Version" = [v])
    (hver : OneLine version) (hsz : ∀ t, OneLine (E.size t)) (s' : HeadBag)
    (h : amend E keep old me version bags (HeadBag.open t b.info) = (.ok (), s')) :
    ∃ b', openBag cfg s'.tree = .ok b' ∧ bagValidate hostOk E.sum blen cfg b' = .ok () := by
  obtain ⟨oms', oes, u, a⟩ := amended o hpv h
  obtain ⟨s, hup, ei, hwf, hfr⟩ := a.last
  have hn := nodup_openBag hb
  have hd := hdir [] (by simp)
  rw [List.append_nil] at hd
  obtain ⟨k1, k2, k3⟩ := tagFiles_kept (E := E) hg hk ht (fun p h1 h2 h3 _ _ => hfr p h1 h2 h3) names hbi hd
    (hdir _ (by simp)) (hdir _ (by simp))
  refine update_valid hb hw hv hs (hwf hg hw) k1 k2 k3 hbi ?_ ?_ ?_ (by intro v e; cases e; exact hver) ?_ hsz hup
  · rw [ei]; exact nodup_dset (nodup_dset hn _ _) _ _
  · rw [ei]; exact clean_initInfo hc hold hpk
  · rw [ei, fields_initInfo, if_neg (by decide), if_neg (by decide)]
  · rw [ei, profileVersion_initInfo]
    cases keep with
    | true => exact hold _ List.mem_cons_self
    | false => show OneLine CURRENT_VERSION; exact oneLine_of_check (by decide +kernel)

namespace Sample

/-- The checksums listed by the payload manifest of `plainBag`. -/
def plainSums : List (Str × Str) := [(py!"data/a", py!"d2"), (py!"data/d", py!"d1")]

/-- The checksums listed by its tag manifest. -/
def plainTags : List (Str × Str) := [(py!"bagit.txt", py!"d55"), (py!"notes.txt", py!"d3")]

/-- An ordinary valid bag. -/
def plainBag : Tree :=
  [([py!"bagit.txt"], .file py!"BagIt-Version: 0.97\nTag-File-Character-Encoding: UTF-8\n"),
   ([py!"bag-info.txt"], .file py!"Contact: me\nPayload-Oxum: 3.2\n"),
   ([py!"manifest-md5.txt"], .file py!"d2 data/a\nd1 data/d\n"),
   ([py!"notes.txt"], .file py!"n.\n"),
   ([py!"tagmanifest-md5.txt"], .file py!"d55 bagit.txt\nd3 notes.txt\n"),
   ([py!"data"], .dir), ([py!"data", py!"a"], .file py!"a3"), ([py!"data", py!"d"], .file py!"D")]

def plainInfo : Info := [(py!"Contact", .one py!"me"), (py!"Payload-Oxum", .one py!"3.2")]

/-- Checksums and sizes.  The algorithm is found twice, for the manifest and for the tag manifest. -/
def sumEnv : SaveEnv := ⟨[py!"md5", py!"md5"], sum, fun _ => py!"1 kB"⟩

theorem sumEnv_size (t : Tree) : OneLine (sumEnv.size t) := oneLine_of_check (v := py!"1 kB") (by decide)

theorem wf_plainBag : WfTree plainBag := wf_of_check (by decide)

theorem plain_valid : ∃ b, openBag readCfg plainBag = .ok b ∧
    bagValidate (fun _ => true) sum List.length readCfg b = .ok () ∧ Updatable sumEnv readCfg b ∧ b.info = plainInfo := by
  obtain ⟨b, hb, hf⟩ := ok_of_check (r := openBag readCfg plainBag) (f := fun b =>
    decide (bagValidate (fun _ => true) sum List.length readCfg b = .ok () ∧ b.info = plainInfo ∧ b.algorithms = [py!"md5", py!"md5"] ∧
      b.tagFile = py!"bag-info.txt" ∧ b.encoding = py!"UTF-8" ∧ b.tree = plainBag)) (by decide +kernel)
  rw [decide_eq_true_eq] at hf
  obtain ⟨h1, h2, h3, h4, h5, h6⟩ := hf
  have halg : ∀ a ∈ readCfg.algs, a = py!"md5" ∨ a = py!"sha256" := by decide
  have hno : ∀ kind p h, plainBag.read [kind ++ '-' :: py!"sha256" ++ py!".txt"] = none →
      ¬ Recorded kind plainBag py!"sha256" p h := by
    rintro kind p h e ⟨text, line, e', _⟩
    rw [e] at e'; cases e'
  refine ⟨b, hb, h1, ⟨h3.symm, hex_sum, h4, by rw [h5]; decide, by decide, by decide, ?_, ?_⟩, h2⟩
  · rw [h6]
    intro a ha p h hr
    rcases halg a ha with rfl | rfl
    · have := (recorded_written (es := plainSums) (by decide) ?_).1 hr
      · revert this; simp only [plainSums, List.mem_cons, Prod.mk.injEq, List.not_mem_nil, or_false]
        rintro (⟨rfl, rfl⟩ | ⟨rfl, rfl⟩) <;> decide
      · intro e he
        simp only [plainSums, List.mem_cons, List.not_mem_nil, or_false] at he
        rcases he with rfl | rfl
        · exact plain_line_of_check (q := [py!"data", py!"a"]) (by decide)
        · exact plain_line_of_check (q := [py!"data", py!"d"]) (by decide)
    · exact absurd hr (hno _ _ _ (by decide))
  · rw [h6]
    intro a ha p h hr
    rcases halg a ha with rfl | rfl
    · have := (recorded_written (es := plainTags) (by decide) ?_).1 hr
      · revert this; simp only [plainTags, List.mem_cons, Prod.mk.injEq, List.not_mem_nil, or_false]
        rintro (⟨rfl, rfl⟩ | ⟨rfl, rfl⟩) <;> decide
      · intro e he
        simp only [plainTags, List.mem_cons, List.not_mem_nil, or_false] at he
        rcases he with rfl | rfl
        · exact plain_line_of_check (q := [py!"bagit.txt"]) (by decide)
        · exact plain_line_of_check (q := [py!"notes.txt"]) (by decide)
    · exact absurd hr (hno _ _ _ (by decide))

theorem listable_of_check {q : Path} (h : (q ≠ [] ∧ (∀ n ∈ q, n ≠ [] ∧ '/' ∉ n ∧ n ≠ py!"." ∧ n ≠ py!"..") ∧
      (∀ c ∈ joinWith ['/'] q, isSpace c = false) ∧ (∀ c ∈ joinWith ['/'] q, isNl c = false) ∧
      (joinWith ['/'] q).head? ≠ some '*' ∧ '%' ∉ joinWith ['/'] q) ∧
    isDangerous readCfg.env readCfg.bagpath (joinPath q) = false) : Listable readCfg (joinPath q) := by
  obtain ⟨⟨h1, h2, h3, h4, h5, h6⟩, h7⟩ := h
  exact ⟨(plain_line_of_check (h := py!"a") (q := q)
    ⟨by decide, by decide, by decide, by decide, h1, h2, rfl, h3, h4, h5, h6⟩).path, h7⟩

theorem plain_names (p : Path) (hf : plainBag.isfile p = true) (hd : p.head? ≠ some py!"data") : Listable readCfg (joinPath p) := by
  obtain ⟨c, hc⟩ := isfile_iff.1 hf
  have hm := mem_of_dget hc
  simp only [plainBag, List.mem_cons, Prod.mk.injEq, reduceCtorEq, and_false, List.not_mem_nil, or_false, false_or] at hm
  rcases hm with ⟨rfl, _⟩ | ⟨rfl, _⟩ | ⟨rfl, _⟩ | ⟨rfl, _⟩ | ⟨rfl, _⟩ | ⟨rfl, _⟩ | ⟨rfl, _⟩
  all_goals first | exact listable_of_check (by decide +kernel) | exact absurd rfl hd

theorem plain_dir : ∀ n ∈ ([[], [py!"member-bags.tsv"], [py!"file-lookup.tsv"]] : List Path),
    Listable readCfg (joinPath (comps (tagDir plainInfo) ++ n)) := by
  intro n hn
  simp only [List.mem_cons, List.not_mem_nil, or_false] at hn
  rcases hn with rfl | rfl | rfl <;> exact listable_of_check (by decide +kernel)

theorem plain_tagDir : ¬ Kept (comps (tagDir plainInfo)) ∧
    ∀ a, comps (tagDir plainInfo) ≠ [py!"tagmanifest-" ++ a ++ py!".txt"] := by
  have e : comps (tagDir plainInfo) = [py!"multibag"] := by decide
  rw [e]
  refine ⟨?_, fun a => by simp⟩
  rintro (h | h | h | ⟨a, h⟩)
  · exact absurd h (by decide)
  · exact absurd h (by decide)
  · exact absurd h (by decide)
  · simp at h

theorem plain_convertible : Convertible sumEnv plainBag plainInfo where
  wf := wf_plainBag
  algs := by decide
  tag := by intro l; simp [dget, plainInfo]
  dir := by
    have e : comps (tagDir plainInfo) = [py!"multibag"] := by decide
    rw [e]
    exact ⟨⟨by simp, fun c hc => by rw [List.mem_singleton] at hc; subst hc; exact goodName_of_check (by decide)⟩, by decide⟩
  ver := .inl (by decide)
  files := fun _ hq => payload_plain (by decide +kernel) hq

theorem plain_opened : Opened plainBag plainInfo where
  tag := by intro l; simp [dget, plainInfo]
  ver := by decide
  members := ⟨[], by decide⟩
  lookup := ⟨none, by decide⟩
  deleted := ⟨[], by decide⟩

end Sample

/-- `update_info` of the sample bag succeeds, and the bag is still valid. -/
example : ∃ s' b', (HeadBag.open Sample.plainBag Sample.plainInfo).updateInfo Sample.sumEnv none py!"0.4" = (.ok (), s') ∧
    openBag Sample.readCfg s'.tree = .ok b' ∧
    bagValidate (fun _ => true) Sample.sum List.length Sample.readCfg b' = .ok () := by
  obtain ⟨b, hb, hv, hu, hi⟩ := Sample.plain_valid
  have h : (HeadBag.open Sample.plainBag b.info).updateInfo Sample.sumEnv none py!"0.4" = (.ok (),
      ((HeadBag.open Sample.plainBag Sample.plainInfo).updateInfo Sample.sumEnv none py!"0.4").2) := by
    rw [hi]
    exact Prod.ext (by decide +kernel) rfl
  obtain ⟨b', h1, h2⟩ := C93_update_info Sample.sumEnv Sample.readCfg _ _ _ b hb Sample.wf_plainBag hv hu
    (by rw [hi]; exact Sample.cleanInfo_of_check (by decide +kernel)) (fun p h1 h2 _ => Sample.plain_names p h1 h2)
    (Sample.listable_of_check (q := [py!"bag-info.txt"]) (by decide +kernel)) none py!"0.4" (by intro v e; cases e)
    (oneLine_of_check (by decide)) Sample.sumEnv_size _ h
  rw [hi] at h
  exact ⟨_, b', h, h1, h2⟩

/-- Converting the sample bag succeeds, and the bag is still valid. -/
example : ∃ s' b', (HeadBag.open Sample.plainBag Sample.plainInfo).convert Sample.sumEnv py!"/bags/n0" py!"1.0" none = (.ok (), s') ∧
    openBag Sample.readCfg s'.tree = .ok b' ∧
    bagValidate (fun _ => true) Sample.sum List.length Sample.readCfg b' = .ok () := by
  obtain ⟨b, hb, hv, hu, hi⟩ := Sample.plain_valid
  have h : (HeadBag.open Sample.plainBag b.info).convert Sample.sumEnv py!"/bags/n0" py!"1.0" none = (.ok (),
      ((HeadBag.open Sample.plainBag Sample.plainInfo).convert Sample.sumEnv py!"/bags/n0" py!"1.0" none).2) := by
    rw [hi]
    exact Prod.ext (by decide +kernel) rfl
  obtain ⟨b', h1, h2⟩ := C93_converted Sample.sumEnv Sample.readCfg _ _ _ b hb Sample.wf_plainBag hv hu
    (by rw [hi]; exact Sample.cleanInfo_of_check (by decide +kernel)) (fun p h1 h2 _ => Sample.plain_names p h1 h2)
    (Sample.listable_of_check (q := [py!"bag-info.txt"]) (by decide +kernel)) (by rw [hi]; exact Sample.plain_dir)
    (by rw [hi]; exact Sample.plain_tagDir.1) (by rw [hi]; exact Sample.plain_tagDir.2) _ _ _
    (by rw [hi]; exact Sample.plain_convertible)
    (oneLine_of_check (by decide)) Sample.sumEnv_size _ h
  rw [hi] at h
  exact ⟨_, b', h, h1, h2⟩

/-- Amending a multibag with the sample bag succeeds, and the bag is still valid. -/
example : ∃ s' b', amend Sample.sumEnv false Sample.oldHead Sample.newHead py!"2.0" [Sample.extra]
      (HeadBag.open Sample.plainBag Sample.plainInfo) = (.ok (), s') ∧
    openBag Sample.readCfg s'.tree = .ok b' ∧
    bagValidate (fun _ => true) Sample.sum List.length Sample.readCfg b' = .ok () := by
  obtain ⟨b, hb, hv, hu, hi⟩ := Sample.plain_valid
  have h : amend Sample.sumEnv false Sample.oldHead Sample.newHead py!"2.0" [Sample.extra]
      (HeadBag.open Sample.plainBag b.info) = (.ok (), (amend Sample.sumEnv false Sample.oldHead Sample.newHead py!"2.0"
        [Sample.extra] (HeadBag.open Sample.plainBag Sample.plainInfo)).2) := by
    rw [hi]
    exact Prod.ext (by decide +kernel) rfl
  obtain ⟨b', h1, h2⟩ := C93_amended Sample.sumEnv Sample.readCfg _ _ _ b hb Sample.wf_plainBag hv hu
    (by rw [hi]; exact Sample.cleanInfo_of_check (by decide +kernel)) (fun p h1 h2 _ => Sample.plain_names p h1 h2)
    (Sample.listable_of_check (q := [py!"bag-info.txt"]) (by decide +kernel)) (by rw [hi]; exact Sample.plain_dir)
    (by rw [hi]; exact Sample.plain_convertible.dir.1)
    (by rw [hi]; exact Sample.plain_tagDir.1) (by rw [hi]; exact Sample.plain_tagDir.2) false _ _ _ _
    (by rw [hi]; exact Sample.plain_opened) (by intro e; cases e) (by
      intro v hv
      have : v ∈ [py!"0.4", py!"1.1", py!"1.0"] := hv
      simp only [List.mem_cons, List.not_mem_nil, or_false] at this
      rcases this with rfl | rfl | rfl <;> exact oneLine_of_check (by decide)) (by intro e; cases e)
    (oneLine_of_check (by decide)) Sample.sumEnv_size _ h
  rw [hi] at h
  exact ⟨_, b', h, h1, h2⟩

/-- C93 is false of the code if the bag has a tag file whose name cannot be listed, and which it therefore did not
list: `update_info` lists every file, and the bag is valid before and not valid afterwards. -/
theorem C93_negation_names : ∃ (E : SaveEnv) (cfg : ReadCfg) (t : Tree) (b : RBag) (s' : HeadBag) (b' : RBag),
    openBag cfg t = .ok b ∧ bagValidate (fun _ => true) E.sum List.length cfg b = .ok () ∧ E.algs = b.algorithms ∧
    (HeadBag.open t b.info).updateInfo E none py!"0.4" = (.ok (), s') ∧
    openBag cfg s'.tree = .ok b' ∧
    bagValidate (fun _ => true) E.sum List.length cfg b' = .error .bagValidationError := by
  obtain ⟨b, hb, hf⟩ := Sample.ok_of_check
    (r := openBag Sample.readCfg (dset Sample.plainBag [py!"notes "] (.file py!"x"))) (f := fun b =>
    decide (bagValidate (fun _ => true) Sample.sum List.length Sample.readCfg b = .ok () ∧ b.info = Sample.plainInfo ∧
      b.algorithms = [py!"md5", py!"md5"])) (by decide +kernel)
  rw [decide_eq_true_eq] at hf
  obtain ⟨h1, h2, h3⟩ := hf
  obtain ⟨b', hb', hf⟩ := Sample.ok_of_check
    (r := openBag Sample.readCfg ((HeadBag.open (dset Sample.plainBag [py!"notes "] (.file py!"x")) Sample.plainInfo).updateInfo
      Sample.sumEnv none py!"0.4").2.tree) (f := fun b =>
    decide (bagValidate (fun _ => true) Sample.sum List.length Sample.readCfg b = .error .bagValidationError)) (by decide +kernel)
  rw [decide_eq_true_eq] at hf
  exact ⟨Sample.sumEnv, Sample.readCfg, _, b, _, b', hb, h1, h3.symm, by rw [h2]; exact Prod.ext (by decide +kernel) rfl, hb', hf⟩

theorem saveInfo_succeeds {E : SaveEnv} {s : HeadBag} (h1 : s.tree.isdir [py!"bag-info.txt"] = false)
    (h2 : ∀ a ∈ E.algs, s.tree.isdir (manPath py!"tagmanifest" a) = false) :
    ∃ t, s.saveInfo E = (.ok (), { s with tree := t }) ∧ t.isdir [py!"bag-info.txt"] = false ∧
      (∀ a ∈ E.algs, t.isdir (manPath py!"tagmanifest" a) = false) := by
  unfold HeadBag.saveInfo
  have hne : ∀ a, manPath py!"tagmanifest" a ≠ [py!"bag-info.txt"] := by intro a; unfold manPath; simp
  have hw : s.tree.write [py!"bag-info.txt"] (fieldsText (tagFields s.info)) =
      .ok (dset s.tree [py!"bag-info.txt"] (.file (fieldsText (tagFields s.info)))) := by
    unfold Tree.write
    rw [h1]
    rfl
  have nofile : ∀ {t : Tree} {p : Path} {c : Str}, p ≠ [] → dget t p = some (.file c) → t.isdir p = false := by
    intro t p c hp e
    rw [Bool.eq_false_iff]
    intro hd
    rcases isdir_iff.1 hd with h | h
    · exact hp h
    · rw [e] at h; cases h
  obtain ⟨t, ht, hd⟩ := writeTagManifests_full (sum := E.sum) (algs := E.algs)
    (t := dset s.tree [py!"bag-info.txt"] (.file (fieldsText (tagFields s.info)))) (by
      intro a ha
      rw [isdir_of_dget (t' := s.tree) (by rw [dget_dset, if_neg (hne a).symm])]
      exact h2 a ha)
  refine ⟨t, by rw [hw]; simp only [ht], ?_, ?_⟩
  · refine nofile (by simp) (c := fieldsText (tagFields s.info)) ?_
    rw [(writeTagManifests_ok ht).1 _ (fun a _ => (hne a).symm), dget_dset, if_pos rfl]
  · intro a ha
    exact nofile (by simp [manPath]) (hd a ha)

theorem updateInfo_succeeds {E : SaveEnv} {s : HeadBag} (version : Option Str) (pv : Str)
    (h1 : s.tree.isdir [py!"bag-info.txt"] = false)
    (h2 : ∀ a ∈ E.algs, s.tree.isdir (manPath py!"tagmanifest" a) = false) :
    ∃ s', s.updateInfo E version pv = (.ok (), s') ∧ s'.tree.isdir [py!"bag-info.txt"] = false ∧
      (∀ a ∈ E.algs, s'.tree.isdir (manPath py!"tagmanifest" a) = false) := by
  unfold HeadBag.updateInfo
  obtain ⟨t, e, k1, k2⟩ := saveInfo_succeeds (E := E) (s := { s with info := headInfo version pv s.info }) h1 h2
  rw [e]
  simp only
  obtain ⟨t', e', k1', k2'⟩ := saveInfo_succeeds (E := E) (s := { s with
    info := dset (headInfo version pv s.info) py!"Bag-Size" (.one (E.size t)), tree := t }) k1 k2
  exact ⟨_, e', k1', k2'⟩

/-- C93: `update_info` of a bag that was opened succeeds unless a directory has the name of a tag manifest. -/
theorem C93_update_info_succeeds (E : SaveEnv) (cfg : ReadCfg) (t : Tree) (b : RBag) (hb : openBag cfg t = .ok b)
    (htag : b.tagFile = py!"bag-info.txt")
    (hd : ∀ a ∈ E.algs, t.isdir [py!"tagmanifest-" ++ a ++ py!".txt"] = false) (version : Option Str) (pv : Str) :
    ∃ s', (HeadBag.open t b.info).updateInfo E version pv = (.ok (), s') := by
  have h1 : t.isdir [py!"bag-info.txt"] = false := by
    obtain ⟨_, _, _, hi, _⟩ := openBag_parts hb
    rw [Bool.eq_false_iff]
    intro h
    rw [htag] at hi
    have he : t.exists [py!"bag-info.txt"] = true := by
      rcases isdir_iff.1 h with h | h
      · cases h
      · unfold Tree.exists; simp [h]
    rw [if_pos he] at hi
    unfold loadTagFile at hi
    have : t.read [py!"bag-info.txt"] = none := by
      rcases isdir_iff.1 h with h | h
      · cases h
      · rw [Tree.read, h]
    rw [this] at hi
    cases hi
  obtain ⟨s', e, _⟩ := updateInfo_succeeds (E := E) (s := HeadBag.open t b.info) version pv h1 (by
    intro a ha
    have := hd a ha
    unfold manPath
    show t.isdir _ = false
    simpa using this)
  exact ⟨s', e⟩

example : ∃ s', (HeadBag.open Sample.plainBag Sample.plainInfo).updateInfo Sample.sumEnv none py!"0.4" = (.ok (), s') := by
  obtain ⟨b, hb, _, hu, hi⟩ := Sample.plain_valid
  rw [← hi]
  exact C93_update_info_succeeds Sample.sumEnv Sample.readCfg _ b hb hu.tagFile (by decide) _ _

end Verif
