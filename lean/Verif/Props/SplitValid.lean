import Verif.Lemmas.SplitValid
import Verif.Props.SplitInfo
/-!
# C81: the bags a split makes are valid bags
-/

namespace Verif

open Spec

theorem loadTagFile_ok {sig : Bool} {t : Tree} {p : Path} {info : Info} (h : loadTagFile sig t p = .ok info) :
    ∃ l, Writable l ∧ info = loadTags l := by
  unfold loadTagFile at h
  split at h
  · cases h
  · split at h
    · cases h
    · next l hl => cases h; exact ⟨l, parseTags_loaded hl, rfl⟩

theorem source_info {cfg : ReadCfg} {t : Tree} {b : RBag} (h : openBag cfg t = .ok b) :
    ∃ l, Writable l ∧ b.info = loadTags l := by
  obtain ⟨_, _, _, hi, _⟩ := openBag_parts h
  split at hi
  · exact loadTagFile_ok hi
  · injection hi with hi; exact ⟨[], fun f hf => (by cases hf), hi.symm⟩

theorem valuesOf_reread (fs : List (Str × Str)) (k : Str) :
    valuesOf (fs.map (fun f => (f.1, reread f.2))) k = (valuesOf fs k).map reread := by
  unfold valuesOf
  rw [List.filter_map, List.map_map, List.map_map]
  rfl

/-- One output bag, given what is known of its files. -/
theorem split_bag_valid {hostOk : Str → Bool} {sum : Str → Str → Str} {blen : Str → Nat} {cfg : ReadCfg} {t : Tree}
    {b : RBag} (ho : openBag cfg t = .ok b) (hw : WfTree t) (hv : ValidBag hostOk sum blen cfg b)
    (hex : HexSum sum) (halg : cfg.algs.Nodup) (htag : b.tagFile = py!"bag-info.txt")
    {contents : List Str} {ishead : Bool} {t' : Tree} {path : Str}
    (hf : ∀ f ∈ contents, PlanEntry f) (hnh : ∀ f ∈ contents, ¬ HeadFile (comps f))
    (hnf : py!"fetch.txt" ∉ contents) (hnd : contents.Nodup) (hpl : ∀ f ∈ contents, PlainPath f)
    (hdang : ∀ f ∈ copied t contents, isDangerous cfg.env path f = false)
    (sb : SplitBag t contents ishead t')
    (hman : ∀ p, ManifestFile p →
        (t'.isfile p = true ↔ recorded (b.source cfg).hashes (copied t contents) p ≠ [] ∨
          ∃ a ∈ (b.source cfg).algs, p = [py!"manifest-" ++ a ++ py!".txt"]) ∧
        ∀ c, t'.read p = some c → c = (recorded (b.source cfg).hashes (copied t contents) p).flatten)
    {fs : List (Str × Str)} (hinfo : t'.read [py!"bag-info.txt"] = some (fieldsText fs)) (hwr : Writable fs)
    (hox : valuesOf fs py!"Payload-Oxum" = [] ∨ valuesOf fs py!"Payload-Oxum" =
      [natStr ((payload t').map (fun e => blen e.2)).sum ++ '.' :: natStr (payload t').length]) :
    ∃ b', openBag { cfg with bagpath := path } t' = .ok b' ∧
      b'.info = loadTags (fs.map (fun f => (f.1, reread f.2))) ∧ b'.tagFile = py!"bag-info.txt" ∧
      ValidBag hostOk sum blen { cfg with bagpath := path } b' := by
  obtain ⟨ht, hm, htf, _, tags, v, hb1, hb2, hb3, hb4, hb5⟩ := openBag_parts ho
  subst ht
  rw [htag] at htf
  -- bagit.txt
  have e1 : loadTagFile true t' [py!"bagit.txt"] = .ok tags := by
    rw [← hb1]; unfold loadTagFile; rw [sb.bagit.1]
  -- bag-info.txt
  have e2 : (if t'.exists [py!"bag-info.txt"] then loadTagFile false t' [py!"bag-info.txt"] else .ok []) =
      .ok (loadTags (fs.map (fun f => (f.1, reread f.2)))) := by
    rw [if_pos]
    · unfold loadTagFile
      rw [hinfo]
      simp only [Bool.false_eq_true, if_false]
      rw [parseTags_refold fs hwr]
    · refine (exists_iff (by simp)).2 ?_
      obtain ⟨c, hc⟩ := isfile_iff.1 sb.baginfo
      rw [hc]; simp
  -- the manifests
  let cfg' : ReadCfg := { cfg with bagpath := path }
  have hcop : ∀ f ∈ copied b.tree contents, f ∈ contents := fun f hf => (copied_mem.1 hf).1
  have hh : ∀ f ∈ copied b.tree contents, ∀ alg c, (alg, c) ∈ (b.source cfg).hashes f → Word c ∧ c.head? ≠ some bom := by
    intro f _ alg c hc
    obtain ⟨_, content, _, h1, h2, _⟩ := hashes_valid ho hv hc
    exact ⟨h2, head_not_bom hex h1⟩
  have hmt : manifestText cfg' b.version b.encoding t' = _ :=
    manifestText_split (cfg := cfg') (v := b.version) (enc := b.encoding) (t := t')
      (hashes := (b.source cfg).hashes) (fs := copied b.tree contents)
      (sa := (b.source cfg).algs) (by
        intro pay alg
        simp only
        cases pay with
        | true =>
          simp only [if_true, true_and]
          have := hman [py!"manifest-" ++ alg ++ py!".txt"] ⟨alg, .inl rfl⟩
          refine ⟨this.1.trans (or_congr Iff.rfl ⟨?_, fun h => ⟨alg, h, rfl⟩⟩), this.2⟩
          rintro ⟨a, ha, e⟩
          have : alg = a := by simpa using e
          exact this ▸ ha
        | false =>
          simp only [Bool.false_eq_true, if_false, false_and, or_false]
          have := hman [py!"tagmanifest-" ++ alg ++ py!".txt"] ⟨alg, .inr rfl⟩
          refine ⟨this.1.trans ⟨?_, .inl⟩, this.2⟩
          rintro (h | ⟨a, _, e⟩)
          · exact h
          · simp at e) hh (fun f hf => (hpl f (hcop f hf)).nobreak)
  have hmem : ∀ alg line, (alg, line) ∈ manifestText cfg' b.version b.encoding t' ↔
      alg ∈ cfg.algs ∧ ∃ f ∈ copied b.tree contents, (isPayload f = true ∨ tupLt b.version [0, 97] = false) ∧
        ∃ c, (alg, c) ∈ (b.source cfg).hashes f ∧ line = c ++ ' ' :: f ++ ['\n'] := by
    intro alg line
    rw [hmt]; exact mem_manifestText_split (cfg := cfg')
  have hlist : ∀ f ∈ copied b.tree contents, ∀ alg c, (alg, c) ∈ (b.source cfg).hashes f → ∀ c' p,
      Lists (c ++ ' ' :: f ++ ['\n']) c' p ↔ c' = c ∧ p = f := by
    intro f hf alg c hc c' p
    obtain ⟨_, content, _, _, h2, h3⟩ := hashes_valid ho hv hc
    exact C70_plain_line h2 h3 (hpl f (hcop f hf)) c' p
  obtain ⟨⟨algs', es'⟩, hload⟩ : ∃ r, loadManifests cfg' b.version b.encoding t' = .ok r := by
    refine (C70_accepts cfg' b.version b.encoding t').2 ⟨?_, ?_⟩
    · intro alg line hl c p hlp
      obtain ⟨_, f, hf, _, c1, h1, rfl⟩ := (hmem alg line).1 hl
      obtain ⟨rfl, rfl⟩ := (hlist f hf alg c1 h1 c p).1 hlp
      exact hdang _ hf
    · rw [hmt]
      refine pairwise_split halg (List.Nodup.sublist List.filter_sublist hnd) (hashes_nodup ho) ?_
      intro f hf alg c hc
      obtain ⟨_, content, _, _, h2, h3⟩ := hashes_valid ho hv hc
      exact ⟨h2, h3, hpl f (hcop f hf)⟩
  have hopen := openBag_of_parts (cfg := cfg') (t := t') sb.bagit.2 e1 hb2 hb3 htf hb4 hb5 e2 hload
  refine ⟨_, hopen, rfl, rfl, ?_⟩
  -- files of the bag
  have hgood : ∀ f ∈ contents, ∃ p, GoodPath p ∧ f = joinPath p ∧ comps f = p := by
    intro f hfc
    obtain ⟨p, h1, rfl, _⟩ := hf f hfc
    exact ⟨p, h1, rfl, comps_joinPath h1⟩
  have hread : ∀ f ∈ contents, ∀ c, b.tree.read (comps f) = some c → t'.read (comps f) = some c :=
    fun f hfc c hc => sb.files f hfc c hc (fun h => hnh f hfc h.2)
  have hpayl : ∀ p c, (p, c) ∈ payload t' → ∃ f ∈ contents, comps f = p ∧ f = joinPath p ∧ b.tree.read p = some c := by
    intro p c hp
    obtain ⟨h1, h2⟩ := (mem_payload sb.wf).1 hp
    rcases sb.only p (isfile_of_read h1) with ⟨h3, f, hfc, e⟩ | h3 | ⟨_, h3⟩
    · obtain ⟨q, _, e1, e2⟩ := hgood f hfc
      refine ⟨f, hfc, e, by rw [e1, ← e2, e], ?_⟩
      rw [isfile_read] at h3
      obtain ⟨c', hc'⟩ := Option.isSome_iff_exists.1 h3
      rw [← e] at hc' h1
      rw [hread f hfc c' hc'] at h1
      rw [← e, hc', h1]
    · rcases h3 with rfl | rfl | ⟨a, rfl | rfl⟩ <;> simp at h2
    · rcases h3 with rfl | rfl | rfl <;> simp at h2
  have hdata : t'.isdir [py!"data"] = true := (sb.dirs _).2 (.inr (.inl rfl))
  refine ⟨hdata, ?_, ?_, ?_, ?_, ?_, ?_, ?_⟩
  · obtain ⟨a, ha, hfile⟩ := hv.manifest
    refine ⟨a, ha, (hman _ ⟨a, .inl rfl⟩).1.2 (.inr ⟨a, ?_, rfl⟩)⟩
    unfold RBag.source manifestFiles
    simp only [List.mem_map, List.mem_filter, Prod.exists]
    exact ⟨a, _, ⟨⟨a, ha, rfl⟩, hfile⟩, rfl⟩
  · intro text ht
    exact hv.nobom text (by rw [← sb.bagit.1]; exact ht)
  · intro text ht
    exfalso
    rcases sb.only _ (isfile_of_read ht) with ⟨_, f, hfc, e⟩ | h3 | ⟨_, h3⟩
    · obtain ⟨q, _, e1, e2⟩ := hgood f hfc
      rw [e] at e2
      rw [← e2] at e1
      rw [e1] at hfc
      exact hnf hfc
    · rcases h3 with h3 | h3 | ⟨a, h3 | h3⟩
      · exact absurd h3 (by decide)
      · exact absurd h3 (by decide)
      · simp at h3
      · simp at h3
    · rcases h3 with h3 | h3 | h3 <;> exact absurd h3 (by decide)
  · -- the oxum
    intro v hov
    have hfl := fields_loadTags (fs.map (fun f => (f.1, reread f.2))) py!"Payload-Oxum"
    rw [valuesOf_reread] at hfl
    unfold fields at hfl
    simp only at hov
    rw [hov] at hfl
    simp only at hfl
    rcases hox with hox | hox
    · rw [hox] at hfl
      have := loaded_loadTags _ _ _ hov
      cases v with
      | one s => cases hfl
      | many l => simp only [InfoVal.values, List.map_nil] at hfl; rw [hfl] at this; simp at this
    · rw [hox] at hfl
      simp only [List.map_cons, List.map_nil, (oneLine_oxum _ _).reread] at hfl
      have hv1 : v = .one (natStr ((payload t').map (fun e => blen e.2)).sum ++ '.' :: natStr (payload t').length) := by
        have := loaded_loadTags _ _ _ hov
        cases v with
        | one s => simp only [InfoVal.values, List.cons.injEq, and_true] at hfl; rw [hfl]
        | many l => simp only [InfoVal.values] at hfl; rw [hfl] at this; simp at this
      rw [hv1] at hov
      have := (C72_written (b := ⟨t', b.version, b.encoding, py!"bag-info.txt",
        loadTags (fs.map (fun f => (f.1, reread f.2))), algs', es'⟩) sb.wf hdata blen hov).2 ⟨rfl, rfl⟩
      rw [hv1]
      exact (oxum_iff sb.wf hdata blen).1 this _ hov
  · intro p c hp
    obtain ⟨f, hfc, e, e', hr⟩ := hpayl p c hp
    have hpay : (p, c) ∈ payload b.tree := (mem_payload hw).2 ⟨hr, ((mem_payload sb.wf).1 hp).2⟩
    obtain ⟨alg, line, s, h1, h2⟩ := hv.listed p c hpay
    have h3 := (hashes_look ho).2 ((C70_loads hm (joinPath p) alg s).2 ⟨line, h1, h2⟩)
    have hfcop : f ∈ copied b.tree contents := copied_mem.2 ⟨hfc, by rw [e]; exact isfile_of_read hr⟩
    refine ⟨alg, s ++ ' ' :: f ++ ['\n'], s, (hmem _ _).2 ⟨manifestText_alg h1, f, hfcop, .inl ?_, s, e' ▸ h3, rfl⟩, ?_⟩
    · rw [e']; exact payload_isPayload sb.wf hdata hp
    · rw [← e']; exact (hlist f hfcop alg s (e' ▸ h3) s f).2 ⟨rfl, rfl⟩
  · rintro p ⟨alg, line, s, h1, h2⟩ hp
    obtain ⟨_, f, hfc, _, c1, h3, rfl⟩ := (hmem alg line).1 h1
    obtain ⟨_, rfl⟩ := (hlist f hfc alg c1 h3 s p).1 h2
    obtain ⟨q, hq, e, e'⟩ := hgood _ (hcop _ hfc)
    have hfile := (copied_mem.1 hfc).2
    rw [isfile_read] at hfile
    obtain ⟨c, hc⟩ := Option.isSome_iff_exists.1 hfile
    refine ⟨q, c, (mem_payload sb.wf).2 ⟨?_, ?_⟩, e⟩
    · have := hread _ (hcop _ hfc) c hc
      rw [e'] at this; exact this
    · rw [e] at hp; exact ((isPayload_iff hq).1 hp).1
  · intro alg line s p h1 h2
    obtain ⟨_, f, hfc, _, c1, h3, rfl⟩ := (hmem alg line).1 h1
    obtain ⟨rfl, rfl⟩ := (hlist f hfc alg c1 h3 s p).1 h2
    obtain ⟨_, content, h4, h5, _⟩ := hashes_valid ho hv h3
    exact ⟨content, hread _ (hcop _ hfc) content h4, h5⟩

/-- Payload-Oxum of an output bag, whether or not it is passed on. -/
theorem valuesOf_oxum' {S : Source} {o : ApplyOpts} {n : Str} {ishead : Bool} {size count : Nat} {fs : List (Str × Str)}
    (hn : (dkeys S.info).Nodup) (h : bagInfoFields S o n ishead size count = .ok fs) :
    valuesOf fs py!"Payload-Oxum" = [] ∨ valuesOf fs py!"Payload-Oxum" = [natStr size ++ '.' :: natStr count] := by
  by_cases hp : py!"Payload-Oxum" ∈ o.nopass
  · exact .inl (C40_nopass h _ hp (by decide) (by decide))
  · rw [valuesOf_oxum hn h hp]
    split
    · exact .inr rfl
    · exact .inl rfl

/-- The bags that a split makes of a valid bag, and what they are when opened. -/
theorem split_outputs {hostOk : Str → Bool} {sum : Str → Str → Str} {blen : Str → Nat} {cfg : ReadCfg} {t : Tree}
    {b : RBag} (ho : openBag cfg t = .ok b) (hw : WfTree t)
    (hv : bagValidate hostOk sum blen cfg b = .ok ())
    (hex : HexSum sum) (halg : cfg.algs.Nodup) (hslash : ∀ a ∈ cfg.algs, '/' ∉ a) (htag : b.tagFile = py!"bag-info.txt")
    {o : ApplyOpts} {plan : List Manifest} {names : List Str} {d d' : CopyDisk} (hsrc : d.src = t)
    (hf : ∀ m ∈ plan, ∀ f ∈ m.contents, PlanEntry f ∧ PlainPath f ∧ ¬ HeadFile (comps f) ∧ f ≠ py!"fetch.txt")
    (hnd : ∀ m ∈ plan, m.contents.Nodup)
    (hnames : ∀ n ∈ names, OneLineValue n) (hmnames : ∀ m ∈ plan, ∀ n, m.name = some n → OneLineValue n)
    (hver : OneLineValue o.headVersion) (hdep : ∀ x ∈ o.deprecates, OneLineValue (deprecateValue x))
    (h : applyPlan copyFS (b.source cfg) blen o plan names d = .ok d') :
    ∃ bags : List (Str × Tree), d'.done = d.done ++ bags ∧ bags.length = plan.length ∧
      ∀ (i : Nat) m n t', plan[i]? = some m → bags[i]? = some (n, t') →
        SplitBag t m.contents (decide (i + 1 = plan.length)) t' ∧
        (∀ p, ManifestFile p →
          (t'.isfile p = true ↔ recorded (b.source cfg).hashes (copied t m.contents) p ≠ [] ∨
            ∃ a ∈ (b.source cfg).algs, p = [py!"manifest-" ++ a ++ py!".txt"]) ∧
          ∀ c, t'.read p = some c → c = (recorded (b.source cfg).hashes (copied t m.contents) p).flatten) ∧
        (i + 1 = plan.length → t'.read mb3 = some (translateNl ((t.read [py!"bag-info.txt"]).getD []))) ∧
        ∃ size count fs, bagInfoFields (b.source cfg) o n (decide (i + 1 = plan.length)) size count = .ok fs ∧
          Writable fs ∧
          ∀ path, (∀ p, t'.isfile p = true → isDangerous cfg.env path (joinPath p) = false) →
            ∃ b', openBag { cfg with bagpath := path } t' = .ok b' ∧
              b'.info = loadTags (fs.map (fun f => (f.1, reread f.2))) ∧ b'.tagFile = py!"bag-info.txt" ∧
              ValidBag hostOk sum blen { cfg with bagpath := path } b' := by
  have hval := (C80_valid_iff ho hw hostOk sum blen).1 hv
  obtain ⟨htt, _⟩ := openBag_parts ho
  have hst : (b.source cfg).tree = t := htt
  have hf1 : ∀ m ∈ plan, ∀ f ∈ m.contents, PlanEntry f := fun m hm f hfm => (hf m hm f hfm).1
  have ha : ∀ f, ∀ ah ∈ (b.source cfg).hashes f, '/' ∉ ah.1 :=
    fun f ah hh => hslash _ (hashes_valid ho hval hh).1
  have hal : ∀ a ∈ (b.source cfg).algs, '/' ∉ a := by
    intro a hma
    unfold RBag.source manifestFiles at hma
    simp only [List.mem_map, List.mem_filter] at hma
    obtain ⟨_, ⟨⟨a', ha', rfl⟩, _⟩, rfl⟩ := hma
    exact hslash _ ha'
  obtain ⟨l, hl, hli⟩ := source_info ho
  have hinfo : ∀ e ∈ (b.source cfg).info, LoadedLabel e.1 ∧ ∀ v ∈ e.2.values, Foldable v := by
    show ∀ e ∈ b.info, _
    rw [hli]; exact loadTags_values hl
  have hkeys : (dkeys (b.source cfg).info).Nodup := by
    show (dkeys b.info).Nodup
    rw [hli]; exact nodup_loadTags l
  obtain ⟨_, _, _, bags, _, h2, h3, _, _, h6⟩ := applyPlan_copy (hst ▸ hsrc) hf1 ha h
  obtain ⟨bags2, h2', _, h37⟩ := C37_manifest_lines (hst ▸ hsrc) hf1 ha h
  have : bags2 = bags := List.append_cancel_left (h2'.symm.trans h2)
  subst this
  refine ⟨bags2, h2, h3, ?_⟩
  intro i m n t' hm hi
  obtain ⟨n', t'', fields, hb', hn, B⟩ := h6 i _ hm
  rw [hi] at hb'
  cases hb'
  have hmem := List.mem_of_getElem? hm
  have hline : OneLineValue n := by
    cases hni : names[i]? with
    | none => rw [hni] at hn; exact hmnames _ hmem n hn
    | some x => rw [hni] at hn; cases hn; exact hnames _ (List.mem_of_getElem? hni)
  have sb := B.splitBag hal (hf1 _ hmem)
  rw [hst] at sb
  have perm := bag_payload B hal (hf1 _ hmem) (hnd _ hmem)
  have hox := valuesOf_oxum' hkeys B.info
  have e1 : ((payload t').map (fun e => blen e.2)).sum =
      (payloadSizes blen (b.source cfg).tree (copied (b.source cfg).tree m.contents)).sum := by
    rw [(perm.map (fun e => blen e.2)).sum_nat, List.map_map]
    rfl
  have e2 : (payload t').length = ((copied (b.source cfg).tree m.contents).filter isPayload).length := by
    rw [perm.length_eq, List.length_map]
  rw [← e1, ← e2] at hox
  have hman : ∀ p, ManifestFile p → _ := fun p hp => h37 i m n t' hm hi p hp
  rw [hst] at hman
  refine ⟨sb, hman, ?_, _, _, _, B.info, writable_bagInfoFields B.info hline hinfo hver hdep, fun path hpath => ?_⟩
  · intro hi1
    rw [B.read, if_neg (fun h => absurd h.2 (by decide)), if_neg (fun h => absurd h.2 (by decide)),
      if_pos ⟨decide_eq_true hi1, rfl⟩, hst]
    rfl
  exact split_bag_valid (path := path) ho hw hval hex halg htag
    (hf1 _ hmem) (fun f hfm => (hf _ hmem f hfm).2.2.1) (fun hfm => (hf _ hmem _ hfm).2.2.2 rfl) (hnd _ hmem)
    (fun f hfm => (hf _ hmem f hfm).2.1) (by
      intro f hfc
      obtain ⟨h1, h2⟩ := copied_mem.1 hfc
      obtain ⟨p, hp, rfl, _⟩ := hf1 _ hmem f h1
      rw [comps_joinPath hp, isfile_read] at h2
      obtain ⟨c, hc⟩ := Option.isSome_iff_exists.1 h2
      have hr := sb.files _ h1 c (by rw [comps_joinPath hp]; exact hc) (fun hh => (hf _ hmem _ h1).2.2.1 hh.2)
      rw [comps_joinPath hp] at hr
      exact hpath p (isfile_of_read hr)) sb
    hman
    (bag_baginfo B) (writable_bagInfoFields B.info hline hinfo hver hdep) hox

/-- C81: every bag that a split makes of a valid bag is itself a valid bag, wherever it is put.
Missing: paths that cannot be listed in a manifest, old versions of BagIt, lists of files to fetch, a bag that is a head bag
already, and plans that list a file twice for a bag (`C81_negation_linebreak`, `C81_negation_old_version`,
`C81_negation_fetch`, `C81_negation_head`, `C81_negation_twice`). -/
theorem C81_split_valid_partial {hostOk : Str → Bool} {sum : Str → Str → Str} {blen : Str → Nat} {cfg : ReadCfg} {t : Tree}
    {b : RBag} (ho : openBag cfg t = .ok b) (hw : WfTree t)
    (hv : bagValidate hostOk sum blen cfg b = .ok ())
    (hex : HexSum sum) (halg : cfg.algs.Nodup) (hslash : ∀ a ∈ cfg.algs, '/' ∉ a) (htag : b.tagFile = py!"bag-info.txt")
    {o : ApplyOpts} {plan : List Manifest} {names : List Str} {d d' : CopyDisk} (hsrc : d.src = t)
    (hf : ∀ m ∈ plan, ∀ f ∈ m.contents, PlanEntry f ∧ PlainPath f ∧ ¬ HeadFile (comps f) ∧ f ≠ py!"fetch.txt")
    (hnd : ∀ m ∈ plan, m.contents.Nodup)
    (hnames : ∀ n ∈ names, OneLineValue n) (hmnames : ∀ m ∈ plan, ∀ n, m.name = some n → OneLineValue n)
    (hver : OneLineValue o.headVersion) (hdep : ∀ x ∈ o.deprecates, OneLineValue (deprecateValue x))
    (h : applyPlan copyFS (b.source cfg) blen o plan names d = .ok d') :
    ∃ bags : List (Str × Tree), d'.done = d.done ++ bags ∧ bags.length = plan.length ∧
      ∀ n t', (n, t') ∈ bags → ∀ path,
        (∀ p, t'.isfile p = true → isDangerous cfg.env path (joinPath p) = false) →
        ∃ b', openBag { cfg with bagpath := path } t' = .ok b' ∧
          bagValidate hostOk sum blen { cfg with bagpath := path } b' = .ok () := by
  obtain ⟨bags, h1, h2, h3⟩ := split_outputs ho hw hv hex halg hslash htag hsrc hf hnd hnames hmnames hver hdep h
  refine ⟨bags, h1, h2, ?_⟩
  intro n t' hb path hpath
  obtain ⟨i, hi⟩ := List.mem_iff_getElem?.1 hb
  have hil : i < plan.length := by rw [← h2]; exact (List.getElem?_eq_some_iff.1 hi).1
  obtain ⟨sb, _, _, _, _, _, _, _, hop⟩ := h3 i _ n t' (List.getElem?_eq_getElem hil) hi
  obtain ⟨b', hb1, _, _, hb4⟩ := hop path hpath
  exact ⟨b', hb1, (C80_valid_iff hb1 sb.wf hostOk sum blen).2 hb4⟩

/-- Opening and validating a bag that lies at `/out`. -/
def Sample.outVerdict (cfg : ReadCfg) (t : Tree) : Except PyErr Unit :=
  match openBag { cfg with bagpath := py!"/out" } t with
  | .ok b => bagValidate (fun _ => true) Sample.sum List.length { cfg with bagpath := py!"/out" } b
  | .error e => .error e

/-- What is asked of the source and its split, and what the outputs validate to. -/
def Sample.splitVerdicts (t : Tree) (plan : List Manifest) : Option (Except PyErr Unit × List (Except PyErr Unit)) :=
  match openBag Sample.readCfg t with
  | .error _ => none
  | .ok b =>
    match applyPlan copyFS (b.source Sample.readCfg) List.length {} plan [] { src := t } with
    | .error _ => none
    | .ok d => some (bagValidate (fun _ => true) Sample.sum List.length Sample.readCfg b,
        d.done.map (fun e => Sample.outVerdict Sample.readCfg e.2))

theorem Sample.hexSum : HexSum Sample.sum := by
  intro alg c x hx
  unfold Sample.sum at hx
  rcases List.mem_cons.1 hx with rfl | hx
  · decide
  · have := isDigit_natStr hx
    unfold Char.isDigit at this
    simp only [Bool.and_eq_true, decide_eq_true_eq] at this
    have h2 : x.toNat ≤ 57 := this.2
    omega

theorem Sample.plain_data {n : Str} (h0 : n ≠ [] ∧ '/' ∉ n ∧ n ≠ ['.'] ∧ n ≠ ['.', '.'])
    (hc : ∀ c ∈ n, isNl c = false ∧ c ≠ '%') (hl : ∀ c ∈ n.getLast?, isSpace c = false) :
    PlanEntry (py!"data/" ++ n) ∧ PlainPath (py!"data/" ++ n) ∧ ¬ HeadFile (comps (py!"data/" ++ n)) ∧
      py!"data/" ++ n ≠ py!"fetch.txt" := by
  have hg : GoodPath [py!"data", n] := by
    refine ⟨by simp, ?_⟩
    intro c hc
    rcases List.mem_cons.1 hc with rfl | hc
    · exact ⟨by decide, by decide, by decide, by decide⟩
    · rcases List.mem_cons.1 hc with rfl | hc
      · exact ⟨h0.1, h0.2.1, h0.2.2.1, h0.2.2.2⟩
      · cases hc
  have e : py!"data/" ++ n = joinPath [py!"data", n] := by simp [joinPath, joinWith]
  refine ⟨⟨_, hg, e, ?_⟩, ⟨⟨_, hg, e⟩, ⟨?_, ?_⟩, ?_, ?_, ?_⟩, ?_, ?_⟩
  · rintro (h | h | ⟨a, h | h⟩) <;> simp at h
  · intro c hh; simp at hh; subst hh; decide
  · intro c hh
    apply hl c
    cases n with
    | nil => exact absurd rfl h0.1
    | cons x xs => simpa using hh
  · intro c hh
    rcases List.mem_append.1 hh with hh | hh
    · exact (show ∀ c ∈ py!"data/", isNl c = false by decide) c hh
    · exact (hc c hh).1
  · simp
  · intro hh
    rcases List.mem_append.1 hh with hh | hh
    · exact absurd hh (by decide)
    · exact (hc _ hh).2 rfl
  · rw [e, comps_joinPath hg]
    rintro (h | h | h) <;> simp at h
  · simp

def Sample.halves : List Manifest :=
  [{ name := some py!"b1", contents := [py!"data/a b"] }, { name := some py!"b2", contents := [py!"data/c"] }]

/-- The hypotheses of `C81_split_valid_partial` are met by a valid bag split in two. -/
example : ∃ b, openBag Sample.readCfg Sample.goodTree = .ok b ∧ WfTree Sample.goodTree ∧
    bagValidate (fun _ => true) Sample.sum List.length Sample.readCfg b = .ok () ∧ HexSum Sample.sum ∧
    Sample.readCfg.algs.Nodup ∧ (∀ a ∈ Sample.readCfg.algs, '/' ∉ a) ∧ b.tagFile = py!"bag-info.txt" ∧
    (∀ m ∈ Sample.halves, ∀ f ∈ m.contents, PlanEntry f ∧ PlainPath f ∧ ¬ HeadFile (comps f) ∧ f ≠ py!"fetch.txt") ∧
    (∀ m ∈ Sample.halves, m.contents.Nodup) ∧
    (∀ m ∈ Sample.halves, ∀ n, m.name = some n → OneLineValue n) ∧ OneLineValue py!"1" ∧
    (applyPlan copyFS (b.source Sample.readCfg) List.length {} Sample.halves [] { src := Sample.goodTree }).toOption.map
      (fun d' => d'.done.length = 2 ∧
        ∀ e ∈ d'.done, ∀ x ∈ e.2, isDangerous Sample.readCfg.env py!"/out" (joinPath x.1) = false) = some True := by
  refine ⟨_, rfl, Sample.wf_of_check (by decide), by decide +kernel, Sample.hexSum, by decide, by decide, rfl, ?_, by decide,
    ?_, ⟨by decide, by simp; decide, by simp; decide⟩, ?_⟩
  · intro m hm f hf
    have : f = py!"data/a b" ∨ f = py!"data/c" := by
      rcases List.mem_cons.1 hm with rfl | hm
      · left; simpa using hf
      · rcases List.mem_cons.1 hm with rfl | hm
        · right; simpa using hf
        · cases hm
    rcases this with rfl | rfl
    · exact Sample.plain_data (n := py!"a b") (by decide) (by decide) (by decide)
    · exact Sample.plain_data (n := py!"c") (by decide) (by decide) (by decide)
  · intro m hm n hn
    have : n = py!"b1" ∨ n = py!"b2" := by
      rcases List.mem_cons.1 hm with rfl | hm
      · left; simpa using hn.symm
      · rcases List.mem_cons.1 hm with rfl | hm
        · right; simpa using hn.symm
        · cases hm
    rcases this with rfl | rfl <;> exact ⟨by decide, by simp; decide, by simp; decide⟩
  · have e : ∀ p : Prop, p → p = True := fun p h => eq_true h
    refine congrArg some (e _ ?_)
    decide +kernel

/-- A valid bag with a payload file whose name has a line break, encoded in the manifest. -/
def Sample.breakTree : Tree :=
  [([py!"bagit.txt"], .file py!"BagIt-Version: 0.97\nTag-File-Character-Encoding: UTF-8\n"),
   ([py!"bag-info.txt"], .file py!"Payload-Oxum: 5.2\n"),
   ([py!"data"], .dir), ([py!"data", py!"a\nb"], .file py!"xyz"), ([py!"data", py!"c"], .file py!"uv"),
   ([py!"manifest-md5.txt"], .file py!"d3 data/a%0Ab\nd2 data/c\n")]

/-- C81 fails for file names with line breaks: a split writes the name into the new manifest as it
is, and the output bag is invalid. -/
theorem C81_negation_linebreak :
    Sample.splitVerdicts Sample.breakTree [{ name := some py!"b1", contents := [py!"data/a\nb"] },
      { name := some py!"b2", contents := [py!"data/c"] }] =
    some (.ok (), [.error .bagValidationError, .ok ()]) := by
  decide +kernel

/-- A valid bag of version 0.95, whose metadata file has another name. -/
def Sample.packageTree : Tree :=
  [([py!"bagit.txt"], .file py!"BagIt-Version: 0.95\nTag-File-Character-Encoding: UTF-8\n"),
   ([py!"package-info.txt"], .file py!"Payload-Oxum: 5.2\n"), ([py!"bag-info.txt"], .file py!""),
   ([py!"data"], .dir), ([py!"data", py!"a"], .file py!"xyz"), ([py!"data", py!"c"], .file py!"uv"),
   ([py!"manifest-md5.txt"], .file py!"d3 data/a\nd2 data/c\n")]

/-- C81 fails for bags of version 0.93 to 0.95: package-info.txt is copied like a tag file, with the
Payload-Oxum of the source. -/
theorem C81_negation_old_version :
    Sample.splitVerdicts Sample.packageTree [{ name := some py!"b1", contents := [py!"data/a"] },
      { name := some py!"b2", contents := [py!"data/c", py!"package-info.txt"] }] =
    some (.ok (), [.ok (), .error .bagValidationError]) := by
  decide +kernel

/-- C81 fails for a bag with a fetch.txt: it is copied into one of the bags, where the files it lists
are not in the manifest. -/
theorem C81_negation_fetch :
    Sample.splitVerdicts (dset Sample.goodTree [py!"fetch.txt"] (.file py!"http://x 3 data/a b\n"))
      [{ name := some py!"b1", contents := [py!"data/a b"] },
       { name := some py!"b2", contents := [py!"data/c", py!"fetch.txt"] }] =
    some (.ok (), [.ok (), .error .bagValidationError]) := by
  decide +kernel

/-- C81 fails for a head bag with tag manifest when its member list goes into the new head: the checksum
of the old list is recorded for the new one. -/
theorem C81_negation_head :
    Sample.splitVerdicts (dset (dset (dset (dset (dset Sample.goodTree
        [py!"bag-info.txt"] (.file py!"Multibag-Version: 0.4\nMultibag-Head-Version: 1\nMultibag-Tag-Directory: multibag\n"))
        [py!"multibag"] .dir)
        [py!"multibag", py!"member-bags.tsv"] (.file py!"b0\nhd\n"))
        [py!"multibag", py!"file-lookup.tsv"] (.file py!"data/c\tb0\n"))
        [py!"tagmanifest-md5.txt"] (.file py!"d6 multibag/member-bags.tsv\n"))
      [{ name := some py!"b1", contents := [py!"data/a b"] },
       { name := some py!"b2", contents := [py!"data/c", py!"multibag/member-bags.tsv"] }] =
    some (.ok (), [.ok (), .error .bagValidationError]) := by
  decide +kernel

/-- C81 fails for a plan that lists a payload file twice for one bag: it is copied once but counted twice in the
Payload-Oxum. -/
theorem C81_negation_twice :
    Sample.splitVerdicts (dset Sample.goodTree [py!"bag-info.txt"] (.file py!"Payload-Oxum: 5.2\n"))
      [{ name := some py!"b1", contents := [py!"data/a b"] },
       { name := some py!"b2", contents := [py!"data/c", py!"data/c"] }] =
    some (.ok (), [.ok (), .error .bagValidationError]) := by
  decide +kernel

end Verif
