import Verif.Lemmas.RestoreInfo
import Verif.Props.Restore
/-!
# Metadata of a restored bag: C49 and C50
-/

namespace Verif

open Spec

/-! ## C49: the metadata -/

theorem fieldsText_no_cr {fs : List (Str × Str)} (h : ∀ f ∈ fs, CleanTag f) : '\r' ∉ fieldsText fs := by
  unfold fieldsText
  intro hc
  obtain ⟨l, hl, hc⟩ := List.mem_flatten.1 hc
  obtain ⟨f, hf, rfl⟩ := List.mem_map.1 hl
  have h1 : isBreak '\r' = true := by decide
  simp only [List.mem_append, List.mem_cons, List.mem_singleton] at hc
  rcases hc with (hc | hc | hc | hc) | hc
  · have := (h f hf).label.nobreak _ hc
    rw [h1] at this; cases this
  · exact absurd hc (by decide)
  · exact absurd hc (by decide)
  · have := (h f hf).nobreak _ hc
    rw [h1] at this; cases this
  · exact absurd hc (by decide)

theorem copiedText_clean {fs : List (Str × Str)} (h : CleanTags fs) (mode : TextMode) :
    copiedText mode (fieldsText fs) = fieldsText fs := by
  cases mode with
  | universal => exact translateNl_clean (fieldsText_no_cr (fun f hf => (h f hf).1))
  | codecs =>
    simp only [copiedText]
    cases fs with
    | nil => rfl
    | cons f fs =>
      have h1 := (h f List.mem_cons_self).1.label.nonempty
      have h2 := (h f List.mem_cons_self).2
      cases hf : f.1 with
      | nil => exact absurd hf h1
      | cons x r =>
        rw [hf] at h2
        simp only [List.head?_cons, ne_eq, Option.some.injEq] at h2
        simp [fieldsText, hf, dropBom, h2]

/-- The metadata file of the restored bag, for any metadata of the aggregation that can be read. -/
theorem restored_info_text {E : RestoreEnv} (hE : EnvOk E) {H : RHead} {srcs : List RSource} (hA : Aggregation E H srcs)
    {c : Str} {fs : List (Str × Str)} (hagg : H.tree.read [py!"multibag", py!"aggregation-info.txt"] = some c)
    (hfs : parseTags .universal (copiedText H.mode c) = .ok fs)
    {us rm : Bool} (hur : us = true ∨ rm = true) {d out : Tree} (h : restore E H us rm d = .ok out) {b : RBag}
    (hb : openBag E.base out = .ok b) (htag : b.tagFile = py!"bag-info.txt") :
    ∃ info', finalInfo E us rm (loadTags fs) info' out ∧ out.read [py!"bag-info.txt"] = some (fieldsText (tagFields info')) := by
  obtain ⟨ms, h1, h2⟩ := aggregation_parts hA
  obtain ⟨deleted, ms', d1, d2, d3, e1, e2, e3, e4, e5, e6⟩ := restore_parts h
  rw [h1] at e2
  cases e2
  obtain ⟨d0, i1, i2, hl, i3⟩ := restore_list h2 e3 e4
  have hnil : [] ∉ pySet deleted := by
    rw [mem_pySet]; exact nil_notMem_deleted e1
  have hsrc : ∀ s ∈ sourcesOf E H srcs.reverse, WfTree s.tree ∧ s.path ≠ E.base.bagpath := by
    intro s hx
    unfold sourcesOf at hx
    split at hx
    · rw [List.mem_reverse] at hx
      exact ⟨hA.wf s hx, hA.outside s hx⟩
    · rename_i hne
      rcases List.mem_cons.1 hx with rfl | hx
      · exact ⟨hA.head, hne⟩
      · rw [List.mem_reverse] at hx
        exact ⟨hA.wf s hx, hA.outside s hx⟩
  have b0 := i3 _ hagg
  have hbi : ¬ ManifestFile [py!"bag-info.txt"] := by rintro ⟨a, h | h⟩ <;> simp at h
  have b2 := (restoreList_read hE hnil hsrc hl (by decide) hbi).1 (by rw [b0]; simp)
  rw [b0] at b2
  have b3 : d3.read [py!"bag-info.txt"] = some (copiedText H.mode c) := by
    rw [Tree.read, (fetchStep_frame e5).1 _ (by decide), b2]
  obtain ⟨f1, _, _, f4, _, bd, hbd, info', hfin, hread⟩ := finishRestore_spec e6
  -- the version is the same before and after the last part
  have hbt : dget out [py!"bagit.txt"] = dget d3 [py!"bagit.txt"] := f1 _ (by
    rintro (h | h | h | ⟨a, h | h⟩ | ⟨r, h⟩) <;> simp at h)
  obtain ⟨_, _, t1, t2, tags, v, t3, t4, t5, _⟩ := openBag_parts hb
  obtain ⟨_, _, u1, u2, tags', v', u3, u4, u5, _⟩ := openBag_parts hbd
  have htl : loadTagFile true out [py!"bagit.txt"] = loadTagFile true d3 [py!"bagit.txt"] := by
    unfold loadTagFile
    rw [read_of_dget hbt]
  rw [htl, u3] at t3
  cases t3
  rw [u4] at t4
  cases t4
  rw [u5] at t5
  have hver : bd.version = b.version := Option.some.inj t5
  have htf : bd.tagFile = py!"bag-info.txt" := by
    rw [hver, t1] at u1
    rw [← htag]
    exact (Option.some.inj u1).symm
  rw [htf] at u2 hread
  have hex : d3.exists [py!"bag-info.txt"] = true := by
    rw [exists_iff (by decide)]
    intro hn
    rw [Tree.read, hn] at b3; cases b3
  rw [if_pos hex] at u2
  have hload : loadTagFile false d3 [py!"bag-info.txt"] = .ok (loadTags fs) := by
    unfold loadTagFile
    rw [b3]
    simp only [Bool.false_eq_true, if_false]
    rw [hfs]
  rw [hload] at u2
  rw [← Except.ok.inj u2] at hfin
  refine ⟨info', ?_, hread hur⟩
  have : oxumText E.blen d3 = oxumText E.blen out := by unfold oxumText; rw [f4]
  unfold finalInfo at hfin ⊢
  rw [← this]
  exact hfin

/-- The text of the metadata file of the restored bag, and where it comes from. -/
theorem restored_info {E : RestoreEnv} (hE : EnvOk E) {H : RHead} {srcs : List RSource} (hA : Aggregation E H srcs)
    {fs : List (Str × Str)} (hfs : CleanTags fs) (hagg : H.tree.read [py!"multibag", py!"aggregation-info.txt"] = some (fieldsText fs))
    {us rm : Bool} (hur : us = true ∨ rm = true) {d out : Tree} (h : restore E H us rm d = .ok out) {b : RBag}
    (hb : openBag E.base out = .ok b) (htag : b.tagFile = py!"bag-info.txt") :
    ∃ info', finalInfo E us rm (loadTags fs) info' out ∧ out.read [py!"bag-info.txt"] = some (fieldsText (tagFields info')) := by
  refine restored_info_text hE hA hagg ?_ hur h hb htag
  rw [copiedText_clean hfs, parseTags_fieldsText .universal fs (fun f hf => (hfs f hf).1)]
  intro f hf
  exact (hfs f (List.mem_of_mem_head? hf)).2

/-- Values that are read from clean tags are clean. -/
theorem clean_tagFields {info : Info} (h : ∀ k, ∀ v ∈ fields info k, CleanTag (k, v) ∧ k.head? ≠ some bom) :
    CleanTags (tagFields info) := by
  intro f hf
  obtain ⟨_, v, hv, e⟩ := mem_tagFields hf
  have := h f.1 v hv
  rw [oneLine_clean this.1.nobreak] at e
  have hf' : f = (f.1, v) := Prod.ext rfl e
  rw [hf']
  exact this

theorem clean_oxum (blen : Str → Nat) (t : Tree) : CleanTag (py!"Payload-Oxum", oxumText blen t) := by
  have hdig : ∀ n, ∀ c ∈ natStr n, isBreak c = false ∧ isSpace c = false := by
    intro n c hc
    exact ⟨break_of_digit (isDigit_natStr hc), isSpace_digit (isDigit_natStr hc)⟩
  have hall : ∀ c ∈ oxumText blen t, isBreak c = false ∧ isSpace c = false := by
    intro c hc
    unfold oxumText at hc
    rcases List.mem_append.1 hc with hc | hc
    · exact hdig _ c hc
    · rcases List.mem_cons.1 hc with rfl | hc
      · decide
      · exact hdig _ c hc
  have hl : CleanLabel py!"Payload-Oxum" := ⟨by decide, by decide, by decide, ⟨by decide, by decide⟩⟩
  refine ⟨hl, fun c hc => (hall c hc).1, trimmed_of_no_space (fun c hc => (hall c hc).2)⟩

/-- What opening the bag gives for each label, from the text written. -/
theorem opened_fields {E : RestoreEnv} {us rm : Bool} {fs : List (Str × Str)} (hfs : CleanTags fs)
    (hsz : ∀ t i, CleanTag (py!"Bag-Size", E.sizeText t i)) {out : Tree} {info' : Info}
    (hfin : finalInfo E us rm (loadTags fs) info' out)
    (hread : out.read [py!"bag-info.txt"] = some (fieldsText (tagFields info'))) {b : RBag}
    (hb : openBag E.base out = .ok b) (htag : b.tagFile = py!"bag-info.txt") (k : Str) :
    fields b.info k = fields info' k := by
  have clean0 : ∀ k, ∀ v ∈ fields (loadTags fs) k, CleanTag (k, v) ∧ k.head? ≠ some bom := by
    intro k v hv
    rw [fields_loadTags] at hv
    unfold valuesOf at hv
    obtain ⟨f, hf, rfl⟩ := List.mem_map.1 hv
    obtain ⟨hf1, hf2⟩ := List.mem_filter.1 hf
    have : f.1 = k := by simpa using hf2
    subst this
    exact hfs f hf1
  have clean1 : ∀ k, ∀ v ∈ fields info' k, CleanTag (k, v) ∧ k.head? ≠ some bom := by
    intro k v hv
    by_cases hk : us = true ∧ k = py!"Bag-Size"
    · obtain ⟨hu, rfl⟩ := hk
      unfold finalInfo at hfin
      simp only [hu, if_true] at hfin
      obtain ⟨t', i', rfl⟩ := hfin
      rw [fields_dset, if_pos rfl] at hv
      simp only [InfoVal.values, List.mem_singleton] at hv
      subst hv
      exact ⟨hsz t' i', by decide⟩
    · rw [fields_finalInfo hfin (fun hu e => hk ⟨hu, e⟩)] at hv
      split at hv
      · rename_i hx
        rw [List.mem_singleton] at hv
        subst hv
        rw [hx.2]
        exact ⟨clean_oxum _ _, by decide⟩
      · split at hv
        · cases hv
        · exact clean0 k v hv
  have hct := clean_tagFields clean1
  obtain ⟨_, _, _, t2, _⟩ := openBag_parts hb
  rw [htag] at t2
  have hex : out.exists [py!"bag-info.txt"] = true := by
    rw [exists_iff (by decide)]
    intro hn
    rw [Tree.read, hn] at hread; cases hread
  rw [if_pos hex] at t2
  have hload : loadTagFile false out [py!"bag-info.txt"] = .ok (loadTags (tagFields info')) := by
    unfold loadTagFile
    rw [hread]
    simp only [Bool.false_eq_true, if_false]
    rw [parseTags_fieldsText .universal _ (fun f hf => (hct f hf).1)]
    intro f hf
    exact (hct f (List.mem_of_mem_head? hf)).2
  rw [hload] at t2
  rw [← Except.ok.inj t2, fields_loadTags, valuesOf_tagFields (nodup_finalInfo hfin (nodup_loadTags fs))]
  have : ∀ l : List Str, (∀ v ∈ l, oneLine v = v) → l.map oneLine = l := by
    intro l hl
    induction l with
    | nil => rfl
    | cons x l ih => rw [List.map_cons, hl x List.mem_cons_self, ih (fun v hv => hl v (List.mem_cons_of_mem _ hv))]
  exact this _ (fun v hv => oneLine_clean (clean1 k v hv).1.nobreak)

theorem loaded_openBag {cfg : ReadCfg} {t : Tree} {b : RBag} (h : openBag cfg t = .ok b) : Loaded b.info := by
  obtain ⟨_, _, _, hi, _⟩ := openBag_parts h
  split at hi
  · unfold loadTagFile at hi
    split at hi
    · cases hi
    · split at hi
      · cases hi
      · have := Except.ok.inj hi
        rw [← this]; exact loaded_loadTags _
  · have := Except.ok.inj hi
    rw [← this]
    intro k v hv
    cases hv

/-- C49 for a head bag with the tag directory `multibag`: the fields of the restored bag, when it
is opened, are those of the aggregation info without the multibag fields; sizes are as computed,
if that is asked for.  Missing: other tag directories (`C49_negation`). -/
theorem C49_info_partial {E : RestoreEnv} (hE : EnvOk E) {H : RHead} {srcs : List RSource} (hA : Aggregation E H srcs)
    {fs : List (Str × Str)} (hfs : CleanTags fs) (hagg : H.tree.read [py!"multibag", py!"aggregation-info.txt"] = some (fieldsText fs))
    (hsz : ∀ t i, CleanTag (py!"Bag-Size", E.sizeText t i))
    {us : Bool} {d out : Tree} (h : restore E H us true d = .ok out) {b : RBag}
    (hb : openBag E.base out = .ok b) (htag : b.tagFile = py!"bag-info.txt") :
    ∀ k, (us = true → k ≠ py!"Payload-Oxum" ∧ k ≠ py!"Bag-Size") →
      fields b.info k = if k ∈ multibagFields then [] else valuesOf fs k := by
  intro k hk
  obtain ⟨info', hfin, hread⟩ := restored_info hE hA hfs hagg (.inr rfl) h hb htag
  rw [opened_fields hfs hsz hfin hread hb htag k, fields_finalInfo hfin (fun hu => (hk hu).2),
    if_neg (fun h => (hk h.1).1 h.2), fields_loadTags]
  have : k ∈ multibagFields ↔ k ∈ multibagKeys := Iff.rfl
  simp only [this, true_and]

/-- The hypotheses of `C49_info_partial` are met by the sample, which has a multibag field in its
aggregation info. -/
example : Sample.hb.read [py!"multibag", py!"aggregation-info.txt"] =
      some (fieldsText [(py!"Contact-Name", py!"Jo"), (py!"Multibag-Version", py!"0.4")]) ∧
    CleanTags [(py!"Contact-Name", py!"Jo"), (py!"Multibag-Version", py!"0.4")] ∧
    (∀ t i, CleanTag (py!"Bag-Size", Sample.renv.sizeText t i)) ∧
    ∃ b, openBag Sample.renv.base Sample.restored = .ok b ∧ b.tagFile = py!"bag-info.txt" ∧
      fields b.info py!"Contact-Name" = [py!"Jo"] ∧ fields b.info py!"Multibag-Version" = [] := by
  refine ⟨rfl, ?_, fun _ _ => ?_, _, rfl, rfl, rfl, rfl⟩
  · intro f hf
    simp only [List.mem_cons, List.not_mem_nil, or_false] at hf
    rcases hf with rfl | rfl
    · exact ⟨⟨⟨by decide, by decide, by decide, ⟨by decide, by decide⟩⟩, by decide, ⟨by decide, by decide⟩⟩, by decide⟩
    · exact ⟨⟨⟨by decide, by decide, by decide, ⟨by decide, by decide⟩⟩, by decide, ⟨by decide, by decide⟩⟩, by decide⟩
  · change CleanTag (py!"Bag-Size", py!"1 kB")
    exact ⟨⟨by decide, by decide, by decide, ⟨by decide, by decide⟩⟩, by decide, ⟨by decide, by decide⟩⟩

/-- C49 is false of the code for a head bag with another tag directory: its aggregation info is
not used, and its tag files stay. -/
theorem C49_negation : ∃ (E : RestoreEnv) (H : RHead) (srcs : List RSource) (out : Tree),
    EnvOk E ∧ Aggregation E H srcs ∧ H.path ≠ E.base.bagpath ∧ restore E H true true [] = .ok out ∧
    dget H.info py!"Multibag-Tag-Directory" = some (.one py!"mbag") ∧
    H.tree.read [py!"mbag", py!"aggregation-info.txt"] = some py!"Contact-Name: Jo\n" ∧
    out.read [py!"bag-info.txt"] = some py!"Bag-Size: 1 kB\nPayload-Oxum: 10.3\n" ∧
    out.isfile [py!"mbag", py!"member-bags.tsv"] = true := by
  let H : RHead := { Sample.headOther with tree := Sample.hbOther ++ [([py!"multibag"], .dir)] }
  obtain ⟨out, h1, h2⟩ : ∃ out, restore Sample.renv H true true [] = .ok out ∧
      (decide (out.read [py!"bag-info.txt"] = some py!"Bag-Size: 1 kB\nPayload-Oxum: 10.3\n") &&
       out.isfile [py!"mbag", py!"member-bags.tsv"]) = true := Sample.ok_of_check (by decide +kernel)
  rw [Bool.and_eq_true, decide_eq_true_eq] at h2
  refine ⟨Sample.renv, H, [⟨py!"/store/m1", Sample.m1⟩], out, Sample.renv_ok,
    ⟨⟨_, [py!"m1"], rfl, .inl rfl, .cons rfl .nil⟩, Sample.wf_of_check (by decide), ?_, by decide⟩, by decide, h1, rfl, rfl, h2.1, h2.2⟩
  intro s hs
  rw [List.mem_singleton] at hs
  subst hs
  exact Sample.wf_m1

/-! ## C50: Payload-Oxum -/

/-- C50: the only value written for Payload-Oxum is the number of bytes in the payload files of
the restored bag, a dot, and their number. -/
theorem C50_oxum {E : RestoreEnv} (hE : EnvOk E) {H : RHead} {srcs : List RSource} (hA : Aggregation E H srcs)
    {rm : Bool} {d out : Tree} (hw : WfTree d) (h : restore E H true rm d = .ok out) (hdata : out.isdir [py!"data"] = true) :
    ∃ f gs, (f = py!"bag-info.txt" ∨ f = py!"package-info.txt") ∧ out.read [f] = some (fieldsText gs) ∧
      valuesOf gs py!"Payload-Oxum" =
        [natStr ((payload out).map (fun e => E.blen e.2)).sum ++ '.' :: natStr (payload out).length] := by
  obtain ⟨ms, h1, h2⟩ := aggregation_parts hA
  have hwo := wf_restore hE h h1 h2 hA.head (fun s hs => hA.wf s (List.mem_reverse.1 hs)) hw
  obtain ⟨deleted, ms', d1, d2, d3, e1, e2, e3, e4, e5, e6⟩ := restore_parts h
  obtain ⟨_, _, _, f4, _, bd, hbd, info', hfin, hread⟩ := finishRestore_spec e6
  refine ⟨bd.tagFile, tagFields info', tagFileName_cases (openBag_parts hbd).2.2.1, hread (.inl rfl), ?_⟩
  rw [valuesOf_tagFields (nodup_finalInfo hfin (nodup_openBag hbd)), fields_finalInfo hfin (fun _ => by decide),
    if_pos ⟨rfl, rfl⟩, List.map_singleton, oxumText_oneLine]
  unfold oxumText
  rw [← f4, walkPayload_eq hwo hdata, List.length_map]

/-- C50, as a validator sees it: the sizes of the restored bag validate. -/
theorem C50_validates {E : RestoreEnv} (hE : EnvOk E) {H : RHead} {srcs : List RSource} (hA : Aggregation E H srcs)
    {fs : List (Str × Str)} (hfs : CleanTags fs) (hagg : H.tree.read [py!"multibag", py!"aggregation-info.txt"] = some (fieldsText fs))
    (hsz : ∀ t i, CleanTag (py!"Bag-Size", E.sizeText t i))
    {rm : Bool} {d out : Tree} (hw : WfTree d) (h : restore E H true rm d = .ok out) (hdata : out.isdir [py!"data"] = true)
    {b : RBag} (hb : openBag E.base out = .ok b) (htag : b.tagFile = py!"bag-info.txt") :
    validateOxum E.blen b = .ok () := by
  obtain ⟨ms, h1, h2⟩ := aggregation_parts hA
  have hwo := wf_restore hE h h1 h2 hA.head (fun s hs => hA.wf s (List.mem_reverse.1 hs)) hw
  obtain ⟨info', hfin, hread⟩ := restored_info hE hA hfs hagg (.inl rfl) h hb htag
  have hf := opened_fields hfs hsz hfin hread hb htag py!"Payload-Oxum"
  rw [fields_finalInfo hfin (fun _ => by decide), if_pos ⟨rfl, rfl⟩] at hf
  have hbt := (openBag_parts hb).1
  have hone : dget b.info py!"Payload-Oxum" = some (.one (oxumText E.blen out)) := by
    have hld := loaded_openBag hb py!"Payload-Oxum"
    unfold fields at hf
    cases hv : dget b.info py!"Payload-Oxum" with
    | none => rw [hv] at hf; cases hf
    | some v =>
      rw [hv] at hf
      have := hld v hv
      cases v with
      | one s => simpa [InfoVal.values] using hf
      | many l =>
        simp only [InfoVal.values] at hf this
        rw [hf] at this
        simp at this
  unfold oxumText at hone
  rw [C72_written (by rw [hbt]; exact hwo) (by rw [hbt]; exact hdata) E.blen hone, hbt, walkPayload_eq hwo hdata, List.length_map]
  exact ⟨rfl, rfl⟩

/-- The sample meets the hypotheses, and its sizes are those of `new!` and `bb`. -/
example : Sample.restored.isdir [py!"data"] = true ∧
    payload Sample.restored = [([py!"data", py!"a"], py!"new!"), ([py!"data", py!"b"], py!"bb")] ∧
    Sample.restored.read [py!"bag-info.txt"] = some py!"Bag-Size: 1 kB\nContact-Name: Jo\nPayload-Oxum: 6.2\n" :=
  ⟨rfl, rfl, rfl⟩

end Verif
