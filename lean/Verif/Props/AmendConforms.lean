import Verif.Lemmas.Conform
import Verif.Props.SavedValid
import Verif.Props.Convert
import Verif.Props.ValidateExact
import Verif.Props.BagWalk
/-!
# Converted and amended bags pass the package's own head bag validation: C96
-/

namespace Verif

open Spec

/-- What the metadata of a bag called `name` must be like before it becomes the head bag of version
`version` that deprecates `deps`, for head bag validation to accept the parts of the metadata that are kept. -/
structure Spec.HeadReady (t : Tree) (info : Info) (deps : List Str) (name version : Str) : Prop where
  given : version ≠ []
  /-- What the bag says it deprecates is a version, or a version and a bag name, other than its own. -/
  deprecates : ∀ v ∈ deps, v ≠ [] ∧ (deprecParts v).length ≤ 2 ∧
    (deprecParts v).head? ≠ some version ∧ (deprecParts v)[1]? ≠ some name
  recommended : ∀ el ∈ [py!"Internal-Sender-Identifier", py!"Internal-Sender-Description", py!"Bag-Group-Identifier"],
    ∀ v ∈ fields info el, v ≠ []
  aggregation : dget t (tagFile (tagDir info) py!"aggregation-info.txt") = none

/-- The bag declaration decides the name of the metadata file. -/
theorem tagFile_same {cfg : ReadCfg} {t t' : Tree} {b b' : RBag} (h : openBag cfg t = .ok b)
    (h' : openBag cfg t' = .ok b') (e : dget t' [py!"bagit.txt"] = dget t [py!"bagit.txt"]) :
    b'.tagFile = b.tagFile := by
  obtain ⟨_, _, a1, _, tags, v, a2, a3, a4, _⟩ := openBag_parts h
  obtain ⟨_, _, b1, _, tags', v', b2, b3, b4, _⟩ := openBag_parts h'
  have : loadTagFile true t' [py!"bagit.txt"] = loadTagFile true t [py!"bagit.txt"] := by
    unfold loadTagFile; rw [read_of_dget e]
  rw [this, a2] at b2
  cases b2
  rw [a3] at b3
  cases b3
  rw [a4] at b4
  injection b4 with b4
  rw [← b4, a1] at b1
  injection b1 with b1
  exact b1.symm

theorem tagDir_field {info : Info} (htag : ∀ l, dget info py!"Multibag-Tag-Directory" ≠ some (.many l)) :
    (if py!"Multibag-Tag-Directory" ∈ dkeys info then fields info py!"Multibag-Tag-Directory" else [py!"multibag"]) =
      [tagDir info] := by
  unfold fields tagDir
  cases h : dget info py!"Multibag-Tag-Directory" with
  | none => rw [if_neg (dget_eq_none_iff.1 h)]
  | some v =>
    cases v with
    | one s => rw [if_pos (mem_dkeys_iff.2 ⟨_, h⟩)]; rfl
    | many l => exact absurd h (htag l)

/-- The recommended fields are left as they are, except for the paragraph about multibags. -/
theorem recommended_updateInfo {size : (Str → List Str) → Str} {version : Option Str} {pv : Str} {info : Info} {el v : Str}
    (hel : el ∈ [py!"Internal-Sender-Identifier", py!"Internal-Sender-Description", py!"Bag-Group-Identifier"])
    (h : v ∈ fields (updateInfo size version pv info) el) : v ∈ fields info el ∨ v = ABOUT_MBAG := by
  by_cases e : el = py!"Internal-Sender-Description"
  · subst e
    rw [C20_about_once] at h
    split at h
    · exact .inl h
    · simpa using h
  · rw [C20_preserves _ _ _ _ _ ?_] at h
    · exact .inl h
    · simp only [List.mem_cons, List.not_mem_nil, or_false] at hel
      rcases hel with rfl | rfl | rfl
      · decide
      · exact absurd rfl e
      · decide

/-- C96: a valid bag with payload that is converted to a multibag of one bag passes head bag validation. -/
theorem C96_converted (E : SaveEnv) (cfg : ReadCfg) (hostOk : Str → Bool) (blen : Str → Nat) (t : Tree) (b : RBag)
    (hb : openBag cfg t = .ok b) (hw : WfTree t) (hv : bagValidate hostOk E.sum blen cfg b = .ok ())
    (hs : Updatable E cfg b) (hc : CleanInfo b.info)
    (names : ∀ p, t.isfile p = true → p.head? ≠ some py!"data" →
      startsWith py!"tagmanifest-" (p.getLast?.getD []) = false → Listable cfg (joinPath p))
    (hbi : Listable cfg py!"bag-info.txt")
    (hdir : ∀ n ∈ [[], [py!"member-bags.tsv"], [py!"file-lookup.tsv"]], Listable cfg (joinPath (comps (tagDir b.info) ++ n)))
    (hk : ¬ Kept (comps (tagDir b.info))) (ht : ∀ a, comps (tagDir b.info) ≠ [py!"tagmanifest-" ++ a ++ py!".txt"])
    (dir name version : Str) (pid : Option Str) (c : Convertible E t b.info) (hver : OneLine version)
    (hsz : ∀ t, OneLine (E.size t))
    (hr : HeadReady t b.info (fields b.info py!"Multibag-Head-Deprecates") name version) (hhost : hostOk py!"github.com" = true)
    (hd : PathTo dir name) (hn : Plain name)
    (hpid : ∀ u, pid = some u → Clean u ∧ u.head? ≠ some '#' ∧ ∃ scheme, urlparse hostOk u = .ok (scheme, []) ∧ scheme ≠ [])
    (hpay : ∃ q, Payload t q) (s' : HeadBag)
    (h : (HeadBag.open t b.info).convert E dir version pid = (.ok (), s')) :
    ∃ b', openBag cfg s'.tree = .ok b' ∧
      isValid (fun w => validateHead hostOk (b'.seen hostOk E.sum blen cfg name) w none) PROB = .ok true := by
  obtain ⟨b', hb', hv'⟩ := C93_converted E cfg hostOk blen t b hb hw hv hs hc names hbi hdir hk ht dir version pid c hver
    hsz s' h
  refine ⟨b', hb', (C79_problems hostOk _).2 ?_⟩
  obtain ⟨u, a⟩ := converted c.tag c.ver' h
  obtain ⟨s, hup, _, hwf, hfr⟩ := a.last
  have hws' : WfTree s'.tree := (updateInfo_ok hup).2.2.2.1 c.algs (hwf c.algs c.dir.1 c.wf)
  have hbt : b'.tree = s'.tree := (openBag_parts hb').1
  have hdne : ∀ n, comps (tagDir b.info) ++ [n] ≠ [] := by simp
  have hframe : ∀ p, Kept p → dget s'.tree p = dget t p := by
    intro p hp
    have hx : ∀ p, p ≠ tagFile (tagDir b.info) py!"member-bags.tsv" → p ≠ tagFile (tagDir b.info) py!"file-lookup.tsv" →
        p ≠ comps (tagDir b.info) → p ≠ [py!"bag-info.txt"] → (∀ a ∈ E.algs, p ≠ manPath py!"tagmanifest" a) →
        dget s'.tree p = dget t p := by
      intro p h1 h2 h3 h4 h5
      rw [(updateInfo_ok hup).2.2.1 p h4 h5]
      exact hfr p h1 h2 h3 h4 h5
    exact (tagFiles_kept (E := E) (cfg := cfg) c.dir.1 hk ht hx names hbi
      (by have := hdir [] (by simp); rwa [List.append_nil] at this) (hdir _ (by simp)) (hdir _ (by simp))).1 p hp
  have htf : b'.tagFile = py!"bag-info.txt" :=
    (tagFile_same hb hb' (hframe _ (.inr (.inl rfl)))).trans hs.tagFile
  have hf : ∀ k, fields b'.info k = fields s'.info k :=
    C58_on_disk E dir version pid t b.info s' c h (nodup_openBag hb) hc hver hsz hb' htf
  obtain ⟨l, _, hl⟩ := source_info hb'
  obtain ⟨m1, m2, m3⟩ := C58_metadata E dir version pid t b.info s' c h hr.given
  have hfinal : fields s'.info py!"Multibag-Reference" = [CURRENT_REFERENCE] ∧
      fields s'.info py!"Multibag-Tag-Directory" = [tagDir b.info] := by
    obtain ⟨t0, t1, e⟩ := a.newInfo
    obtain ⟨_, f2, f3, _⟩ := C20_sets_fields (fun _ => E.size t1) (some version) CURRENT_VERSION
      (if noProfile b.info then updateInfo (fun _ => E.size t0) (some py!"1") CURRENT_VERSION b.info else b.info)
    rw [← e] at f2 f3
    refine ⟨f2, f3.trans ?_⟩
    split
    · obtain ⟨_, _, g3, _⟩ := C20_sets_fields (fun _ => E.size t0) (some py!"1") CURRENT_VERSION b.info
      rw [tagDir_field c.tag] at g3
      split
      · exact g3
      · next hm =>
        exfalso
        unfold fields at g3
        rw [dget_eq_none_iff.2 hm] at g3
        cases g3
    · exact tagDir_field c.tag
  obtain ⟨text, hmt, hmr⟩ := a.memberText
  obtain ⟨d, hok, hdq, _, hlr⟩ := a.lookup
  rw [rstrip_pathTo hd, baseName_pathTo hd] at hdq
  rw [baseName_pathTo hd] at hmt
  have hmem : ∀ e ∈ d, Payload t e.1 ∧ e.2 = name := by
    intro e he
    have hg : dget d e.1 = some e.2 := (dget_iff_mem hok.nodup).2 he
    rw [hdq] at hg
    split at hg
    · rename_i hm
      injection hg with hg
      exact ⟨(convert_payload c a _).1 hm, hg.symm⟩
    · cases hg
  have hdne : d ≠ [] := by
    obtain ⟨q, hq⟩ := hpay
    have := hdq q
    rw [if_pos ((convert_payload c a _).2 hq)] at this
    rintro rfl
    cases this
  have hdata : s'.tree.isdir [py!"data"] = true := by
    have := ((C80_valid_iff hb hw _ _ _).1 hv).data
    rw [(openBag_parts hb).1] at this
    rwa [isdir_of_dget (hframe [py!"data"] (.inl rfl))]
  have hisd : s'.tree.isdir (comps (tagDir b.info)) = true := by
    have hx : tagFile (tagDir b.info) py!"member-bags.tsv" ∈ dkeys s'.tree := by
      rw [read_eq] at hmr
      cases hg : dget s'.tree (tagFile (tagDir b.info) py!"member-bags.tsv") with
      | none => rw [hg] at hmr; cases hmr
      | some x => exact mem_dkeys_iff.2 ⟨_, hg⟩
    have := hws'.parent _ hx
    rwa [tagFile_eq _ comps_members, List.dropLast_concat] at this
  have hcm : CleanMember ⟨name, pid, none, []⟩ :=
    { name := hn.clean, uri := fun u hu => (hpid u hu).1, comment := fun _ h => (nomatch h),
      hash := fun u hu _ => (hpid u hu).2.1, info := rfl }
  refine conforms_of_lists (vb := b'.seen hostOk E.sum blen cfg name) (l := l) hl ?_ hhost (ver := CURRENT_VERSION)
    (d := tagDir b.info) (hv := version) ((hf _).trans m2) (by decide) (by decide) ((hf _).trans hfinal.1)
    ((hf _).trans hfinal.2) ?_ ?_ ((hf _).trans m1) hr.given ?_ ?_ (ms := []) (last := ⟨name, pid, none, []⟩)
    (mtext := text) ?_ ?_ rfl (by simp) hmt ?_ (dest := d) ?_ hok.nodup ?_ ?_ ?_ ?_
  · show (match bagValidate hostOk E.sum blen cfg b' with | .ok () => BagVerdict.valid | .error e => .raises e) = BagVerdict.valid
    rw [hv']
  · intro e; exact c.dir.1.1 (by rw [e]; rfl)
  · show b'.tree.isdir _ = true
    rw [hbt]; exact hisd
  · intro v hv
    replace hv : v ∈ fields b'.info py!"Multibag-Head-Deprecates" := hv
    rw [hf, m3 _ (by decide)] at hv
    exact hr.deprecates v hv
  · intro el hel v hv
    replace hv : v ∈ fields b'.info el := hv
    rw [hf] at hv
    obtain ⟨t0, t1, e⟩ := a.newInfo
    rw [e] at hv
    rcases recommended_updateInfo hel hv with hv | rfl
    · split at hv
      · rcases recommended_updateInfo hel hv with hv | rfl
        · exact hr.recommended el hel v hv
        · decide
      · exact hr.recommended el hel v hv
    · decide
  · intro m hm; simp only [List.nil_append, List.mem_singleton] at hm; subst hm; exact hcm
  · intro m hm; simp only [List.nil_append, List.mem_singleton] at hm; subst hm
    unfold memberAccepted
    cases hp : pid with
    | none => rfl
    | some u => exact (hpid u hp).2.2
  · show b'.tree.read _ = _
    rw [hbt]; exact hmr
  · intro e he
    obtain ⟨h1, h2⟩ := hmem e he
    exact ⟨(c.files _ h1).clean, h2 ▸ hn.clean⟩
  · intro e he _
    obtain ⟨⟨p, hp, hpre, hq⟩, _⟩ := hmem e he
    show b'.tree.isfile _ = true
    obtain ⟨x, hx⟩ := isfile_iff.1 hp
    rw [hbt, hq, comps_joinPath (hw.good _ (mem_dkeys_iff.2 ⟨_, hx⟩)), isfile_of_dget (hframe p ?_)]
    · exact hp
    · obtain ⟨r, rfl⟩ := hpre
      exact .inl rfl
  · show b'.tree.read _ = _
    rw [hbt]; exact hlr hdne
  · show b'.tree.isdir _ = true
    rw [hbt]; exact hdata
  · refine .inr (.inl ?_)
    show b'.tree.exists _ = false
    have e : dget s'.tree (tagFile (tagDir b.info) py!"aggregation-info.txt") = none := by
      rw [← hr.aggregation]
      refine a.frame _ ?_ ?_ ?_ ?_ ?_
      all_goals rw [tagFile_eq _ (show comps py!"aggregation-info.txt" = [py!"aggregation-info.txt"] by decide)]
      · rw [tagFile_eq _ comps_members]; simp
      · rw [tagFile_eq _ comps_lookup]; simp
      · simp
      · intro e; have := congrArg List.getLast? e; simp at this
      · intro a e
        have := congrArg List.getLast? e
        unfold manPath at this
        simp at this
    rw [hbt]
    exact Bool.eq_false_iff.2 (fun hx => (exists_iff (by rw [tagFile_eq _ (by decide)]; simp)).1 hx e)

theorem contributions_name {bags : List Amending} {me : NewHead} {u : Tree} {r : Option Str} {q : Str}
    (h : (contributions bags me u).foldl (fun r c => bagLookup c r q) r = some me.name) :
    q ∈ filesFor false u (includeList me.incl me.excl) me.excl.has := by
  unfold contributions at h
  rw [List.foldl_append] at h
  simp only [List.foldl_cons, List.foldl_nil] at h
  unfold bagLookup at h
  split at h
  · assumption
  · split at h
    · cases h
    · next h1 h2 => exact absurd h h2

theorem contributions_own {bags : List Amending} {me : NewHead} {u : Tree} {r : Option Str} {q : Str}
    (h : q ∈ filesFor false u (includeList me.incl me.excl) me.excl.has) :
    (contributions bags me u).foldl (fun r c => bagLookup c r q) r = some me.name := by
  unfold contributions
  rw [List.foldl_append]
  simp only [List.foldl_cons, List.foldl_nil]
  unfold bagLookup
  rw [if_pos h]
  rfl

/-- C96: a valid bag with payload that amends a multibag passes head bag validation as its new head. -/
theorem C96_amended (E : SaveEnv) (cfg : ReadCfg) (hostOk : Str → Bool) (blen : Str → Nat) (t : Tree) (b : RBag)
    (hb : openBag cfg t = .ok b) (hw : WfTree t) (hv : bagValidate hostOk E.sum blen cfg b = .ok ())
    (hs : Updatable E cfg b) (hc : CleanInfo b.info)
    (names : ∀ p, t.isfile p = true → p.head? ≠ some py!"data" →
      startsWith py!"tagmanifest-" (p.getLast?.getD []) = false → Listable cfg (joinPath p))
    (hbi : Listable cfg py!"bag-info.txt")
    (hdir : ∀ n ∈ [[], [py!"member-bags.tsv"], [py!"file-lookup.tsv"]], Listable cfg (joinPath (comps (tagDir b.info) ++ n)))
    (hk : ¬ Kept (comps (tagDir b.info))) (ht : ∀ a, comps (tagDir b.info) ≠ [py!"tagmanifest-" ++ a ++ py!".txt"])
    (keep : Bool) (old : Amendee) (me : NewHead) (version : Str) (bags : List Amending) (o : Opened t b.info)
    (hpv : keep = true → verLt (profileVersion old.info) py!"0.3" = false)
    (hold : ∀ v ∈ profileVersion old.info :: oldVersion old.info :: fields old.info py!"Multibag-Head-Deprecates", OneLine v)
    (hpk : keep = true → fields old.info py!"Multibag-Version" = [] ∨ ∃ v, fields old.info py!"Multibag-Version" = [v])
    (hver : OneLine version) (hsz : ∀ t, OneLine (E.size t)) (hO : Amendable bags me t b.info)
    {oms : List MemberInfo} {oes : List (Str × Str)} (hom : old.members = .ok oms) (hoe : old.lookup = .ok oes)
    (hoc : ∀ e ∈ oes, Clean e.1 ∧ Clean e.2)
    (hclean : ∀ m ∈ oms ++ bags.map record ++ [headRecord me], CleanMember m)
    (huri : ∀ m ∈ oms ++ bags.map record ++ [headRecord me],
      (∀ u, m.uri = some u → ∃ scheme, urlparse hostOk u = .ok (scheme, []) ∧ scheme ≠ []) ∧ (m.uri = none → m.comment = none))
    (hr : HeadReady t b.info (fields old.info py!"Multibag-Head-Deprecates" ++ [oldVersion old.info]) me.name version)
    (hhost : hostOk py!"github.com" = true) (hpay : ∃ q, Payload t q) (s' : HeadBag)
    (h : amend E keep old me version bags (HeadBag.open t b.info) = (.ok (), s')) :
    ∃ b', openBag cfg s'.tree = .ok b' ∧
      isValid (fun w => validateHead hostOk (b'.seen hostOk E.sum blen cfg me.name) w none) PROB = .ok true := by
  obtain ⟨b', hb', hv'⟩ := C93_amended E cfg hostOk blen t b hb hw hv hs hc names hbi hdir hO.dir.1 hk ht keep old me version
    bags o hpv hold hpk hver hsz s' h
  refine ⟨b', hb', (C79_problems hostOk _).2 ?_⟩
  obtain ⟨oms', oes', u, a⟩ := amended o hpv h
  have e1 := a.oldMembers
  rw [hom] at e1
  cases e1
  have e2 := a.oldLookup
  rw [hoe] at e2
  cases e2
  obtain ⟨s, hup, _, hwf, hfr⟩ := a.last
  have halg : ∀ x ∈ E.algs, '/' ∉ x := by
    intro x hx
    rw [hs.algs] at hx
    exact hs.slash x ((mem_algorithms (openBag_parts hb).2.1 x).1 hx).1
  have hws' : WfTree s'.tree := (updateInfo_ok hup).2.2.2.1 halg (hwf hO.dir.1 hw)
  have hbt : b'.tree = s'.tree := (openBag_parts hb').1
  have hframe : ∀ p, Kept p → dget s'.tree p = dget t p := by
    intro p hp
    have hx : ∀ p, p ≠ tagFile (tagDir b.info) py!"member-bags.tsv" → p ≠ tagFile (tagDir b.info) py!"file-lookup.tsv" →
        p ≠ comps (tagDir b.info) → p ≠ [py!"bag-info.txt"] → (∀ a ∈ E.algs, p ≠ manPath py!"tagmanifest" a) →
        dget s'.tree p = dget t p := by
      intro p h1 h2 h3 h4 h5
      rw [(updateInfo_ok hup).2.2.1 p h4 h5]
      exact hfr p h1 h2 h3
    exact (tagFiles_kept (E := E) (cfg := cfg) hO.dir.1 hk ht hx names hbi
      (by have := hdir [] (by simp); rwa [List.append_nil] at this) (hdir _ (by simp)) (hdir _ (by simp))).1 p hp
  have htf : b'.tagFile = py!"bag-info.txt" :=
    (tagFile_same hb hb' (hframe _ (.inr (.inl rfl)))).trans hs.tagFile
  have hf := (C56_on_disk E keep old me version bags t b.info s' o hpv h (nodup_openBag hb) hc hold hver hsz hpk hb' htf).1
  obtain ⟨l, _, hl⟩ := source_info hb'
  obtain ⟨t0, e⟩ := a.newInfo
  obtain ⟨f1, f2, f3, f4, _⟩ := C20_sets_fields (fun _ => E.size t0) (some version)
    (if keep then profileVersion old.info else CURRENT_VERSION) (initInfo keep old.info b.info)
  rw [← e] at f1 f2 f3 f4
  have htd : fields s'.info py!"Multibag-Tag-Directory" = [tagDir b.info] := by
    rw [f3, tagDir_field (info := initInfo keep old.info b.info)]
    · unfold tagDir
      rw [initInfo_dget keep old.info b.info (by decide) (by decide)]
    · intro l
      rw [initInfo_dget keep old.info b.info (by decide) (by decide)]
      exact o.tag l
  have hhv : fields s'.info py!"Multibag-Head-Version" = [version] := by
    rw [f4]
    cases hx : version with
    | nil => exact absurd hx hr.given
    | cons x xs => rfl
  have hdep : fields s'.info py!"Multibag-Head-Deprecates" =
      fields old.info py!"Multibag-Head-Deprecates" ++ [oldVersion old.info] := by
    rw [e, C20_preserves _ _ _ _ _ (by decide), fields_initInfo, if_pos rfl]
  obtain ⟨text, hmt, hmr⟩ := a.memberText
  rw [keepLast_snoc] at hmt
  have hnd := nodup_keepLast (oms ++ bags.map record ++ [headRecord me])
  rw [keepLast_snoc] at hnd
  have hin : ∀ m ∈ (keepLast (oms ++ bags.map record)).filter (fun x => x.name ≠ (headRecord me).name) ++ [headRecord me],
      m ∈ oms ++ bags.map record ++ [headRecord me] := by
    intro m hm
    rw [← keepLast_snoc] at hm
    exact mem_keepLast hm
  have hu : ∀ p, [py!"data"] <+: p → dget u p = dget t p := by
    intro p hpre
    refine a.uframe p ?_ ?_ ?_
    · rintro rfl; exact payload_outside hO.dir.2 comps_members (by decide) hpre
    · rintro rfl; exact payload_outside hO.dir.2 comps_lookup (by decide) hpre
    · rintro rfl; exact hO.dir.2 hpre
  have hcs := contributions_payload hO (a.uwf hO.dir.1 hO.wf) hu
  have hown : ∀ q, q ∈ filesFor false u (includeList me.incl me.excl) me.excl.has ↔ Payload t q := by
    intro q
    have : filesFor false u (includeList me.incl me.excl) me.excl.has = filesFor false u [py!"data"] (fun _ => false) := by
      rw [hO.defaults.2.1, hO.defaults.2.2]; rfl
    rw [this, mem_amendPayload (a.uwf hO.dir.1 hO.wf)]
    exact payload_congr hu q
  obtain ⟨d, hok, hdq, _, hlr⟩ := a.lookup
  have hdne : d ≠ [] := by
    obtain ⟨q, hq⟩ := hpay
    have := hdq q
    rw [contributions_own ((hown q).2 hq)] at this
    rintro rfl
    cases this
  have hdata : s'.tree.isdir [py!"data"] = true := by
    have := ((C80_valid_iff hb hw _ _ _).1 hv).data
    rw [(openBag_parts hb).1] at this
    rwa [isdir_of_dget (hframe [py!"data"] (.inl rfl))]
  have hisd : s'.tree.isdir (comps (tagDir b.info)) = true := by
    have hx : tagFile (tagDir b.info) py!"member-bags.tsv" ∈ dkeys s'.tree := by
      rw [read_eq] at hmr
      cases hg : dget s'.tree (tagFile (tagDir b.info) py!"member-bags.tsv") with
      | none => rw [hg] at hmr; cases hmr
      | some x => exact mem_dkeys_iff.2 ⟨_, hg⟩
    have := hws'.parent _ hx
    rwa [tagFile_eq _ comps_members, List.dropLast_concat] at this
  have hverOk : (if keep then profileVersion old.info else CURRENT_VERSION) ≠ [] ∧
      (if keep then profileVersion old.info else CURRENT_VERSION) ≠ py!"0.2" := by
    cases keep with
    | false =>
      show CURRENT_VERSION ≠ [] ∧ CURRENT_VERSION ≠ py!"0.2"
      decide
    | true =>
      have := hpv rfl
      simp only [if_true]
      constructor
      · intro e; rw [e] at this; exact absurd this (by decide)
      · intro e; rw [e] at this; exact absurd this (by decide)
  refine conforms_of_lists (vb := b'.seen hostOk E.sum blen cfg me.name) (l := l) hl ?_ hhost
    (ver := if keep then profileVersion old.info else CURRENT_VERSION)
    (d := tagDir b.info) (hv := version) ((hf _).trans f1) hverOk.1 hverOk.2 ((hf _).trans f2)
    ((hf _).trans htd) ?_ ?_ ((hf _).trans hhv) hr.given ?_ ?_
    (ms := (keepLast (oms ++ bags.map record)).filter (fun x => x.name ≠ (headRecord me).name)) (last := headRecord me)
    (mtext := text) (fun m hm => hclean m (hin m hm)) ?_ rfl hnd hmt ?_ (dest := d) ?_ hok.nodup ?_ ?_ ?_ ?_
  · show (match bagValidate hostOk E.sum blen cfg b' with | .ok () => BagVerdict.valid | .error e => .raises e) = BagVerdict.valid
    rw [hv']
  · intro e; exact hO.dir.1.1 (by rw [e]; rfl)
  · show b'.tree.isdir _ = true
    rw [hbt]; exact hisd
  · intro v hv
    replace hv : v ∈ fields b'.info py!"Multibag-Head-Deprecates" := hv
    rw [hf, hdep] at hv
    exact hr.deprecates v hv
  · intro el hel v hv
    replace hv : v ∈ fields b'.info el := hv
    rw [hf, e] at hv
    rcases recommended_updateInfo hel hv with hv | rfl
    · rw [fields_initInfo, if_neg, if_neg] at hv
      · exact hr.recommended el hel v hv
      · rintro rfl; revert hel; decide
      · rintro rfl; revert hel; decide
    · decide
  · intro m hm
    have hm := huri m (hin m hm)
    unfold memberAccepted
    cases hp : m.uri with
    | none => exact hm.2 hp
    | some u => exact hm.1 u hp
  · show b'.tree.read _ = _
    rw [hbt]; exact hmr
  · intro e he
    have hg : dget d e.1 = some e.2 := (dget_iff_mem hok.nodup).2 he
    rw [hdq] at hg
    rcases foldl_bagLookup_some hg with ⟨c, hc, h1, h2⟩ | h1
    · obtain ⟨x, hx, e1, e2⟩ := forall₂_mem_left hcs hc
      refine ⟨(hO.files x hx _ ((e2 _).1 h1)).clean, ?_⟩
      rw [← h2, e1]
      exact (hO.names x hx).clean
    · exact hoc _ (mem_of_lastFor h1)
  · intro e he hen
    have hg : dget d e.1 = some e.2 := (dget_iff_mem hok.nodup).2 he
    rw [hdq, hen] at hg
    obtain ⟨p, hp, hpre, hq⟩ := (hown _).1 (contributions_name hg)
    show b'.tree.isfile _ = true
    obtain ⟨x, hx⟩ := isfile_iff.1 hp
    rw [hbt, hq, comps_joinPath (hw.good _ (mem_dkeys_iff.2 ⟨_, hx⟩)), isfile_of_dget (hframe p ?_)]
    · exact hp
    · obtain ⟨r, rfl⟩ := hpre
      exact .inl rfl
  · show b'.tree.read _ = _
    rw [hbt]; exact hlr.resolve_left (fun x => hdne x.1)
  · show b'.tree.isdir _ = true
    rw [hbt]; exact hdata
  · refine .inr (.inl ?_)
    show b'.tree.exists _ = false
    have e : dget s'.tree (tagFile (tagDir b.info) py!"aggregation-info.txt") = none := by
      rw [← hr.aggregation]
      refine a.frame _ ?_ ?_ ?_ ?_ ?_
      all_goals rw [tagFile_eq _ (show comps py!"aggregation-info.txt" = [py!"aggregation-info.txt"] by decide)]
      · rw [tagFile_eq _ comps_members]; simp
      · rw [tagFile_eq _ comps_lookup]; simp
      · simp
      · intro e; have := congrArg List.getLast? e; simp at this
      · intro a e
        have := congrArg List.getLast? e
        unfold manPath at this
        simp at this
    rw [hbt]
    exact Bool.eq_false_iff.2 (fun hx => (exists_iff (by rw [tagFile_eq _ (by decide)]; simp)).1 hx e)

namespace Sample

theorem plain_payload : ∃ q, Payload plainBag q := ⟨_, [py!"data", py!"a"], by decide, by decide, rfl⟩

theorem plain_ready (deps : List Str) (name version : Str) (h : version ≠ [] ∧ ∀ v ∈ deps, v ≠ [] ∧ (deprecParts v).length ≤ 2 ∧
    (deprecParts v).head? ≠ some version ∧ (deprecParts v)[1]? ≠ some name) : HeadReady plainBag plainInfo deps name version where
  given := h.1
  deprecates := h.2
  recommended := by
    intro el hel v hv
    simp only [List.mem_cons, List.not_mem_nil, or_false] at hel
    rcases hel with rfl | rfl | rfl <;> cases hv
  aggregation := by decide

theorem plain_amendable : Amendable [extra] newHead plainBag plainInfo where
  wf := wf_plainBag
  wfBags := ordinary.wfBags
  dir := plain_convertible.dir
  defaults := ordinary.defaults
  names := by
    intro b hb
    have : b = (py!"x1", extra.tree) ∨ b = (py!"n0", plainBag) := by
      simpa [withTrees, extra, newHead] using hb
    rcases this with rfl | rfl <;> exact plain_of_check (by decide +kernel)
  files := by
    intro b hb q hq
    have : b = (py!"x1", extra.tree) ∨ b = (py!"n0", plainBag) := by
      simpa [withTrees, extra, newHead] using hb
    rcases this with rfl | rfl <;> exact payload_plain (by decide +kernel) hq

end Sample

/-- Converting the sample bag succeeds, and head bag validation accepts it. -/
example : ∃ s' b', (HeadBag.open Sample.plainBag Sample.plainInfo).convert Sample.sumEnv py!"/bags/n0" py!"1.0"
      (some py!"ark:/9") = (.ok (), s') ∧ openBag Sample.readCfg s'.tree = .ok b' ∧
    isValid (fun w => validateHead (fun _ => true)
      (b'.seen (fun _ => true) Sample.sum List.length Sample.readCfg py!"n0") w none) PROB = .ok true := by
  obtain ⟨b, hb, hv, hu, hi⟩ := Sample.plain_valid
  have h : (HeadBag.open Sample.plainBag b.info).convert Sample.sumEnv py!"/bags/n0" py!"1.0" (some py!"ark:/9") = (.ok (),
      ((HeadBag.open Sample.plainBag Sample.plainInfo).convert Sample.sumEnv py!"/bags/n0" py!"1.0" (some py!"ark:/9")).2) := by
    rw [hi]
    exact Prod.ext (by decide +kernel) rfl
  obtain ⟨b', h1, h2⟩ := C96_converted Sample.sumEnv Sample.readCfg _ _ _ b hb Sample.wf_plainBag hv hu
    (by rw [hi]; exact Sample.cleanInfo_of_check (by decide +kernel)) (fun p h1 h2 _ => Sample.plain_names p h1 h2)
    (Sample.listable_of_check (q := [py!"bag-info.txt"]) (by decide +kernel)) (by rw [hi]; exact Sample.plain_dir)
    (by rw [hi]; exact Sample.plain_tagDir.1) (by rw [hi]; exact Sample.plain_tagDir.2) _ py!"n0" _ _
    (by rw [hi]; exact Sample.plain_convertible)
    (oneLine_of_check (by decide)) Sample.sumEnv_size (by rw [hi]; exact Sample.plain_ready _ _ _ (by decide)) rfl Sample.pathTo
    (Sample.plain_of_check (by decide +kernel))
    (by rintro u hu; cases hu; exact ⟨clean_of_check (by decide), by decide, py!"ark", by decide +kernel, by decide⟩)
    Sample.plain_payload _ h
  rw [hi] at h
  exact ⟨_, b', h, h1, h2⟩

/-- Amending a multibag with the sample bag succeeds, and head bag validation accepts the bag. -/
example : ∃ s' b', amend Sample.sumEnv false Sample.oldHead Sample.newHead py!"2.0" [Sample.extra]
      (HeadBag.open Sample.plainBag Sample.plainInfo) = (.ok (), s') ∧ openBag Sample.readCfg s'.tree = .ok b' ∧
    isValid (fun w => validateHead (fun _ => true)
      (b'.seen (fun _ => true) Sample.sum List.length Sample.readCfg Sample.newHead.name) w none) PROB = .ok true := by
  obtain ⟨b, hb, hv, hu, hi⟩ := Sample.plain_valid
  have h : amend Sample.sumEnv false Sample.oldHead Sample.newHead py!"2.0" [Sample.extra]
      (HeadBag.open Sample.plainBag b.info) = (.ok (), (amend Sample.sumEnv false Sample.oldHead Sample.newHead py!"2.0"
        [Sample.extra] (HeadBag.open Sample.plainBag Sample.plainInfo)).2) := by
    rw [hi]
    exact Prod.ext (by decide +kernel) rfl
  obtain ⟨b', h1, h2⟩ := C96_amended Sample.sumEnv Sample.readCfg _ _ _ b hb Sample.wf_plainBag hv hu
    (by rw [hi]; exact Sample.cleanInfo_of_check (by decide +kernel)) (fun p h1 h2 _ => Sample.plain_names p h1 h2)
    (Sample.listable_of_check (q := [py!"bag-info.txt"]) (by decide +kernel)) (by rw [hi]; exact Sample.plain_dir)
    (by rw [hi]; exact Sample.plain_tagDir.1) (by rw [hi]; exact Sample.plain_tagDir.2) false _ _ _ _
    (by rw [hi]; exact Sample.plain_opened) (by intro e; cases e) (by
      intro v hv
      have : v ∈ [py!"0.4", py!"1.1", py!"1.0"] := hv
      simp only [List.mem_cons, List.not_mem_nil, or_false] at this
      rcases this with rfl | rfl | rfl <;> exact oneLine_of_check (by decide)) (by intro e; cases e)
    (oneLine_of_check (by decide)) Sample.sumEnv_size (by rw [hi]; exact Sample.plain_amendable)
    (oms := [⟨py!"m1", some py!"ark:/1", none, []⟩, ⟨py!"b0", none, none, []⟩])
    (oes := [(py!"data/a", py!"b0"), (py!"data/b", py!"m1"), (py!"data/c", py!"m1")])
    (by decide +kernel) (by decide +kernel) (by
      intro e he
      simp only [List.mem_cons, List.not_mem_nil, or_false] at he
      rcases he with rfl | rfl | rfl <;> exact ⟨clean_of_check (by decide), clean_of_check (by decide)⟩)
    (fun m hm => (Sample.writable_of_check (by decide +kernel) m hm).1) (by
      intro m hm
      have : m ∈ [⟨py!"m1", some py!"ark:/1", none, []⟩, ⟨py!"b0", none, none, []⟩, ⟨py!"x1", some py!"ark:/2", none, []⟩,
        ⟨py!"n0", none, none, []⟩] := hm
      simp only [List.mem_cons, List.not_mem_nil, or_false] at this
      rcases this with rfl | rfl | rfl | rfl
      · exact ⟨fun u e => by cases e; exact ⟨py!"ark", by decide +kernel, by decide⟩, fun e => by cases e⟩
      · exact ⟨fun u e => by (cases e), fun _ => rfl⟩
      · exact ⟨fun u e => by cases e; exact ⟨py!"ark", by decide +kernel, by decide⟩, fun e => by cases e⟩
      · exact ⟨fun u e => by (cases e), fun _ => rfl⟩)
    (by rw [hi]; exact Sample.plain_ready _ _ _ (by decide)) rfl Sample.plain_payload _ h
  rw [hi] at h
  exact ⟨_, b', h, h1, h2⟩

/-- C96 is false of the code if the identifier given to the conversion is the URL of a web page: head bag validation
rejects the URI of a member that has a host. -/
theorem C96_negation_url : ∃ (E : SaveEnv) (cfg : ReadCfg) (t : Tree) (b : RBag) (s' : HeadBag) (b' : RBag),
    openBag cfg t = .ok b ∧ bagValidate (fun _ => true) E.sum List.length cfg b = .ok () ∧ E.algs = b.algorithms ∧
    (HeadBag.open t b.info).convert E py!"/bags/n0" py!"1.0" (some py!"https://doi.org/9") = (.ok (), s') ∧
    openBag cfg s'.tree = .ok b' ∧
    isValid (fun w => validateHead (fun _ => true)
      (b'.seen (fun _ => true) E.sum List.length cfg py!"n0") w none) PROB = .ok false := by
  obtain ⟨b, hb, hv, hu, hi⟩ := Sample.plain_valid
  obtain ⟨b', hb', hf⟩ := Sample.ok_of_check
    (r := openBag Sample.readCfg ((HeadBag.open Sample.plainBag Sample.plainInfo).convert
      Sample.sumEnv py!"/bags/n0" py!"1.0" (some py!"https://doi.org/9")).2.tree) (f := fun b =>
    decide (isValid (fun w => validateHead (fun _ => true)
      (b.seen (fun _ => true) Sample.sum List.length Sample.readCfg py!"n0") w none) PROB = .ok false)) (by decide +kernel)
  rw [decide_eq_true_eq] at hf
  exact ⟨Sample.sumEnv, Sample.readCfg, _, b, _, b', hb, hv, hu.algs, by rw [hi]; exact Prod.ext (by decide +kernel) rfl, hb', hf⟩

namespace Sample

/-- A valid bag without payload files. -/
def emptyBag : Tree :=
  [([py!"bagit.txt"], .file py!"BagIt-Version: 0.97\nTag-File-Character-Encoding: UTF-8\n"),
   ([py!"bag-info.txt"], .file py!"Contact: me\n"), ([py!"manifest-md5.txt"], .file []), ([py!"data"], .dir)]

end Sample

/-- C96 is false of the code for a bag without payload files: no file lookup list is written, which head bag
validation requires. -/
theorem C96_negation_no_payload : ∃ (E : SaveEnv) (cfg : ReadCfg) (t : Tree) (b : RBag) (s' : HeadBag) (b' : RBag),
    openBag cfg t = .ok b ∧ bagValidate (fun _ => true) E.sum List.length cfg b = .ok () ∧ E.algs = b.algorithms ∧
    (HeadBag.open t b.info).convert E py!"/bags/n0" py!"1.0" none = (.ok (), s') ∧
    openBag cfg s'.tree = .ok b' ∧ bagValidate (fun _ => true) E.sum List.length cfg b' = .ok () ∧
    isValid (fun w => validateHead (fun _ => true)
      (b'.seen (fun _ => true) E.sum List.length cfg py!"n0") w none) PROB = .ok false := by
  obtain ⟨b, hb, hf⟩ := Sample.ok_of_check (r := openBag Sample.readCfg Sample.emptyBag) (f := fun b =>
    decide (bagValidate (fun _ => true) Sample.sum List.length Sample.readCfg b = .ok () ∧ b.info = [(py!"Contact", .one py!"me")] ∧
      b.algorithms = [py!"md5"])) (by decide +kernel)
  rw [decide_eq_true_eq] at hf
  obtain ⟨h1, h2, h3⟩ := hf
  obtain ⟨b', hb', hf⟩ := Sample.ok_of_check
    (r := openBag Sample.readCfg ((HeadBag.open Sample.emptyBag [(py!"Contact", .one py!"me")]).convert
      ⟨[py!"md5"], Sample.sum, fun _ => py!"1 kB"⟩ py!"/bags/n0" py!"1.0" none).2.tree) (f := fun b =>
    decide (bagValidate (fun _ => true) Sample.sum List.length Sample.readCfg b = .ok () ∧ isValid (fun w => validateHead (fun _ => true)
      (b.seen (fun _ => true) Sample.sum List.length Sample.readCfg py!"n0") w none) PROB = .ok false)) (by decide +kernel)
  rw [decide_eq_true_eq] at hf
  exact ⟨⟨[py!"md5"], Sample.sum, fun _ => py!"1 kB"⟩, Sample.readCfg, _, b, _, b', hb, h1, h3.symm,
    by rw [h2]; exact Prod.ext (by decide +kernel) rfl, hb', hf⟩

/-- C96 is false of the code if a member is recorded with a comment and without an identifier: the comment is written
where head bag validation expects the URI of the member. -/
theorem C96_negation_comment : ∃ (E : SaveEnv) (cfg : ReadCfg) (t : Tree) (b : RBag) (s' : HeadBag) (b' : RBag),
    openBag cfg t = .ok b ∧ bagValidate (fun _ => true) E.sum List.length cfg b = .ok () ∧ E.algs = b.algorithms ∧
    amend E false Sample.oldHead { name := py!"n0", comment := some py!"corrected" } py!"2.0" [] (HeadBag.open t b.info) =
      (.ok (), s') ∧
    openBag cfg s'.tree = .ok b' ∧ bagValidate (fun _ => true) E.sum List.length cfg b' = .ok () ∧
    isValid (fun w => validateHead (fun _ => true)
      (b'.seen (fun _ => true) E.sum List.length cfg py!"n0") w none) PROB = .ok false := by
  obtain ⟨b, hb, hv, hu, hi⟩ := Sample.plain_valid
  obtain ⟨b', hb', hf⟩ := Sample.ok_of_check
    (r := openBag Sample.readCfg (amend Sample.sumEnv false Sample.oldHead { name := py!"n0", comment := some py!"corrected" }
      py!"2.0" [] (HeadBag.open Sample.plainBag Sample.plainInfo)).2.tree) (f := fun b =>
    decide (bagValidate (fun _ => true) Sample.sum List.length Sample.readCfg b = .ok () ∧ isValid (fun w => validateHead (fun _ => true)
      (b.seen (fun _ => true) Sample.sum List.length Sample.readCfg py!"n0") w none) PROB = .ok false)) (by decide +kernel)
  rw [decide_eq_true_eq] at hf
  exact ⟨Sample.sumEnv, Sample.readCfg, _, b, _, b', hb, hv, hu.algs, by rw [hi]; exact Prod.ext (by decide +kernel) rfl, hb', hf⟩

/-- C96 is false of the code if the version of the new head bag is the one it amends: the library accepts this, and then
the head bag says that it deprecates itself. -/
theorem C96_negation_same_version : ∃ (E : SaveEnv) (cfg : ReadCfg) (t : Tree) (b : RBag) (s' : HeadBag) (b' : RBag),
    openBag cfg t = .ok b ∧ bagValidate (fun _ => true) E.sum List.length cfg b = .ok () ∧ E.algs = b.algorithms ∧
    amend E false Sample.oldHead Sample.newHead py!"1.1" [] (HeadBag.open t b.info) = (.ok (), s') ∧
    openBag cfg s'.tree = .ok b' ∧ bagValidate (fun _ => true) E.sum List.length cfg b' = .ok () ∧
    isValid (fun w => validateHead (fun _ => true)
      (b'.seen (fun _ => true) E.sum List.length cfg py!"n0") w none) PROB = .ok false := by
  obtain ⟨b, hb, hv, hu, hi⟩ := Sample.plain_valid
  obtain ⟨b', hb', hf⟩ := Sample.ok_of_check
    (r := openBag Sample.readCfg (amend Sample.sumEnv false Sample.oldHead Sample.newHead
      py!"1.1" [] (HeadBag.open Sample.plainBag Sample.plainInfo)).2.tree) (f := fun b =>
    decide (bagValidate (fun _ => true) Sample.sum List.length Sample.readCfg b = .ok () ∧ isValid (fun w => validateHead (fun _ => true)
      (b.seen (fun _ => true) Sample.sum List.length Sample.readCfg py!"n0") w none) PROB = .ok false)) (by decide +kernel)
  rw [decide_eq_true_eq] at hf
  exact ⟨Sample.sumEnv, Sample.readCfg, _, b, _, b', hb, hv, hu.algs, by rw [hi]; exact Prod.ext (by decide +kernel) rfl, hb', hf⟩

end Verif
