import Verif.Lemmas.AmendSave
/-!
# Lemmas about converting a single bag
-/

namespace Verif

open Spec

/-- Registering files for a bag that can report its lookup. -/
theorem registerAll_view {name : Str} {fs : List Str} {s s' : HeadBag} {d : List (Str × Str)}
    (hd : lookupView s = .ok d) (hok : TableOk d) (h : s.registerAll name fs = (.ok (), s')) :
    s'.tree = s.tree ∧ s'.info = s.info ∧ s'.members = s.members ∧ (fs = [] → s' = s) ∧
    (fs ≠ [] → s'.lookup ≠ none) ∧
    ∃ d', lookupView s' = .ok d' ∧ TableOk d' ∧ ∀ q, dget d' q = if q ∈ fs then some name else dget d q := by
  induction fs generalizing s d with
  | nil =>
    simp only [HeadBag.registerAll] at h
    injection h with _ h
    subst h
    exact ⟨rfl, rfl, rfl, fun _ => rfl, fun e => absurd rfl e, d, hd, hok, fun q => by simp⟩
  | cons f fs ih =>
    simp only [HeadBag.registerAll] at h
    cases ha : s.addFileLookup f name with
    | mk r s1 =>
      rw [ha] at h
      cases r with
      | error e => simp only at h; injection h with h; cases h
      | ok u =>
        simp only at h
        have hne : f ≠ [] ∧ name ≠ [] := by
          constructor
          · rintro rfl
            simp [HeadBag.addFileLookup] at ha
          · rintro rfl
            simp [HeadBag.addFileLookup] at ha
        obtain ⟨_, v2, v3, v4, v5, v6, _⟩ := addFileLookup_spec s f name hne.1 hne.2 d hd
        rw [ha] at v2 v3 v4 v5 v6
        simp only at v2 v3 v4 v5 v6
        obtain ⟨w1, w2, w3, w4, w5, d', w6, w7, w8⟩ := ih v2 (tableOk_dset hok hne.1 name) h
        refine ⟨w1.trans v4, w2.trans v5, w3.trans v6, (fun e => by cases e), fun _ => ?_, d', w6, w7, ?_⟩
        · by_cases hfs : fs = []
          · rw [w4 hfs, v3]; simp
          · exact w5 hfs
        · intro q
          rw [w8 q, dget_dset]
          by_cases h1 : q ∈ fs
          · rw [if_pos h1, if_pos (List.mem_cons_of_mem _ h1)]
          · rw [if_neg h1]
            by_cases h2 : f = q
            · rw [if_pos h2, if_pos (h2 ▸ List.mem_cons_self)]
            · rw [if_neg h2, if_neg]
              intro hc
              rcases List.mem_cons.1 hc with e | e
              · exact h2 e.symm
              · exact h1 e

/-- `update_info` unless the bag has a profile version. -/
theorem updated_ok {E : SaveEnv} {s s' : HeadBag}
    (htag : ∀ l, dget s.info py!"Multibag-Tag-Directory" ≠ some (.many l))
    (hver : noProfile s.info = false → verLt (profileVersion s.info) py!"0.3" = false)
    (h : (if noProfile s.info then s.updateInfo E (some py!"1") CURRENT_VERSION else (.ok (), s)) = (.ok (), s')) :
    InfoOk s'.info ∧ tagDir s'.info = tagDir s.info ∧ s'.members = s.members ∧ s'.lookup = s.lookup ∧
    (noProfile s.info = false → s' = s) ∧
    (∀ p, p ≠ [py!"bag-info.txt"] → (∀ a ∈ E.algs, p ≠ manPath py!"tagmanifest" a) →
      dget s'.tree p = dget s.tree p) ∧
    ((∀ a ∈ E.algs, '/' ∉ a) → WfTree s.tree → WfTree s'.tree) := by
  by_cases hn : noProfile s.info = true
  · rw [if_pos hn] at h
    obtain ⟨⟨t0, e⟩, _, f, w, m, l, _⟩ := updateInfo_ok h
    have hrt : readerTagDir s.info = .ok (tagDir s.info) := by
      unfold readerTagDir tagDir
      cases hg : dget s.info py!"Multibag-Tag-Directory" with
      | none => rfl
      | some v =>
        cases v with
        | one v => rfl
        | many l => exact absurd hg (htag l)
    refine ⟨⟨?_, ?_⟩, by rw [e, tagDir_updateInfo], m, l, (fun hc => by rw [hn] at hc; cases hc), f, w⟩
    · rw [e]
      unfold readerTagDir at hrt ⊢
      rw [tagDir_updateInfo, dget_updateInfo_tag]
      cases hg : dget s.info py!"Multibag-Tag-Directory" with
      | none => rw [hg] at hrt; exact hrt
      | some v => rw [hg] at hrt; exact hrt
    · rw [e]
      unfold profileVersion infoItem
      rw [dget_updateInfo_version]
      show verLt CURRENT_VERSION py!"0.3" = false
      decide
  · have hn' : noProfile s.info = false := by simpa using hn
    rw [if_neg hn] at h
    injection h with _ h
    subst h
    refine ⟨⟨?_, hver hn'⟩, rfl, rfl, rfl, fun _ => rfl, fun _ _ _ => rfl, fun _ => id⟩
    unfold readerTagDir tagDir
    cases hg : dget s.info py!"Multibag-Tag-Directory" with
    | none => rfl
    | some v =>
      cases v with
      | one v => rfl
      | many l => exact absurd hg (htag l)

/-- What a successful conversion leaves behind. -/
structure Converted (E : SaveEnv) (dir version : Str) (pid : Option Str) (tree : Tree) (info : Info) (u : Tree)
    (s' : HeadBag) : Prop where
  uframe : ∀ p, p ≠ tagFile (tagDir info) py!"member-bags.tsv" → p ≠ tagFile (tagDir info) py!"file-lookup.tsv" →
    p ≠ comps (tagDir info) → p ≠ [py!"bag-info.txt"] → (∀ a, p ≠ manPath py!"tagmanifest" a) →
    dget u p = dget tree p
  uwf : (∀ a ∈ E.algs, '/' ∉ a) → GoodPath (comps (tagDir info)) → WfTree tree → WfTree u
  members : Writable [⟨baseName dir, pid, none, []⟩] →
    membersView (HeadBag.open s'.tree s'.info) = .ok [⟨baseName dir, pid, none, []⟩]
  lookup : ∃ d, TableOk d ∧
    (∀ q, dget d q = if q ∈ filesFor false u [py!"data"] (fun _ => false)
      then some (baseName (rstripBy (fun c => c = '/') dir)) else none) ∧
    ((∀ e ∈ d, Plain e.1 ∧ Plain e.2) → lookupView (HeadBag.open s'.tree s'.info) = .ok d) ∧
    (d ≠ [] → s'.tree.read (tagFile (tagDir info) py!"file-lookup.tsv") = some (lookupText d))
  memberText : ∃ text, membersText [⟨baseName dir, pid, none, []⟩] = .ok text ∧
    s'.tree.read (tagFile (tagDir info) py!"member-bags.tsv") = some text
  nofile : filesFor false u [py!"data"] (fun _ => false) = [] →
    s'.tree.read (tagFile (tagDir info) py!"file-lookup.tsv") = none
  newInfo : ∃ t0 t1, s'.info = updateInfo (fun _ => E.size t1) (some version) CURRENT_VERSION
    (if noProfile info then updateInfo (fun _ => E.size t0) (some py!"1") CURRENT_VERSION info else info)
  infoOk : InfoOk s'.info
  saved : s'.tree.read [py!"bag-info.txt"] = some (fieldsText (tagFields s'.info))
  frame : ∀ p, p ≠ tagFile (tagDir info) py!"member-bags.tsv" → p ≠ tagFile (tagDir info) py!"file-lookup.tsv" →
    p ≠ comps (tagDir info) → p ≠ [py!"bag-info.txt"] → (∀ a, p ≠ manPath py!"tagmanifest" a) →
    dget s'.tree p = dget tree p
  last : ∃ s : HeadBag, s.updateInfo E (some version) CURRENT_VERSION = (.ok (), s') ∧
    (∃ t0, s.info = if noProfile info then updateInfo (fun _ => E.size t0) (some py!"1") CURRENT_VERSION info else info) ∧
    ((∀ a ∈ E.algs, '/' ∉ a) → GoodPath (comps (tagDir info)) → WfTree tree → WfTree s.tree) ∧
    ∀ p, p ≠ tagFile (tagDir info) py!"member-bags.tsv" → p ≠ tagFile (tagDir info) py!"file-lookup.tsv" →
      p ≠ comps (tagDir info) → p ≠ [py!"bag-info.txt"] → (∀ a ∈ E.algs, p ≠ manPath py!"tagmanifest" a) →
      dget s.tree p = dget tree p

theorem noProfile_updateInfo (z : (Str → List Str) → Str) (version : Option Str) (info : Info) :
    noProfile (updateInfo z version CURRENT_VERSION info) = false := by
  unfold noProfile
  rw [dget_updateInfo_version]
  rfl

theorem converted {E : SaveEnv} {dir version : Str} {pid : Option Str} {tree : Tree} {info : Info} {s' : HeadBag}
    (htag : ∀ l, dget info py!"Multibag-Tag-Directory" ≠ some (.many l))
    (hver : noProfile info = false → verLt (profileVersion info) py!"0.3" = false)
    (h : (HeadBag.open tree info).convert E dir version pid = (.ok (), s')) :
    ∃ u, Converted E dir version pid tree info u s' := by
  unfold HeadBag.convert at h
  cases h1 : (HeadBag.open tree info).writeMemberBags E dir pid with
  | mk r s2 =>
  rw [h1] at h
  cases r with
  | error e => simp only at h; injection h with h; cases h
  | ok x =>
  simp only at h
  cases h2 : s2.writeFileLookup E dir .none .none true with
  | mk r s5 =>
  rw [h2] at h
  cases r with
  | error e => simp only at h; injection h with h; cases h
  | ok x =>
  simp only at h
  -- the member list
  unfold HeadBag.writeMemberBags at h1
  simp only at h1
  cases h0 : (if noProfile (HeadBag.open tree info).info then
      (HeadBag.open tree info).updateInfo E (some py!"1") CURRENT_VERSION else (.ok (), HeadBag.open tree info) : Res Unit) with
  | mk r s0 =>
  rw [h0] at h1
  cases r with
  | error e => simp only at h1; injection h1 with h1; cases h1
  | ok x =>
  simp only [HeadBag.setMemberBags] at h1
  obtain ⟨i0, td0, m0, l0, same0, f0, w0⟩ := updated_ok (E := E) (s := HeadBag.open tree info) htag hver h0
  rcases saveMembers_ok h1 with ⟨e, _⟩ | ⟨ms, text, t2, e, htext, e2, hs2⟩
  · cases e
  simp only [Option.some.injEq] at e
  subst e
  have w2 : GoodPath (comps (tagDir info)) → WfTree s0.tree → WfTree s2.tree := by
    intro hg hw
    exact wf_saveMembers h1 (by show GoodPath (comps (tagDir s0.info)); rw [td0]; exact hg) hw
  have hi2 : s2.info = s0.info := by rw [e2]
  have hnp : noProfile s2.info = false := by
    rw [hi2]
    by_cases hn : noProfile (HeadBag.open tree info).info = true
    · rw [if_pos hn] at h0
      obtain ⟨⟨z, ez⟩, _⟩ := updateInfo_ok h0
      rw [ez]
      exact noProfile_updateInfo _ _ _
    · have hn' : noProfile (HeadBag.open tree info).info = false := by simpa using hn
      rw [same0 hn']; exact hn'
  -- the lookup
  unfold HeadBag.writeFileLookup at h2
  rw [hnp] at h2
  simp only [Bool.false_eq_true, if_false, if_true] at h2
  cases h3 : s2.clearFileLookup with
  | mk r s3 =>
  rw [h3] at h2
  cases r with
  | error e => simp only at h2; injection h2 with h2; cases h2
  | ok x =>
  simp only [updateForMember_false] at h2
  have hinfo2 : InfoOk s2.info := by rw [hi2]; exact i0
  have htd2 : tagDir s2.info = tagDir info := by rw [hi2, td0]; rfl
  obtain ⟨_, v2, _, v4, v5, _, v7⟩ := clearLookup_ok hinfo2 h3
  obtain ⟨c1, c2, c3⟩ := clearLookup_shape h3
  cases h4 : s3.registerAll (baseName (rstripBy (fun c => c = '/') dir))
      (filesFor false s3.tree (includeList .none .none) Arg.none.has) with
  | mk r s4 =>
  rw [h4] at h2
  cases r with
  | error e => simp only at h2; injection h2 with h2; cases h2
  | ok x =>
  simp only at h2
  obtain ⟨g1, g2, g3, g4, g5, d, g6, g7, g8⟩ := registerAll_view v2 tableOk_nil h4
  have hi4 : s4.info = s2.info := by rw [g2, v4]
  have hinfo4 : InfoOk s4.info := by rw [hi4]; exact hinfo2
  have htd4 : tagDir s4.info = tagDir info := by rw [hi4, htd2]
  obtain ⟨x1, x2, _, y1, _⟩ := saveLookup_views hinfo4 h2
  have hinfo5 : InfoOk s5.info := by rw [y1]; exact hinfo4
  have htd5 : tagDir s5.info = tagDir info := by rw [y1, htd4]
  obtain ⟨⟨z, hz⟩, hsv, hf6, hw6, _⟩ := updateInfo_ok h
  have hinfo6 : InfoOk s'.info := by rw [hz]; exact infoOk_updateInfo hinfo5 (by decide)
  have htd6 : tagDir s'.info = tagDir info := by rw [hz, tagDir_updateInfo, htd5]
  have n1 := tagFile_ne_info (dir := tagDir info) comps_members (by decide) (by decide)
  have n2 := tagFile_ne_info (dir := tagDir info) comps_lookup (by decide) (by decide)
  have hs2' : SavedTo s0.tree s2.tree (comps (tagDir info)) (tagFile (tagDir info) py!"member-bags.tsv") text := by
    have : s2.tree = t2 := by rw [e2]
    rw [this]
    have h' := hs2
    simp only [td0] at h'
    exact h'
  have hframe3 : ∀ p, p ≠ tagFile (tagDir info) py!"member-bags.tsv" → p ≠ tagFile (tagDir info) py!"file-lookup.tsv" →
      p ≠ comps (tagDir info) → p ≠ [py!"bag-info.txt"] → (∀ a ∈ E.algs, p ≠ manPath py!"tagmanifest" a) →
      dget s3.tree p = dget tree p := by
    intro p a1 a2 a3 a4 a5
    rw [v7 p (by rw [htd2]; exact a2), hs2'.frame p a1 a3, f0 p a4 a5]
    rfl
  have hread5 : ∀ p, p ≠ tagFile (tagDir info) py!"file-lookup.tsv" → p ≠ comps (tagDir info) →
      dget s5.tree p = dget s3.tree p := by
    intro p a1 a2
    rcases saveLookup_ok h2 with ⟨_, e3⟩ | ⟨d3, t3, _, e3, hs3⟩
    · rw [e3, g1]
    · rw [htd4] at hs3
      rw [e3]
      exact (hs3.frame p a1 a2).trans (by rw [g1])
  have hread : s'.tree.read (tagFile (tagDir s'.info) py!"member-bags.tsv") = some text := by
    rw [read_eq, htd6, hf6 _ n1.1 (fun a _ => n1.2 a),
      hread5 _ (tagFile_inj comps_members comps_lookup ne1) (tagFile_ne_dir _ _ comps_members rfl),
      v7 _ (by rw [htd2]; exact tagFile_inj comps_members comps_lookup ne1), ← read_eq]
    exact hs2'.content
  refine ⟨s3.tree, fun p a1 a2 a3 a4 a5 => hframe3 p a1 a2 a3 a4 (fun a _ => a5 a), ?_, ?_, ⟨d, g7, ?_, ?_, ?_⟩, ⟨text, htext, by rw [← htd6]; exact hread⟩, ?_, ?_, hinfo6,
    hsv, ?_, s5, h, ?_, ?_, ?_⟩
  · intro ha hg hw
    exact c3 (w2 hg (w0 ha hw))
  · intro hwr
    refine open_members_eq hinfo6 hread htext (fun m hm => (hwr m hm).1) ?_
    intro m hm
    exact (hwr m (List.mem_of_mem_head? hm)).2
  · intro q
    rw [g8 q]
    rfl
  · intro hpl
    have hsame : s'.tree.read (tagFile (tagDir info) py!"file-lookup.tsv") =
        s5.tree.read (tagFile (tagDir info) py!"file-lookup.tsv") := by
      rw [read_eq, hf6 _ n2.1 (fun a _ => n2.2 a), ← read_eq]
    have hd5 : lookupView s5 = .ok d := by rw [x2, g6]
    rcases saveLookup_ok h2 with ⟨e3, e4⟩ | ⟨d3, t3, e3, e4, hs3⟩
    · rw [e4] at hd5 hsame
      rw [lookupView, e3] at hd5
      simp only [iterLookup_03 hinfo4] at hd5
      rw [lookupView]
      simp only [HeadBag.open, iterLookup_03 hinfo6, htd6, hsame]
      rw [htd4] at hd5
      exact hd5
    · have : d3 = d := by
        rw [lookupView, e3] at g6
        exact Except.ok.inj g6
      subst this
      refine open_lookup_eq hinfo6 ?_ g7.nodup (fun e he => ⟨(hpl e he).1.clean, (hpl e he).2.clean⟩)
        (fun e he => (hpl e (List.mem_of_mem_head? he)).1.nobom)
      rw [htd6, hsame, e4, ← htd4]
      exact hs3.content
  · intro hne
    have hsome : s4.lookup ≠ none := by
      obtain ⟨e, es, he⟩ := List.exists_cons_of_ne_nil hne
      refine g5 (fun hnil => ?_)
      have := g8 e.1
      rw [hnil] at this
      rw [he] at this
      simp [dget] at this
    rcases saveLookup_ok h2 with ⟨e3, _⟩ | ⟨d3, t3, e3, e4, hs3⟩
    · exact absurd e3 hsome
    · have : d3 = d := by
        rw [lookupView, e3] at g6
        exact Except.ok.inj g6
      subst this
      rw [read_eq, hf6 _ n2.1 (fun a _ => n2.2 a), ← read_eq, e4, ← htd4]
      exact hs3.content
  · intro hemp
    have hl4 : s4.lookup = none := by rw [g4 hemp]; exact c1
    rcases saveLookup_ok h2 with ⟨_, e4⟩ | ⟨d3, t3, e3, _⟩
    · rw [read_eq, hf6 _ n2.1 (fun a _ => n2.2 a), e4, g1, ← read_eq, ← htd2]
      exact c2
    · rw [hl4] at e3; cases e3
  · by_cases hn : noProfile (HeadBag.open tree info).info = true
    · rw [if_pos hn] at h0
      obtain ⟨⟨z0, ez⟩, _⟩ := updateInfo_ok h0
      refine ⟨z0, z, ?_⟩
      have hn' : noProfile info = true := hn
      rw [if_pos hn', hz, y1, hi4, hi2, ez]
      rfl
    · have hn' : noProfile info = false := (by cases hb : noProfile info with | true => exact absurd hb hn | false => rfl)
      refine ⟨tree, z, ?_⟩
      rw [hn', hz, y1, hi4, hi2, same0 hn']
      rfl
  · intro p a1 a2 a3 a4 a5
    rw [hf6 p a4 (fun a _ => a5 a), hread5 p a2 a3, hframe3 p a1 a2 a3 a4 (fun a _ => a5 a)]
  · by_cases hn : noProfile (HeadBag.open tree info).info = true
    · rw [if_pos hn] at h0
      obtain ⟨⟨z0, ez⟩, _⟩ := updateInfo_ok h0
      have hn' : noProfile info = true := hn
      exact ⟨z0, by rw [if_pos hn', y1, hi4, hi2, ez]; rfl⟩
    · have hn' : noProfile info = false := (by cases hb : noProfile info with | true => exact absurd hb hn | false => rfl)
      exact ⟨tree, by rw [hn', y1, hi4, hi2, same0 hn']; rfl⟩
  · intro ha hg hw
    refine wf_saveLookup h2 (by rw [htd4]; exact hg) ?_
    rw [g1]
    exact c3 (w2 hg (w0 ha hw))
  · intro p a1 a2 a3 a4 a5
    rw [hread5 p a2 a3, hframe3 p a1 a2 a3 a4 a5]

end Verif
