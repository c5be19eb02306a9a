import Verif.Lemmas.HeadBagSave
import Verif.Spec.HeadBag
/-!
# Invariants of head bag histories
-/

namespace Verif

open Spec

/-! ## Sets -/

theorem pySet_go {α : Type} [DecidableEq α] (l acc : List α) (hn : acc.Nodup) :
    (l.foldl (fun acc x => if x ∈ acc then acc else acc ++ [x]) acc).Nodup ∧
    ∀ x, x ∈ l.foldl (fun acc x => if x ∈ acc then acc else acc ++ [x]) acc ↔ x ∈ acc ∨ x ∈ l := by
  induction l generalizing acc with
  | nil => simp [hn]
  | cons y ys ih =>
    rw [List.foldl_cons]
    by_cases hy : y ∈ acc
    · rw [if_pos hy]
      obtain ⟨h1, h2⟩ := ih acc hn
      refine ⟨h1, fun x => ?_⟩
      rw [h2]; simp only [List.mem_cons]
      constructor
      · rintro (h | h)
        · exact .inl h
        · exact .inr (.inr h)
      · rintro (h | rfl | h)
        · exact .inl h
        · exact .inl hy
        · exact .inr h
    · rw [if_neg hy]
      obtain ⟨h1, h2⟩ := ih (acc ++ [y]) (by
        rw [List.nodup_append]
        refine ⟨hn, by simp, ?_⟩
        rintro a ha b hb rfl
        simp at hb; subst hb; exact hy ha)
      refine ⟨h1, fun x => ?_⟩
      rw [h2]; simp [or_assoc]

theorem nodup_pySet {α : Type} [DecidableEq α] (l : List α) : (pySet l).Nodup :=
  (pySet_go l [] (by simp)).1

theorem mem_pySet {α : Type} [DecidableEq α] {l : List α} {x : α} : x ∈ pySet l ↔ x ∈ l := by
  have := (pySet_go l [] (by simp)).2 x
  simpa [pySet] using this

theorem pySet_of_nodup {α : Type} [DecidableEq α] {l : List α} (h : l.Nodup) : pySet l = l := by
  have : ∀ (l acc : List α), (acc ++ l).Nodup →
      l.foldl (fun acc x => if x ∈ acc then acc else acc ++ [x]) acc = acc ++ l := by
    intro l
    induction l with
    | nil => simp
    | cons y ys ih =>
      intro acc hn
      rw [List.foldl_cons, if_neg, ih]
      · simp
      · simpa using hn
      · intro hy
        rw [List.nodup_append] at hn
        exact hn.2.2 y hy y (by simp) rfl
  simpa [pySet] using this l [] (by simpa using h)

/-! ## Fields read from files -/

theorem path_ne_nil_of_parse {l : Str} {r : Str × Str} (hb : strip l ≠ [])
    (h : parseFileLookup03 l = .ok r) : r.1 ≠ [] := by
  unfold parseFileLookup03 at h
  split at h
  · rename_i a b t e
    injection h with h; subst h
    intro ha
    exact hb ((splitOn_head_eq_nil (trimmed_strip l) e).1 ha)
  · cases h

theorem paths_ne_nil_of_read {mode : TextMode} {text : Str} {rs : List (Str × Str)}
    (h : readLookup03 mode text = .ok rs) : ∀ r ∈ rs, r.1 ≠ [] := by
  intro r hr
  have := readRecords_eq_mapM.1 h
  obtain ⟨l, hl, hp⟩ := forall₂_mem_right this hr
  exact path_ne_nil_of_parse (by simpa using (List.mem_filter.1 hl).2) hp

theorem mem_dkeys_dofPairs {rs : List (Str × Str)} {p : Str} (h : p ∈ dkeys (dofPairs rs)) :
    ∃ r ∈ rs, r.1 = p := by
  obtain ⟨v, hv⟩ := mem_dkeys_iff.1 h
  have := dget_foldl_dset rs [] p
  rw [dofPairs] at hv
  rw [hv] at this
  cases hf : rs.reverse.find? (fun q => q.1 = p) with
  | none => rw [hf] at this; simp [dget] at this
  | some q =>
    exact ⟨q, by simpa using List.mem_of_find?_eq_some hf, by simpa using List.find?_some hf⟩

/-! ## The invariant -/

/-- The metadata names one tag directory (or none) and a profile version of at
least 0.3. -/
structure InfoOk (info : Info) : Prop where
  tag : readerTagDir info = .ok (tagDir info)
  ver : verLt (profileVersion info) py!"0.3" = false

/-- A usable lookup table: distinct, non-empty paths. -/
structure TableOk (d : List (Str × Str)) : Prop where
  nodup : (dkeys d).Nodup
  nonempty : ∀ p ∈ dkeys d, p ≠ []

/-- The object can report its members, lookup and deletions. -/
structure Inv (s : HeadBag) : Prop where
  info : InfoOk s.info
  members : ∃ ms, membersView s = .ok ms
  lookup : ∃ d, lookupView s = .ok d ∧ TableOk d
  deleted : ∃ ps, deletedView s = .ok ps ∧ ps.Nodup

theorem tableOk_nil : TableOk [] := ⟨by simp [dkeys], by simp [dkeys]⟩

theorem tableOk_dset {d : List (Str × Str)} (h : TableOk d) {p : Str} (hp : p ≠ []) (b : Str) :
    TableOk (dset d p b) :=
  ⟨nodup_dset h.nodup _ _, fun q hq => by
    rcases mem_dkeys_dset.1 hq with rfl | hq
    · exact hp
    · exact h.nonempty q hq⟩

theorem tableOk_filter {d : List (Str × Str)} (h : TableOk d) (f : Str × Str → Bool) :
    TableOk (d.filter f) := by
  constructor
  · exact h.nodup.sublist (List.Sublist.map _ List.filter_sublist)
  · intro p hp
    obtain ⟨q, hq, rfl⟩ := List.mem_map.1 hp
    exact h.nonempty _ (List.mem_map.2 ⟨q, (List.mem_filter.1 hq).1, rfl⟩)

theorem tableOk_ddel {d : List (Str × Str)} (h : TableOk d) (p : Str) : TableOk (ddel d p) :=
  tableOk_filter h _

theorem iterLookup_03 {mode : TextMode} {t : Tree} {info : Info} (hi : InfoOk info) :
    iterLookup mode t info = match t.read (tagFile (tagDir info) py!"file-lookup.tsv") with
      | none => .error .missingFile
      | some text => readLookup03 mode text := by
  unfold iterLookup
  rw [hi.tag]
  simp only [lookupFileName, hi.ver]
  rfl

theorem iterMembers_03 {mode : TextMode} {t : Tree} {info : Info} (hi : InfoOk info) :
    iterMembers mode t info = match t.read (tagFile (tagDir info) py!"member-bags.tsv") with
      | none => .error .missingFile
      | some text => readMembers03 mode text := by
  unfold iterMembers
  rw [hi.tag]
  simp only [membersFileName, hi.ver]
  rfl

theorem tableOk_iter {t : Tree} {info : Info} (hi : InfoOk info) {ps : List (Str × Str)}
    {mode : TextMode} (h : iterLookup mode t info = .ok ps) : TableOk (dofPairs ps) := by
  rw [iterLookup_03 hi] at h
  split at h
  · cases h
  · refine ⟨nodup_dofPairs _, fun p hp => ?_⟩
    obtain ⟨r, hr, rfl⟩ := mem_dkeys_dofPairs hp
    exact paths_ne_nil_of_read h r hr

/-- Any readable table is usable. -/
theorem tableOk_of_view {s : HeadBag} (hi : InfoOk s.info)
    (hc : ∀ d, s.lookup = some d → TableOk d) {d : List (Str × Str)} (h : lookupView s = .ok d) :
    TableOk d := by
  unfold lookupView at h
  split at h
  · rename_i d' hd; injection h with h; subst h; exact hc _ hd
  · split at h
    · rename_i ps hp; injection h with h; subst h; exact tableOk_iter hi hp
    · injection h with h; subst h; exact tableOk_nil
    · cases h

/-! ## Saving one file does not affect the others -/

theorem savedTo_read {t t' : Tree} {dir : Str} {n n' : Str} {text : Str}
    (hn : comps n = [n]) (hn' : comps n' = [n']) (hne : n ≠ n')
    (h : SavedTo t t' (comps dir) (tagFile dir n) text) :
    t'.read (tagFile dir n') = t.read (tagFile dir n') := by
  rw [read_eq, read_eq, h.frame _ (tagFile_inj hn' hn (fun e => hne e.symm)) (tagFile_ne_dir _ _ hn' rfl)]

theorem savedTo_dget {t t' : Tree} {dir : Str} {n n' : Str} {text : Str}
    (hn : comps n = [n]) (hn' : comps n' = [n']) (hne : n ≠ n')
    (h : SavedTo t t' (comps dir) (tagFile dir n) text) :
    dget t' (tagFile dir n') = dget t (tagFile dir n') :=
  h.frame _ (tagFile_inj hn' hn (fun e => hne e.symm)) (tagFile_ne_dir _ _ hn' rfl)

theorem membersView_congr {s s' : HeadBag} (hi : InfoOk s.info) (h1 : s'.members = s.members)
    (h2 : s'.info = s.info)
    (h3 : s.members = none → s'.tree.read (tagFile (tagDir s.info) py!"member-bags.tsv") =
      s.tree.read (tagFile (tagDir s.info) py!"member-bags.tsv")) : membersView s' = membersView s := by
  unfold membersView
  rw [h1]
  cases hm : s.members with
  | some ms => rfl
  | none => simp only [h2, iterMembers_03 hi, h3 hm]

theorem lookupView_congr {s s' : HeadBag} (hi : InfoOk s.info) (h1 : s'.lookup = s.lookup)
    (h2 : s'.info = s.info)
    (h3 : s.lookup = none → s'.tree.read (tagFile (tagDir s.info) py!"file-lookup.tsv") =
      s.tree.read (tagFile (tagDir s.info) py!"file-lookup.tsv")) : lookupView s' = lookupView s := by
  unfold lookupView
  rw [h1]
  cases hm : s.lookup with
  | some ms => rfl
  | none => simp only [h2, iterLookup_03 hi, h3 hm]

theorem deletedView_congr {s s' : HeadBag} (h1 : s'.deleted = s.deleted)
    (h2 : s'.info = s.info)
    (h3 : s.deleted = none → dget s'.tree (deletedFile s.info) = dget s.tree (deletedFile s.info)) :
    deletedView s' = deletedView s := by
  unfold deletedView
  rw [h1]
  cases hm : s.deleted with
  | some ms => rfl
  | none => simp only [h2, iterDeleted, h3 hm]

theorem ne1 : py!"member-bags.tsv" ≠ py!"file-lookup.tsv" := by decide
theorem ne2 : py!"member-bags.tsv" ≠ py!"deleted.txt" := by decide
theorem ne3 : py!"file-lookup.tsv" ≠ py!"deleted.txt" := by decide

/-- All views survive a successful `save_member_bags`. -/
theorem saveMembers_views {s s' : HeadBag} (hi : InfoOk s.info)
    (h : s.saveMemberBags = (.ok (), s')) :
    membersView s' = membersView s ∧ lookupView s' = lookupView s ∧ deletedView s' = deletedView s ∧
    s'.info = s.info ∧ s'.members = s.members ∧ s'.lookup = s.lookup ∧ s'.deleted = s.deleted := by
  rcases saveMembers_ok h with ⟨_, rfl⟩ | ⟨ms, text, t, hm, ht, rfl, hs⟩
  · simp
  · refine ⟨membersView_congr hi rfl rfl (by simp [hm]), lookupView_congr hi rfl rfl (fun _ => ?_),
      deletedView_congr rfl rfl (fun _ => ?_), rfl, rfl, rfl, rfl⟩
    · exact savedTo_read comps_members comps_lookup ne1 hs
    · exact savedTo_dget comps_members comps_deleted ne2 hs

/-- All views survive a successful `save_file_lookup`. -/
theorem saveLookup_views {s s' : HeadBag} (hi : InfoOk s.info)
    (h : s.saveFileLookup = (.ok (), s')) :
    membersView s' = membersView s ∧ lookupView s' = lookupView s ∧ deletedView s' = deletedView s ∧
    s'.info = s.info ∧ s'.members = s.members ∧ s'.lookup = s.lookup ∧ s'.deleted = s.deleted := by
  rcases saveLookup_ok h with ⟨_, rfl⟩ | ⟨d, t, hm, rfl, hs⟩
  · simp
  · refine ⟨membersView_congr hi rfl rfl (fun _ => ?_), lookupView_congr hi rfl rfl (by simp [hm]),
      deletedView_congr rfl rfl (fun _ => ?_), rfl, rfl, rfl, rfl⟩
    · exact savedTo_read comps_lookup comps_members ne1.symm hs
    · exact savedTo_dget comps_lookup comps_deleted ne3 hs

/-- All views survive a successful `save_deleted`. -/
theorem saveDeleted_views {s s' : HeadBag} {enum : List Str → List Str} (hi : InfoOk s.info)
    (h : s.saveDeleted enum = (.ok (), s')) :
    membersView s' = membersView s ∧ lookupView s' = lookupView s ∧ deletedView s' = deletedView s ∧
    s'.info = s.info ∧ s'.members = s.members ∧ s'.lookup = s.lookup ∧ s'.deleted = s.deleted := by
  rcases saveDeleted_ok h with ⟨_, rfl⟩ | ⟨d, t, hm, rfl, hs⟩
  · simp
  · refine ⟨membersView_congr hi rfl rfl (fun _ => ?_), lookupView_congr hi rfl rfl (fun _ => ?_),
      deletedView_congr rfl rfl (by simp [hm]), rfl, rfl, rfl, rfl⟩
    · exact savedTo_read comps_deleted comps_members ne2.symm hs
    · exact savedTo_read comps_deleted comps_lookup ne3.symm hs

theorem clearLookup_ok {s s' : HeadBag} (hi : InfoOk s.info) (h : s.clearFileLookup = (.ok (), s')) :
    membersView s' = membersView s ∧ lookupView s' = .ok [] ∧ deletedView s' = deletedView s ∧
    s'.info = s.info ∧ s'.members = s.members ∧ s'.deleted = s.deleted ∧
    (∀ p, p ≠ tagFile (tagDir s.info) py!"file-lookup.tsv" → dget s'.tree p = dget s.tree p) := by
  unfold HeadBag.clearFileLookup at h
  simp only at h
  split at h
  · split at h
    · injection h with h; cases h
    · rename_i t ht
      injection h with _ h
      subst h
      have e := remove_ok ht
      have hr : ∀ p, p ≠ tagFile (tagDir s.info) py!"file-lookup.tsv" → dget t p = dget s.tree p := by
        intro p hp
        rw [e, dget_ddel, if_neg (fun e => hp e.symm)]
      refine ⟨membersView_congr hi rfl rfl (fun _ => ?_), ?_, deletedView_congr rfl rfl (fun _ => ?_),
        rfl, rfl, rfl, hr⟩
      · simp only [read_eq, hr _ (tagFile_inj comps_members comps_lookup ne1)]
      · unfold lookupView
        simp only [iterLookup_03 hi, read_eq, e, dget_ddel, if_pos]
      · exact hr _ (tagFile_inj comps_deleted comps_lookup ne3.symm)
  · rename_i hex
    injection h with _ h
    subst h
    refine ⟨membersView_congr hi rfl rfl (fun _ => rfl), ?_, deletedView_congr rfl rfl (fun _ => rfl),
        rfl, rfl, rfl, fun _ _ => rfl⟩
    unfold lookupView
    simp only [iterLookup_03 hi, read_eq]
    have : dget s.tree (tagFile (tagDir s.info) py!"file-lookup.tsv") = none := by
      simp [Tree.exists] at hex
      exact hex.2
    simp only [this]

/-! ## Reloading -/

theorem reloadMembers_ok {s s' : HeadBag} (h : (s.memberBags true).void = (.ok (), s')) :
    s'.tree = s.tree ∧ s'.info = s.info ∧ s'.lookup = s.lookup ∧ s'.deleted = s.deleted ∧
    ((∃ ms, membersView s = .ok ms) → ∃ ms, membersView s' = .ok ms) := by
  unfold HeadBag.memberBags at h
  simp only [Bool.true_or, if_true] at h
  split at h
  · rename_i ms hm
    simp [Res.void] at h
    subst h
    simp [membersView]
  · simp [Res.void] at h
    subst h
    simp
  · simp [Res.void] at h

theorem reloadLookup_ok {s s' : HeadBag} {p : Str} (hi : InfoOk s.info)
    (h : (s.lookupFile p true).void = (.ok (), s')) :
    s'.tree = s.tree ∧ s'.info = s.info ∧ s'.members = s.members ∧ s'.deleted = s.deleted ∧
    ((∃ d, lookupView s = .ok d ∧ TableOk d) → ∃ d, lookupView s' = .ok d ∧ TableOk d) := by
  unfold HeadBag.lookupFile HeadBag.cacheLookup at h
  simp only [Bool.true_or, if_true] at h
  cases hl : iterLookup .codecs s.tree s.info with
  | ok ps =>
    rw [hl] at h
    simp [Res.void] at h
    subst h
    refine ⟨rfl, rfl, rfl, rfl, fun _ => ⟨dofPairs ps, by simp [lookupView], tableOk_iter hi hl⟩⟩
  | error e =>
    rw [hl] at h
    cases e <;> simp [Res.void] at h
    subst h
    exact ⟨rfl, rfl, rfl, rfl, fun h => h⟩

theorem reloadDeleted_ok {s s' : HeadBag} (h : (s.deletedPaths true).void = (.ok (), s')) :
    s'.tree = s.tree ∧ s'.info = s.info ∧ s'.members = s.members ∧ s'.lookup = s.lookup ∧
    ∃ ps, deletedView s' = .ok ps ∧ ps.Nodup := by
  unfold HeadBag.deletedPaths at h
  simp only [Bool.true_or, if_true] at h
  split at h
  · rename_i ps hm
    simp [Res.void] at h
    subst h
    exact ⟨rfl, rfl, rfl, rfl, pySet ps, by simp [deletedView], nodup_pySet _⟩
  · simp [Res.void] at h

theorem void_ok {α : Type} {r : Res α} {s : HeadBag} (h : r.void = (.ok (), s)) :
    ∃ a, r = (.ok a, s) := by
  obtain ⟨x, y⟩ := r
  cases x with
  | error e => simp [Res.void] at h
  | ok a => simp [Res.void] at h; subst h; exact ⟨a, rfl⟩

/-! ## The invariant is kept -/

theorem inv_of_views {s s' : HeadBag} (h : Inv s) (hi : s'.info = s.info)
    (h1 : membersView s' = membersView s) (h2 : lookupView s' = lookupView s)
    (h3 : deletedView s' = deletedView s) : Inv s' :=
  ⟨hi ▸ h.info, h1 ▸ h.members, h2 ▸ h.lookup, h3 ▸ h.deleted⟩

theorem nodup_filter' {α : Type} {l : List α} {f : α → Bool} (h : l.Nodup) : (l.filter f).Nodup :=
  h.sublist List.filter_sublist

end Verif

namespace Verif

open Spec

theorem dget_filter_snd {d : List (Str × Str)} (hn : (dkeys d).Nodup) (b q : Str) :
    dget (d.filter (fun p => p.2 ≠ b)) q = if dget d q = some b then none else dget d q := by
  have hn' : (dkeys (d.filter (fun p => p.2 ≠ b))).Nodup :=
    hn.sublist (List.Sublist.map _ List.filter_sublist)
  cases h : dget d q with
  | none =>
    simp only [reduceCtorEq, if_false]
    cases h' : dget (d.filter (fun p => p.2 ≠ b)) q with
    | none => rfl
    | some v =>
      have := (List.mem_filter.1 ((dget_iff_mem hn').1 h')).1
      rw [(dget_iff_mem hn).2 this] at h; cases h
  | some v =>
    by_cases hv : v = b
    · subst hv
      rw [if_pos rfl]
      cases h' : dget (d.filter (fun p => p.2 ≠ v)) q with
      | none => rfl
      | some w =>
        have hm := List.mem_filter.1 ((dget_iff_mem hn').1 h')
        rw [(dget_iff_mem hn).2 hm.1] at h
        injection h with h
        simp [h] at hm
    · rw [if_neg (by simpa using hv)]
      rw [dget_iff_mem hn']
      exact List.mem_filter.2 ⟨(dget_iff_mem hn).1 h, by simpa using hv⟩

/-- What one successful call other than a reload of the lookup does to the table. -/
theorem step_lookup {s s' : HeadBag} {op : Op} (h : Inv s) (hs : step s op = (.ok (), s'))
    (hr : ∀ p, op ≠ .reloadLookup p) :
    ∃ d d', lookupView s = .ok d ∧ lookupView s' = .ok d' ∧ TableOk d' ∧
      ∀ q, dget d' q = lookupEffect (dget d) op q := by
  obtain ⟨d, hd, ht⟩ := h.lookup
  obtain ⟨ms, hm⟩ := h.members
  refine ⟨d, ?_⟩
  have keep : lookupView s' = lookupView s → (∀ q, lookupEffect (dget d) op q = dget d q) →
      ∃ d', lookupView s = .ok d ∧ lookupView s' = .ok d' ∧ TableOk d' ∧
      ∀ q, dget d' q = lookupEffect (dget d) op q := fun e f => ⟨d, hd, e ▸ hd, ht, fun q => (f q).symm⟩
  cases op with
  | addMember m ov =>
    obtain ⟨g1, g2, g3, g4, g5, g6⟩ := addMemberBag_spec s m ov ms d hm hd ht.nodup ht.nonempty
    simp only [step] at hs
    rw [hs] at g1 g2 g3 g4 g5 g6
    simp only at g1 g2 g3 g4 g5 g6
    refine ⟨_, hd, g3, ?_, fun q => ?_⟩
    · cases ov with
      | true => exact tableOk_filter ht _
      | false => exact ht
    · cases ov with
      | true => simp only [if_true, lookupEffect]; exact dget_filter_snd ht.nodup _ _
      | false => simp [lookupEffect]
  | setMembers ms => simp [step, HeadBag.setMemberBags] at hs; subst hs; exact keep rfl (fun _ => rfl)
  | removeMember b =>
    obtain ⟨g1, g2, g3, g4, g5, g6⟩ := removeMemberBag_spec s b d hd ht.nodup ht.nonempty
    simp only [step] at hs
    rw [hs] at g1 g2 g3 g4 g5 g6
    simp only at g1 g2 g3 g4 g5 g6
    exact ⟨_, hd, g2, tableOk_filter ht _, fun q => dget_filter_snd ht.nodup _ _⟩
  | addLookup p b =>
    simp only [step] at hs
    have hpb : p ≠ [] ∧ b ≠ [] := by
      unfold HeadBag.addFileLookup at hs
      constructor <;> intro e <;> simp [e] at hs
    obtain ⟨g1, g2, _⟩ := addFileLookup_spec s p b hpb.1 hpb.2 d hd
    rw [hs] at g1 g2
    simp only at g1 g2
    refine ⟨_, hd, g2, tableOk_dset ht hpb.1 _, fun q => ?_⟩
    rw [dget_dset]
    simp only [lookupEffect, eq_comm]
  | removeLookup p =>
    simp only [step] at hs
    have hpb : p ≠ [] := by
      unfold HeadBag.removeFileLookup at hs
      intro e; simp [e] at hs
    obtain ⟨g1, g2, _⟩ := removeFileLookup_spec s p hpb d hd
    rw [hs] at g1 g2
    simp only at g1 g2
    refine ⟨_, hd, g2, tableOk_ddel ht _, fun q => ?_⟩
    rw [dget_ddel]
    simp only [lookupEffect, eq_comm]
  | clearLookup =>
    obtain ⟨_, g, _⟩ := clearLookup_ok h.info hs
    exact ⟨[], hd, g, tableOk_nil, fun q => rfl⟩
  | setDeleted p => simp [step, HeadBag.setDeleted] at hs; subst hs; exact keep rfl (fun _ => rfl)
  | unsetDeleted p => simp [step, HeadBag.unsetDeleted] at hs; subst hs; exact keep rfl (fun _ => rfl)
  | saveMembers => exact keep (saveMembers_views h.info hs).2.1 (fun _ => rfl)
  | saveLookup => exact keep (saveLookup_views h.info hs).2.1 (fun _ => rfl)
  | saveDeleted e => exact keep (saveDeleted_views h.info hs).2.1 (fun _ => rfl)
  | memberBags =>
    obtain ⟨a, ha⟩ := void_ok hs
    have := memberBags_frame s
    rw [ha] at this
    simp only at this
    exact keep (by simp only [lookupView, this]) (fun _ => rfl)
  | lookupFile p =>
    obtain ⟨a, ha⟩ := void_ok hs
    have := lookupFile_spec s p
    rw [ha] at this
    simp only at this
    exact keep this.2.1 (fun _ => rfl)
  | filesInMember p =>
    obtain ⟨a, ha⟩ := void_ok hs
    have := filesInMember_spec s p
    rw [ha] at this
    simp only at this
    exact keep this.2.1 (fun _ => rfl)
  | deletedPaths =>
    obtain ⟨a, ha⟩ := void_ok hs
    have := deletedPaths_spec s
    rw [ha] at this
    simp only at this
    exact keep (by simp only [lookupView, this]) (fun _ => rfl)
  | reloadMembers =>
    have := reloadMembers_ok hs
    exact keep (by simp only [lookupView, this]) (fun _ => rfl)
  | reloadLookup p => exact absurd rfl (hr p)
  | reloadDeleted =>
    have := reloadDeleted_ok hs
    exact keep (by simp only [lookupView, this]) (fun _ => rfl)

/-- What one successful call does to the members. -/
theorem step_members {s s' : HeadBag} {op : Op} (h : Inv s) (hs : step s op = (.ok (), s'))
    (hr : op ≠ .reloadMembers) (hl : (∀ b, op ≠ .removeMember b) ∨ s.members ≠ none) :
    ∃ ms, membersView s = .ok ms ∧ membersView s' = .ok (membersEffect ms op) ∧
      (s.members ≠ none → s'.members ≠ none) := by
  obtain ⟨d, hd, ht⟩ := h.lookup
  obtain ⟨ms, hm⟩ := h.members
  refine ⟨ms, hm, ?_⟩
  have keep : membersView s' = membersView s → membersEffect ms op = ms →
      (s.members ≠ none → s'.members ≠ none) → membersView s' = .ok (membersEffect ms op) ∧
      (s.members ≠ none → s'.members ≠ none) := fun e f g => ⟨by rw [e, f, hm], g⟩
  have keep' : s'.tree = s.tree → s'.info = s.info → s'.members = s.members →
      membersEffect ms op = ms → membersView s' = .ok (membersEffect ms op) ∧
      (s.members ≠ none → s'.members ≠ none) := fun e f g k =>
        ⟨by rw [k, ← hm]; simp only [membersView, e, f, g], by rw [g]; exact id⟩
  cases op with
  | addMember m ov =>
    obtain ⟨g1, g2, g3, g4, g5, g6⟩ := addMemberBag_spec s m ov ms d hm hd ht.nodup ht.nonempty
    simp only [step] at hs
    rw [hs] at g1 g2
    simp only at g1 g2
    refine ⟨?_, fun _ => by simp [g2]⟩
    cases ov <;> simp [membersView, g2, membersEffect]
  | setMembers ms =>
    simp [step, HeadBag.setMemberBags] at hs; subst hs
    simp [membersView, membersEffect]
  | removeMember b =>
    obtain ⟨g1, g2, g3, g4, g5, g6⟩ := removeMemberBag_spec s b d hd ht.nodup ht.nonempty
    simp only [step] at hs
    rw [hs] at g5
    simp only at g5
    rcases hl with hl | hl
    · exact absurd rfl (hl b)
    · cases hc : s.members with
      | none => exact absurd hc hl
      | some ms' =>
        have : ms' = ms := by simpa [membersView, hc] using hm
        subst this
        rw [hc] at g5
        simp [membersView, g5, membersEffect]
  | addLookup p b =>
    simp only [step] at hs
    have hpb : p ≠ [] ∧ b ≠ [] := by
      unfold HeadBag.addFileLookup at hs
      constructor <;> intro e <;> simp [e] at hs
    obtain ⟨g1, g2, g3, g4, g5, g6, g7⟩ := addFileLookup_spec s p b hpb.1 hpb.2 d hd
    rw [hs] at g4 g5 g6
    simp only at g4 g5 g6
    exact keep' g4 g5 g6 rfl
  | removeLookup p =>
    simp only [step] at hs
    have hpb : p ≠ [] := by
      unfold HeadBag.removeFileLookup at hs
      intro e; simp [e] at hs
    obtain ⟨g1, g2, g4, g5, g6, g7⟩ := removeFileLookup_spec s p hpb d hd
    rw [hs] at g4 g5 g6
    simp only at g4 g5 g6
    exact keep' g4 g5 g6 rfl
  | clearLookup =>
    obtain ⟨g, _, _, _, g5, _⟩ := clearLookup_ok h.info hs
    exact keep g rfl (by rw [g5]; exact id)
  | setDeleted p => simp [step, HeadBag.setDeleted] at hs; subst hs; exact keep' rfl rfl rfl rfl
  | unsetDeleted p => simp [step, HeadBag.unsetDeleted] at hs; subst hs; exact keep' rfl rfl rfl rfl
  | saveMembers =>
    have := saveMembers_views h.info hs
    exact keep this.1 rfl (by rw [this.2.2.2.2.1]; exact id)
  | saveLookup =>
    have := saveLookup_views h.info hs
    exact keep this.1 rfl (by rw [this.2.2.2.2.1]; exact id)
  | saveDeleted e =>
    have := saveDeleted_views h.info hs
    exact keep this.1 rfl (by rw [this.2.2.2.2.1]; exact id)
  | memberBags =>
    obtain ⟨a, ha⟩ := void_ok hs
    have := memberBags_view s
    rw [ha] at this
    simp only at this
    refine keep this rfl (fun hne => ?_)
    unfold HeadBag.memberBags at ha
    cases hc : s.members with
    | none => exact absurd hc hne
    | some ms' => simp [hc] at ha; rw [← ha.2]; simp [hc]
  | lookupFile p =>
    obtain ⟨a, ha⟩ := void_ok hs
    have := lookupFile_spec s p
    rw [ha] at this
    simp only at this
    exact keep' this.2.2.1 this.2.2.2.1 this.2.2.2.2.1 rfl
  | filesInMember p =>
    obtain ⟨a, ha⟩ := void_ok hs
    have := filesInMember_spec s p
    rw [ha] at this
    simp only at this
    exact keep' this.2.2.1 this.2.2.2.1 this.2.2.2.2.1 rfl
  | deletedPaths =>
    obtain ⟨a, ha⟩ := void_ok hs
    have := deletedPaths_spec s
    rw [ha] at this
    simp only at this
    exact keep' this.2.2.1 this.2.2.2.1 this.2.2.2.2.1 rfl
  | reloadMembers => exact absurd rfl hr
  | reloadLookup p =>
    have := reloadLookup_ok h.info hs
    exact keep' this.1 this.2.1 this.2.2.1 rfl
  | reloadDeleted =>
    have := reloadDeleted_ok hs
    exact keep' this.1 this.2.1 this.2.2.1 rfl

theorem nodup_concat_if {d : List Str} (h : d.Nodup) (p : Str) :
    (if p ∈ d then d else d ++ [p]).Nodup := by
  split
  · exact h
  · rename_i hp
    rw [List.nodup_append]
    refine ⟨h, by simp, ?_⟩
    rintro a ha b hb rfl
    simp at hb; subst hb; exact hp ha

/-- The cached set of deleted paths after a call. -/
theorem step_deleted {s s' : HeadBag} {op : Op} (h : Inv s) (hs : step s op = (.ok (), s')) :
    s'.info = s.info ∧ (∃ ps, deletedView s' = .ok ps ∧ ps.Nodup) ∧
    ((∀ b, op ≠ .removeMember b) → (∀ m, op ≠ .addMember m true) → op ≠ .reloadDeleted →
      (∀ p, op = .setDeleted p ∨ op = .unsetDeleted p → s.deleted ≠ none ∨ deletedView s = .ok []) →
      ∃ ps ps', deletedView s = .ok ps ∧ deletedView s' = .ok ps' ∧
        (∀ q, q ∈ ps' ↔ deletedEffect (· ∈ ps) op q) ∧
        (s.deleted ≠ none → s'.deleted ≠ none)) := by
  obtain ⟨d, hd, ht⟩ := h.lookup
  obtain ⟨ms, hm⟩ := h.members
  obtain ⟨ps, hp, hn⟩ := h.deleted
  have hdn : ∀ l, s.deleted = some l → l.Nodup := by
    intro l hl
    have : l = ps := by simpa [deletedView, hl] using hp
    exact this ▸ hn
  have hgd : (s.deleted.getD []).Nodup := by
    cases hc : s.deleted with
    | none => simp
    | some l => simpa using hdn l hc
  have keepv : s'.info = s.info → deletedView s' = deletedView s → (s.deleted ≠ none → s'.deleted ≠ none) →
      (∀ q, deletedEffect (· ∈ ps) op q = (q ∈ ps)) →
      s'.info = s.info ∧ (∃ ps, deletedView s' = .ok ps ∧ ps.Nodup) ∧
      ((∀ b, op ≠ .removeMember b) → (∀ m, op ≠ .addMember m true) → op ≠ .reloadDeleted →
      (∀ p, op = .setDeleted p ∨ op = .unsetDeleted p → s.deleted ≠ none ∨ deletedView s = .ok []) →
      ∃ ps ps', deletedView s = .ok ps ∧ deletedView s' = .ok ps' ∧
        (∀ q, q ∈ ps' ↔ deletedEffect (· ∈ ps) op q) ∧
        (s.deleted ≠ none → s'.deleted ≠ none)) := fun e1 e2 e3 e4 =>
    ⟨e1, ⟨ps, e2.trans hp, hn⟩, fun _ _ _ _ => ⟨ps, ps, hp, e2.trans hp, fun q => by rw [e4], e3⟩⟩
  have keep' : s'.tree = s.tree → s'.info = s.info → s'.deleted = s.deleted →
      (∀ q, deletedEffect (· ∈ ps) op q = (q ∈ ps)) →
      s'.info = s.info ∧ (∃ ps, deletedView s' = .ok ps ∧ ps.Nodup) ∧
      ((∀ b, op ≠ .removeMember b) → (∀ m, op ≠ .addMember m true) → op ≠ .reloadDeleted →
      (∀ p, op = .setDeleted p ∨ op = .unsetDeleted p → s.deleted ≠ none ∨ deletedView s = .ok []) →
      ∃ ps ps', deletedView s = .ok ps ∧ deletedView s' = .ok ps' ∧
        (∀ q, q ∈ ps' ↔ deletedEffect (· ∈ ps) op q) ∧
        (s.deleted ≠ none → s'.deleted ≠ none)) := fun e1 e2 e3 e4 =>
    keepv e2 (by simp only [deletedView, e1, e2, e3]) (by rw [e3]; exact id) e4
  -- the loaded list
  have hload : (s.deleted ≠ none ∨ deletedView s = .ok []) → s.deleted.getD [] = ps := by
    intro hc
    cases hdel : s.deleted with
    | some l => simpa [deletedView, hdel] using hp
    | none =>
      rcases hc with hc | hc
      · exact absurd hdel hc
      · rw [hc] at hp; injection hp
  cases op with
  | addMember m ov =>
    obtain ⟨g1, g2, g3, g4, g5, g6⟩ := addMemberBag_spec s m ov ms d hm hd ht.nodup ht.nonempty
    simp only [step] at hs
    rw [hs] at g1 g2 g4 g5 g6
    simp only at g1 g2 g4 g5 g6
    cases ov with
    | false => exact keep' g4 g5 (by simpa using g6) (fun _ => rfl)
    | true =>
      refine ⟨g5, ?_, fun _ hh => absurd rfl (hh m)⟩
      by_cases hb : m.name ∈ d.map Prod.snd
      · rw [if_pos ⟨rfl, hb⟩] at g6
        exact ⟨_, by simp only [deletedView, g6]; rfl, nodup_filter' hgd⟩
      · rw [if_neg (fun h => hb h.2)] at g6
        exact ⟨ps, by rw [← hp]; simp only [deletedView, g4, g5, g6], hn⟩
  | setMembers ms => simp [step, HeadBag.setMemberBags] at hs; subst hs; exact keep' rfl rfl rfl (fun _ => rfl)
  | removeMember b =>
    obtain ⟨g1, g2, g4, g5, g3, g6⟩ := removeMemberBag_spec s b d hd ht.nodup ht.nonempty
    simp only [step] at hs
    rw [hs] at g4 g5 g6
    simp only at g4 g5 g6
    refine ⟨g5, ?_, fun hh => absurd rfl (hh b)⟩
    by_cases hb : b ∈ d.map Prod.snd
    · rw [if_pos hb] at g6
      exact ⟨_, by simp only [deletedView, g6]; rfl, nodup_filter' hgd⟩
    · rw [if_neg hb] at g6
      exact ⟨ps, by rw [← hp]; simp only [deletedView, g4, g5, g6], hn⟩
  | addLookup p b =>
    simp only [step] at hs
    have hpb : p ≠ [] ∧ b ≠ [] := by
      unfold HeadBag.addFileLookup at hs
      constructor <;> intro e <;> simp [e] at hs
    obtain ⟨g1, g2, g3, g4, g5, g6, g7⟩ := addFileLookup_spec s p b hpb.1 hpb.2 d hd
    rw [hs] at g4 g5 g7
    simp only at g4 g5 g7
    exact keep' g4 g5 g7 (fun _ => rfl)
  | removeLookup p =>
    simp only [step] at hs
    have hpb : p ≠ [] := by
      unfold HeadBag.removeFileLookup at hs
      intro e; simp [e] at hs
    obtain ⟨g1, g2, g4, g5, g6, g7⟩ := removeFileLookup_spec s p hpb d hd
    rw [hs] at g4 g5 g7
    simp only at g4 g5 g7
    exact keep' g4 g5 g7 (fun _ => rfl)
  | clearLookup =>
    obtain ⟨g, _, g3, g4, g5, g6, _⟩ := clearLookup_ok h.info hs
    exact keepv g4 g3 (by rw [g6]; exact id) (fun _ => rfl)
  | setDeleted p =>
    simp [step, HeadBag.setDeleted] at hs; subst hs
    refine ⟨rfl, ⟨_, rfl, nodup_concat_if hgd p⟩, fun _ _ _ hc => ?_⟩
    refine ⟨ps, _, hp, rfl, fun q => ?_, fun _ => by simp⟩
    rw [hload (hc p (.inl rfl))]
    simp only [deletedEffect]
    split
    · rename_i hpp
      constructor
      · exact .inr
      · rintro (rfl | h) <;> assumption
    · simp [or_comm]
  | unsetDeleted p =>
    simp [step, HeadBag.unsetDeleted] at hs; subst hs
    refine ⟨rfl, ⟨_, rfl, nodup_filter' hgd⟩, fun _ _ _ hc => ?_⟩
    refine ⟨ps, _, hp, rfl, fun q => ?_, fun _ => by simp⟩
    rw [hload (hc p (.inr rfl))]
    simp [deletedEffect, and_comm]
  | saveMembers =>
    have := saveMembers_views h.info hs
    exact keepv this.2.2.2.1 this.2.2.1 (by rw [this.2.2.2.2.2.2]; exact id) (fun _ => rfl)
  | saveLookup =>
    have := saveLookup_views h.info hs
    exact keepv this.2.2.2.1 this.2.2.1 (by rw [this.2.2.2.2.2.2]; exact id) (fun _ => rfl)
  | saveDeleted e =>
    have := saveDeleted_views h.info hs
    exact keepv this.2.2.2.1 this.2.2.1 (by rw [this.2.2.2.2.2.2]; exact id) (fun _ => rfl)
  | memberBags =>
    obtain ⟨a, ha⟩ := void_ok hs
    have := memberBags_frame s
    rw [ha] at this
    simp only at this
    exact keep' this.1 this.2.1 this.2.2.2 (fun _ => rfl)
  | lookupFile p =>
    obtain ⟨a, ha⟩ := void_ok hs
    have := lookupFile_spec s p
    rw [ha] at this
    simp only at this
    exact keep' this.2.2.1 this.2.2.2.1 this.2.2.2.2.2 (fun _ => rfl)
  | filesInMember p =>
    obtain ⟨a, ha⟩ := void_ok hs
    have := filesInMember_spec s p
    rw [ha] at this
    simp only at this
    exact keep' this.2.2.1 this.2.2.2.1 this.2.2.2.2.2 (fun _ => rfl)
  | deletedPaths =>
    obtain ⟨a, ha⟩ := void_ok hs
    have := deletedPaths_spec s
    rw [ha] at this
    simp only at this
    refine keepv this.2.2.2.1 this.2.1 (fun hne => ?_) (fun _ => rfl)
    unfold HeadBag.deletedPaths at ha
    cases hc : s.deleted with
    | none => exact absurd hc hne
    | some ms' => simp [hc] at ha; rw [← ha.2]; simp [hc]
  | reloadMembers =>
    have := reloadMembers_ok hs
    exact keep' this.1 this.2.1 this.2.2.2.1 (fun _ => rfl)
  | reloadLookup p =>
    have := reloadLookup_ok h.info hs
    exact keep' this.1 this.2.1 this.2.2.2.1 (fun _ => rfl)
  | reloadDeleted =>
    have := reloadDeleted_ok hs
    exact ⟨this.2.1, this.2.2.2.2, fun _ _ hh => absurd rfl hh⟩

/-- Every successful call keeps the invariant. -/
theorem step_inv {s s' : HeadBag} {op : Op} (h : Inv s) (hs : step s op = (.ok (), s')) : Inv s' := by
  have hd := step_deleted h hs
  refine ⟨hd.1 ▸ h.info, ?_, ?_, hd.2.1⟩
  · by_cases hr : op = .reloadMembers
    · subst hr
      exact (reloadMembers_ok hs).2.2.2.2 h.members
    · by_cases hrm : ∃ b, op = .removeMember b
      · obtain ⟨b, rfl⟩ := hrm
        obtain ⟨d, hd', ht⟩ := h.lookup
        obtain ⟨ms, hm⟩ := h.members
        obtain ⟨g1, g2, g4, g5, g3, g6⟩ := removeMemberBag_spec s b d hd' ht.nodup ht.nonempty
        simp only [step] at hs
        rw [hs] at g4 g5 g3
        simp only at g4 g5 g3
        cases hc : s.members with
        | none => exact ⟨ms, by rw [← hm]; simp only [membersView, g3, g4, g5, hc]; rfl⟩
        | some l => exact ⟨_, by simp only [membersView, g3, hc]; rfl⟩
      · obtain ⟨ms, _, h2, _⟩ := step_members h hs hr (.inl (fun b e => hrm ⟨b, e⟩))
        exact ⟨_, h2⟩
  · by_cases hr : ∃ p, op = .reloadLookup p
    · obtain ⟨p, rfl⟩ := hr
      exact (reloadLookup_ok h.info hs).2.2.2.2 h.lookup
    · obtain ⟨d, d', _, h2, h3, _⟩ := step_lookup h hs (fun p e => hr ⟨p, e⟩)
      exact ⟨d', h2, h3⟩

theorem runOk_cons {op : Op} {ops : List Op} {s s' : HeadBag} (h : runOk (op :: ops) s = some s') :
    ∃ s1, step s op = (.ok (), s1) ∧ runOk ops s1 = some s' := by
  simp only [runOk] at h
  split at h
  · rename_i u s1 h1; exact ⟨s1, h1, h⟩
  · cases h

theorem run_inv {ops : List Op} {s s' : HeadBag} (h : Inv s) (hr : runOk ops s = some s') : Inv s' := by
  induction ops generalizing s with
  | nil => simp [runOk] at hr; subst hr; exact h
  | cons op ops ih =>
    obtain ⟨s1, h1, h2⟩ := runOk_cons hr
    exact ih (step_inv h h1) h2

end Verif
