import Verif.Lemmas.RestoreSucceeds
/-!
# Saving the restored bag succeeds
-/

namespace Verif

open Spec

theorem taggedFiles_dset (t : Tree) {p : Path} (hp : startsWith py!"tagmanifest-" (p.getLast?.getD []) = true) (n : Node) :
    taggedFiles (dset t p n) = taggedFiles t := by
  unfold taggedFiles
  induction t with
  | nil =>
    cases n with
    | dir => rfl
    | file c => simp [dset, hp]
  | cons e t ih =>
    obtain ⟨q, m⟩ := e
    rw [dset]
    by_cases h : q = p
    · subst h
      rw [if_pos rfl]
      cases n <;> cases m <;> simp [List.filterMap_cons, hp]
    · rw [if_neg h, List.filterMap_cons, List.filterMap_cons, ih]

theorem manPath_tag_last (a : Str) : startsWith py!"tagmanifest-" ((manPath py!"tagmanifest" a).getLast?.getD []) = true := by
  rw [startsWith_iff]
  exact ⟨a ++ py!".txt", by simp [manPath]⟩

theorem mem_taggedFiles {t : Tree} (hw : WfTree t) {p : Path} {c : Str} :
    (p, c) ∈ taggedFiles t ↔ t.read p = some c ∧ p.head? ≠ some py!"data" ∧
      startsWith py!"tagmanifest-" (p.getLast?.getD []) = false := by
  unfold taggedFiles
  rw [List.mem_filterMap]
  constructor
  · rintro ⟨⟨q, n⟩, hm, h⟩
    cases n with
    | dir => cases h
    | file c' =>
      simp only at h
      split at h
      · cases h
      · split at h
        · cases h
        · rename_i h1 h2
          cases h
          refine ⟨?_, h1, by simpa using h2⟩
          rw [Tree.read, dget_of_mem hw.nodup hm]
  · rintro ⟨h1, h2, h3⟩
    have hf := isfile_of_read h1
    obtain ⟨c', hc'⟩ := isfile_iff.1 hf
    rw [Tree.read, hc'] at h1
    cases h1
    exact ⟨(p, .file c), mem_of_dget hc', by simp only; rw [if_neg h2, if_neg (by rw [h3]; simp)]⟩

theorem taggedFiles_nodup {t : Tree} (hw : WfTree t) : ((taggedFiles t).map Prod.fst).Nodup := by
  have h := hw.nodup
  unfold dkeys at h
  unfold taggedFiles
  rw [List.nodup_iff_pairwise_ne, List.pairwise_map] at h ⊢
  rw [List.pairwise_filterMap]
  refine h.imp ?_
  intro a b hne x hx y hy e
  have key : ∀ (a : Path × Node) (x : Path × Str), (match a.2 with
      | .file c => if a.1.head? = some py!"data" then none
        else if startsWith py!"tagmanifest-" (a.1.getLast?.getD []) then none else some (a.1, c)
      | .dir => none) = some x → x.1 = a.1 := by
    intro a x hx
    split at hx
    · split at hx
      · cases hx
      · split at hx
        · cases hx
        · cases hx; rfl
    · cases hx
  exact hne ((key a x hx).symm.trans (e.trans (key b y hy)))

/-- Writing the tag manifests succeeds if no directory has their names. -/
theorem writeTagManifests_full {sum : Str → Str → Str} {algs : List Str} {t : Tree}
    (hd : ∀ a ∈ algs, t.isdir (manPath py!"tagmanifest" a) = false) :
    ∃ t', writeTagManifests sum algs t = .ok t' ∧ ∀ a ∈ algs, dget t' (manPath py!"tagmanifest" a) =
      some (.file ((taggedFiles t).map (fun pc => hashLine (sum a pc.2) (joinPath pc.1))).flatten) := by
  induction algs generalizing t with
  | nil => exact ⟨t, rfl, by simp⟩
  | cons a algs ih =>
    have h0 := hd a List.mem_cons_self
    have hwr := write_root (c := ((taggedFiles t).map (fun pc => hashLine (sum a pc.2) (joinPath pc.1))).flatten) h0
    obtain ⟨t', h1, h2⟩ := ih (t := dset t (manPath py!"tagmanifest" a)
      (.file ((taggedFiles t).map (fun pc => hashLine (sum a pc.2) (joinPath pc.1))).flatten)) (by
        intro b hb
        by_cases e : manPath py!"tagmanifest" a = manPath py!"tagmanifest" b
        · rw [← e]
          unfold Tree.isdir
          rw [dget_dset, if_pos rfl]
          rfl
        · rw [isdir_of_dget (t' := t) (by rw [dget_dset, if_neg e])]
          exact hd b (List.mem_cons_of_mem _ hb))
    refine ⟨t', ?_, ?_⟩
    · simp only [writeTagManifests]
      unfold manPath at hwr h1 ⊢
      rw [hwr]
      exact h1
    · intro b hb
      by_cases hba : b ∈ algs
      · rw [h2 b hba, taggedFiles_dset t (manPath_tag_last a)]
      · rcases List.mem_cons.1 hb with rfl | hb
        · rw [(writeTagManifests_ok h1).1 _ (fun c hc e => by have := manPath_inj e; subst this; exact hba hc), dget_dset, if_pos rfl]
        · exact absurd hb hba

theorem mem_algorithms {cfg : ReadCfg} {v : List Int} {enc : Str} {t : Tree} {algs : List Str} {es : Entries}
    (h : loadManifests cfg v enc t = .ok (algs, es)) (a : Str) : a ∈ algs ↔ a ∈ cfg.algs ∧
      (t.isfile (manPath py!"manifest" a) = true ∨ tupLe [0, 97] v = true ∧ t.isfile (manPath py!"tagmanifest" a) = true) := by
  have key : ∀ kind, a ∈ (manifestFiles cfg kind t).map Prod.fst ↔ a ∈ cfg.algs ∧ t.isfile (manPath kind a) = true := by
    intro kind
    unfold manifestFiles manPath
    rw [List.mem_map]
    constructor
    · rintro ⟨e, he, rfl⟩
      obtain ⟨h1, h2⟩ := List.mem_filter.1 he
      obtain ⟨x, hx, rfl⟩ := List.mem_map.1 h1
      exact ⟨hx, h2⟩
    · rintro ⟨h1, h2⟩
      exact ⟨(a, [kind ++ '-' :: a ++ py!".txt"]), List.mem_filter.2 ⟨List.mem_map.2 ⟨a, h1, rfl⟩, h2⟩, rfl⟩
  unfold loadManifests at h
  simp only at h
  split at h
  · cases h
  · cases h
    rw [List.map_append, List.mem_append, key]
    by_cases hv : tupLe [0, 97] v = true
    · rw [if_pos hv, key]
      simp only [hv, true_and]
      rw [← and_or_left]
    · rw [if_neg hv]
      simp [hv]

theorem hexDigest_line {sum : Str → Str → Str} (h : HexDigest sum) (a c : Str) {p : Str} (hp : PlainPath p) :
    PlainLine (sum a c) p := by
  obtain ⟨h1, h2⟩ := h a c
  have hc : ∀ x ∈ sum a c, isSpace x = false ∧ x ≠ '#' ∧ x ≠ bom := fun x hx =>
    (show ∀ x ∈ py!"0123456789abcdef", isSpace x = false ∧ x ≠ '#' ∧ x ≠ bom by decide) x (h2 x hx)
  refine ⟨⟨h1, fun x hx => (hc x hx).1⟩, ?_, ?_, hp⟩
  · intro e; exact (hc '#' (List.mem_of_mem_head? e)).2.1 rfl
  · intro e; exact (hc bom (List.mem_of_mem_head? e)).2.2 rfl

/-- A bag that can be saved. -/
structure Saving (E : RestoreEnv) (A : Str → Prop) (b : RBag) : Prop where
  wf : WfTree b.tree
  tidy : Tidy (AtDest E) E.base.algs A b.tree
  tag : b.tagFile = py!"bag-info.txt"
  nodir : b.tree.isdir [py!"bag-info.txt"] = false
  utf : startsWith py!"UTF" b.encoding = true
  algs : ∀ a ∈ b.algorithms, a ∈ E.base.algs ∧ A a
  every : b.algorithms ≠ [] → ∀ a ∈ E.base.algs, A a → a ∈ b.algorithms
  names : ∀ p, b.tree.isfile p = true → p.head? ≠ some py!"data" →
    startsWith py!"tagmanifest-" (p.getLast?.getD []) = false → PlainPath (joinPath p) ∧ AtDest E (joinPath p)

theorem tidy_algorithms {safe : Str → Prop} {cfg : ReadCfg} {A : Str → Prop} {v : List Int} {enc : Str} {t : Tree}
    {algs : List Str} {es : Entries} (hT : Tidy safe cfg.algs A t) (h : loadManifests cfg v enc t = .ok (algs, es)) :
    (∀ a ∈ algs, a ∈ cfg.algs ∧ A a) ∧ (algs ≠ [] → ∀ a ∈ cfg.algs, A a → a ∈ algs) := by
  have hm := mem_algorithms h
  refine ⟨?_, ?_⟩
  · intro a ha
    obtain ⟨h1, h2 | ⟨_, h2⟩⟩ := (hm a).1 ha
    · exact ⟨h1, hT.payload.only a h1 h2⟩
    · exact ⟨h1, hT.tag.only a h1 h2⟩
  · intro hne a ha hA
    obtain ⟨a0, h0⟩ := List.exists_mem_of_ne_nil _ hne
    obtain ⟨h1, h2 | ⟨hv, h2⟩⟩ := (hm a0).1 h0
    · exact (hm a).2 ⟨ha, .inl (hT.payload.all a0 h1 a ha h2 hA)⟩
    · exact (hm a).2 ⟨ha, .inr ⟨hv, hT.tag.all a0 h1 a ha h2 hA⟩⟩

theorem plain_bag_info : PlainPath py!"bag-info.txt" :=
  ⟨⟨[py!"bag-info.txt"], good_baginfo, rfl⟩, by unfold Trimmed; decide, by decide, by decide, by decide⟩

/-- The tag manifests list files that are there, with their checksums. -/
def TagSums (E : RestoreEnv) (t : Tree) : Prop :=
  ∀ a ∈ E.base.algs, ∀ p v, Recorded py!"tagmanifest" t a p v → ∃ c, t.read (comps p) = some c ∧ v = E.sum a c

theorem saveBag_ready {E : RestoreEnv} (hE : EnvOk E) (hF : EnvFits E) {A : Str → Prop} {b : RBag} (h : Saving E A b) :
    ∃ b', saveBag E b = .ok b' ∧ Saving E A b' ∧ (b.algorithms ≠ [] → b'.algorithms ≠ [] ∧ TagSums E b'.tree) := by
  have hw1 := write_root (c := fieldsText (tagFields b.info)) h.nodir
  have hne : ∀ a, [py!"bag-info.txt"] ≠ manPath py!"tagmanifest" a := fun a e =>
    bag_info_not_manifest (e ▸ (manPath_manifestFile a).2)
  have hne' : ∀ a, [py!"bag-info.txt"] ≠ manPath py!"manifest" a := fun a e =>
    bag_info_not_manifest (e ▸ (manPath_manifestFile a).1)
  have hwf1 : WfTree (dset b.tree [py!"bag-info.txt"] (.file (fieldsText (tagFields b.info)))) := wf_write h.wf good_baginfo hw1
  obtain ⟨t, ht, hd⟩ := writeTagManifests_full (sum := E.sum) (algs := b.algorithms)
    (t := dset b.tree [py!"bag-info.txt"] (.file (fieldsText (tagFields b.info)))) (by
      intro a ha
      rw [isdir_of_dget (t' := b.tree) (by rw [dget_dset, if_neg (hne a)])]
      exact h.tidy.tag.nodir a (h.algs a ha).1)
  have hfr := (writeTagManifests_ok ht).1
  have hwf : WfTree t := (writeTagManifests_ok ht).2 (fun a ha => hE.algs a (h.algs a ha).1) hwf1
  have hkeep : ∀ p, p ≠ [py!"bag-info.txt"] → (∀ a ∈ b.algorithms, p ≠ manPath py!"tagmanifest" a) → dget t p = dget b.tree p := by
    intro p h1 h2
    rw [hfr p h2, dget_dset, if_neg (fun e => h1 e.symm)]
  have hinfo : dget t [py!"bag-info.txt"] = some (.file (fieldsText (tagFields b.info))) := by
    rw [hfr _ (fun a _ => hne a), dget_dset, if_pos rfl]
  have hnames : ∀ p, t.isfile p = true → p.head? ≠ some py!"data" →
      startsWith py!"tagmanifest-" (p.getLast?.getD []) = false → PlainPath (joinPath p) ∧ AtDest E (joinPath p) := by
    intro p hf h1 h2
    by_cases e : p = [py!"bag-info.txt"]
    · subst e; exact ⟨plain_bag_info, hF.info⟩
    · obtain ⟨c, hc⟩ := isfile_iff.1 hf
      rw [hkeep p e (fun a _ e => by rw [e, manPath_tag_last] at h2; cases h2)] at hc
      exact h.names p (isfile_iff.2 ⟨c, hc⟩) h1 h2
  have hnames1 : ∀ pc ∈ taggedFiles (dset b.tree [py!"bag-info.txt"] (.file (fieldsText (tagFields b.info)))),
      GoodPath pc.1 ∧ pc.1.head? ≠ some py!"data" ∧ PlainPath (joinPath pc.1) ∧ AtDest E (joinPath pc.1) := by
    rintro ⟨p, c⟩ hpc
    obtain ⟨h1, h2, h3⟩ := (mem_taggedFiles hwf1).1 hpc
    have hf := isfile_of_read h1
    have hg := file_ne_nil hwf1 hf
    refine ⟨hg, h2, ?_⟩
    by_cases e : p = [py!"bag-info.txt"]
    · subst e; exact ⟨plain_bag_info, hF.info⟩
    · obtain ⟨c', hc'⟩ := isfile_iff.1 hf
      rw [dget_dset, if_neg (fun e' => e e'.symm)] at hc'
      exact h.names p (isfile_iff.2 ⟨c', hc'⟩) h2 h3
  have hT : Tidy (AtDest E) E.base.algs A t := by
    refine ⟨h.tidy.payload.congr (fun a _ => hkeep _ (fun e => hne' a e.symm) (fun b _ => manPath_ne _ _)), ?_⟩
    by_cases hnil : b.algorithms = []
    · refine h.tidy.tag.congr (fun a _ => hkeep _ (fun e => hne a e.symm) ?_)
      rw [hnil]; simp
    · refine tidyKind_written (fun a => (taggedFiles (dset b.tree [py!"bag-info.txt"]
          (.file (fieldsText (tagFields b.info))))).map (fun pc => (joinPath pc.1, E.sum a pc.2))) ?_ ?_ ?_ ?_ ?_
      · intro a ha hA
        rw [hd a (h.every hnil a ha hA), List.map_map]
        rfl
      · intro a ha hA
        rw [hkeep _ (fun e => hne a e.symm) (fun b hb e => hA (manPath_inj e ▸ (h.algs b hb).2))]
        exact h.tidy.tag.none ha hA
      · intro a ha hA e he
        obtain ⟨pc, hpc, rfl⟩ := List.mem_map.1 he
        obtain ⟨hg, h1, h2, h3⟩ := hnames1 pc hpc
        refine ⟨?_, hexDigest_line hF.sums _ _ h2, h3⟩
        cases hp : isPayload (joinPath pc.1) with
        | false => rfl
        | true => exact absurd ((isPayload_iff hg).1 hp).1 h1
      · intro a ha hA
        have h0 := taggedFiles_nodup hwf1
        unfold dkeys
        rw [List.map_map]
        rw [List.nodup_iff_pairwise_ne, List.pairwise_map] at h0 ⊢
        refine List.Pairwise.imp_of_mem ?_ h0
        intro x y hx hy hne e
        refine hne ?_
        simp only [Function.comp] at e
        rw [← comps_joinPath (hnames1 x hx).1, e, comps_joinPath (hnames1 y hy).1]
      · intro a ha hA a' ha' hA' p hp
        unfold dkeys at hp ⊢
        rw [List.map_map] at hp ⊢
        exact hp
  obtain ⟨⟨algs, es⟩, hl⟩ := hT.loads hF.algs b.version h.utf
  obtain ⟨ha1, ha2⟩ := tidy_algorithms hT hl
  refine ⟨{ b with tree := t, algorithms := b.algorithms ++ algs, entries := es }, ?_, ?_, ?_⟩
  · unfold saveBag
    rw [h.tag, hw1]
    simp only [ht, hl]
  · refine ⟨hwf, hT, h.tag, ?_, h.utf, ?_, ?_, hnames⟩
    · simp only [Tree.isdir, hinfo]; rfl
    · intro a ha
      rcases List.mem_append.1 ha with ha | ha
      · exact h.algs a ha
      · exact ha1 a ha
    · intro hne a ha hA
      rw [List.mem_append]
      by_cases hx : b.algorithms = []
      · right
        refine ha2 (fun e => hne ?_) a ha hA
        simp only [hx, e, List.append_nil]
      · exact .inl (h.every hx a ha hA)
  · intro hnil
    refine ⟨fun e => hnil (List.append_eq_nil_iff.1 e).1, ?_⟩
    intro a ha p v hr
    have hA : A a := by
      obtain ⟨text, line, h1, _⟩ := hr
      exact hT.tag.only a ha (isfile_of_read h1)
    have hrd : t.read (manPath py!"tagmanifest" a) = some (((taggedFiles (dset b.tree [py!"bag-info.txt"]
          (.file (fieldsText (tagFields b.info))))).map (fun pc => (joinPath pc.1, E.sum a pc.2))).map
            (fun ph => hashLine ph.2 ph.1)).flatten := by
      rw [Tree.read, hd a (h.every hnil a ha hA), List.map_map]
      rfl
    have hm := (recorded_written hrd (by
      intro e he
      obtain ⟨pc, hpc, rfl⟩ := List.mem_map.1 he
      exact hexDigest_line hF.sums _ _ (hnames1 pc hpc).2.2.1)).1 hr
    obtain ⟨⟨q, c⟩, hpc, e⟩ := List.mem_map.1 hm
    cases e
    refine ⟨c, ?_, rfl⟩
    obtain ⟨h1, h2, h3⟩ := (mem_taggedFiles hwf1).1 hpc
    simp only
    rw [comps_joinPath (hnames1 _ hpc).1, ← h1]
    exact read_of_dget (hfr q (fun b _ e => by rw [e, manPath_tag_last] at h3; cases h3))

end Verif
