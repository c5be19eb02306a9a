import Verif.Spec.RoundTrips
/-!
# Splitting and restoring a bag again and again: C109
-/

namespace Verif

open Spec

/-- The label that is carried along is yielded in the end. -/
theorem parseTagsFrom_yields (ls : List Str) (a : Str × Str) (ha : a.1 ≠ []) {l : List (Str × Str)}
    (h : parseTagsFrom (some a) ls = .ok l) : ∃ f ∈ l, f.1 = a.1 := by
  induction ls generalizing a l with
  | nil =>
    simp only [parseTagsFrom] at h
    cases h
    simp [yieldTag, ha]
  | cons x ls ih =>
    simp only [parseTagsFrom] at h
    by_cases h1 : strip x = []
    · rw [if_pos h1] at h; exact ih a ha h
    · rw [if_neg h1] at h
      by_cases h2 : (x.head?.map isSpace).getD false = true
      · simp only [h2, if_true] at h
        obtain ⟨f, hf, e⟩ := ih (a.1, a.2 ++ x) ha h
        exact ⟨f, hf, e⟩
      · simp only [h2, Bool.false_eq_true, if_false] at h
        by_cases h3 : ':' ∈ x
        · simp only [h3, if_true] at h
          split at h
          · cases h
          · cases h
            simp [yieldTag, ha]
        · simp [h3] at h

theorem strip_start {c : Char} {s : Str} (hc : isSpace c = false) : (strip (c :: s)).head? = some c := by
  unfold strip lstripBy
  rw [List.dropWhile_cons_of_neg (by simp [hc])]
  obtain ⟨t, h1, h2⟩ := rstripBy_prefix isSpace (c :: s)
  cases hr : rstripBy isSpace (c :: s) with
  | nil =>
    rw [hr, List.nil_append] at h1
    have := h2 c (h1 ▸ List.mem_cons_self)
    rw [hc] at this; cases this
  | cons x xs =>
    rw [hr, List.cons_append] at h1
    injection h1 with e _
    rw [e]; rfl

/-- A byte order mark at the start of a metadata file becomes part of a label. -/
theorem bom_label {text : Str} {l : List (Str × Str)} (h : parseTags .universal text = .ok l) (hb : text.head? = some bom) :
    ∃ f ∈ l, f.1.head? = some bom := by
  unfold parseTags textLines at h
  simp only at h
  obtain ⟨u, hu⟩ : ∃ u, translateNl text = bom :: u := by
    cases text with
    | nil => cases hb
    | cons x xs =>
      cases hb
      exact ⟨translateNl xs, by simp [translateNl, bom]⟩
  rw [hu, linesOf_cons_not (by decide)] at h
  have key : ∀ y ys, parseTagsFrom none ((bom :: y) :: ys) = .ok l → ∃ f ∈ l, f.1.head? = some bom := by
    intro y ys h
    simp only [parseTagsFrom] at h
    have hs := strip_start (c := bom) (s := y) (by decide)
    rw [if_neg (by intro e; rw [e] at hs; cases hs), ite_self] at h
    by_cases hc : ':' ∈ bom :: y
    · simp only [hc, if_true] at h
      split at h
      · cases h
      · rename_i l' hl'
        cases h
        obtain ⟨z, hz⟩ : ∃ z, strip (bom :: y) = bom :: z := by
          cases he : strip (bom :: y) with
          | nil => rw [he] at hs; cases hs
          | cons a b => rw [he] at hs; cases hs; exact ⟨b, rfl⟩
        rw [hz, List.takeWhile_cons_of_pos (by decide)] at hl'
        have hh := strip_start (c := bom) (s := z.takeWhile (fun x => decide (x ≠ ':'))) (by decide)
        obtain ⟨f, hf, e⟩ := parseTagsFrom_yields _ _ (by intro e; simp only at e; rw [e] at hh; cases hh) hl'
        exact ⟨f, by simpa [yieldTag] using hf, by rw [e]; exact hh⟩
    · simp [hc] at h
  split at h
  · exact key _ _ h
  · exact key _ _ h

theorem Spec.TidyKind.weaken {safe safe' : Str → Prop} {algs : List Str} {A : Str → Prop} {kind : Str} {pay : Bool} {t : Tree}
    (h : TidyKind safe algs A kind pay t) (hs : ∀ a ∈ algs, ∀ p c, Recorded kind t a p c → PlainPath p → safe p → safe' p) :
    TidyKind safe' algs A kind pay t :=
  ⟨h.nodir, h.only, h.all, fun a ha p c hr => ⟨(h.lines a ha p c hr).1, (h.lines a ha p c hr).2.1,
    hs a ha p c hr (h.lines a ha p c hr).2.1.path (h.lines a ha p c hr).2.2⟩, h.once, h.same⟩

theorem rstrip_abs {s : Str} {p : Path} (h : AbsPath s p) : rstripBy (· = '/') s = s := by
  refine rstripBy_eq_self (fun c hc => ?_)
  have e : s = ['/'] ++ joinPath p := h.2
  rw [e, getLast?_app (joinPath_ne_nil h.1)] at hc
  exact decide_eq_false (joinPath_last h.1 c hc)

/-- Every label in a metadata file is a key. -/
theorem label_key {l : List (Str × Str)} {f : Str × Str} (hf : f ∈ l) : f.1 ∈ dkeys (loadTags l) := by
  have h := fields_loadTags l f.1
  unfold fields at h
  cases hd : dget (loadTags l) f.1 with
  | some v => exact mem_dkeys_iff.2 ⟨v, hd⟩
  | none =>
    rw [hd] at h
    have : f.2 ∈ valuesOf l f.1 := by
      unfold valuesOf
      exact List.mem_map.2 ⟨f, List.mem_filter.2 ⟨hf, by simp⟩, rfl⟩
    rw [← h] at this; cases this

/-- A metadata file without labels that start with a byte order mark does not start with one. -/
theorem nobom_text {cfg : ReadCfg} {t : Tree} {b : RBag} (h : openBag cfg t = .ok b) (ht : b.tagFile = py!"bag-info.txt")
    (hk : ∀ k ∈ dkeys b.info, k.head? ≠ some bom) {text : Str} (hr : b.tree.read [py!"bag-info.txt"] = some text) :
    text.head? ≠ some bom := by
  obtain ⟨e, _, _, hbi, _⟩ := openBag_parts h
  rw [ht, ← e, if_pos (exists_of_isfile (isfile_of_read hr))] at hbi
  unfold loadTagFile at hbi
  rw [hr] at hbi
  simp only [Bool.false_eq_true, if_false] at hbi
  intro hb
  cases hp : parseTags .universal text with
  | error e => rw [hp] at hbi; cases hbi
  | ok l =>
    rw [hp] at hbi
    have hi : loadTags l = b.info := Except.ok.inj hbi
    obtain ⟨f, hf, hfb⟩ := bom_label hp hb
    exact hk f.1 (hi ▸ label_key hf) hfb

theorem thing_cases {t : Tree} {p : Path} (h : t.exists p = true) : t.isfile p = true ∨ t.isdir p = true := by
  unfold Tree.exists at h
  unfold Tree.isfile Tree.isdir
  by_cases hp : p = []
  · simp [hp]
  · cases hd : dget t p with
    | none => simp [hp, hd] at h
    | some n => cases n <;> simp

theorem bagit_not_special : ¬ Special [py!"bagit.txt"] := by
  rintro (h | h | h | ⟨a, h | h⟩ | ⟨x, h⟩) <;> simp at h

theorem unbroken_twice (v : Str) : unbroken (unbroken v) = unbroken v := by
  unfold unbroken; rw [List.filter_filter]; simp

/-- One round with a plain bag: both calls succeed, and the restored bag is plain again. -/
theorem plain_round {hostOk : Str → Bool} {X : SplitEnv} {E : RestoreEnv} {wd : Path} (hX : Surroundings X E wd)
    {A : Str → Prop} {W : Tree} (hW : WfTree W) {path : Str} {b : RBag} (h : PlainBag hostOk X E wd A W path b) {r : Round}
    (hr : Room X wd W path r) (exts : List Str) (archives : Path → Option Tree) (dirs : Tree → List Path) :
    ∃ b' W'', SplitAndRestored X E exts archives dirs W path r b' W'' ∧ WfTree W'' ∧
      PlainBag hostOk X E wd A W'' (abspath X.cwd r.dest) b' ∧ SameBag b b' ∧ (∀ q, W.exists q = true → SameThing W'' W q) ∧
      ∀ q, W''.exists q = true → W.exists q = false → NewIn wd path r q := by
  have hDabs : AbsPath (abspath X.cwd r.dest) (leadsTo wd r.dest) :=
    ⟨⟨hr.dest.root, goodName_leadsTo hX.cwd.1.2 r.dest⟩, abspath_one hX.cwd hr.dest.single⟩
  have hbt : b.tree = W.below (leadsTo wd path) := (openBag_parts h.opens).1
  have hwf : WfTree b.tree := h.ordinary.wf
  have hval := (C80_valid_iff (hbt ▸ h.opens) hwf hostOk E.sum E.blen).1 h.valid
  have hcan : CanSplit X r.splitter W wd path r.outdir b :=
    ⟨hX.cwd, hW, h.place, hr.out, hr.apart, hX.cfg ▸ h.opens, hX.cfg ▸ h.ordinary, h.nohead, hX.word, hX.listing _ hwf, h.look,
      fun d f _ hm => hr.head d f hm, h.odd⟩
  have hman : ∀ a ∈ E.base.algs, PlainPath (py!"manifest-" ++ a ++ py!".txt") ∧
      isDangerous E.base.env (abspath X.cwd r.dest) (py!"manifest-" ++ a ++ py!".txt") = false := by
    intro a ha
    obtain ⟨_, _, h1, _⟩ := hX.names a ha
    refine ⟨h1.plain, ?_⟩
    obtain ⟨q, hq, e⟩ := h1.plain.path
    rw [e]
    exact safe_path _ hDabs hq (by have := h1.unexpanded; rw [e] at this; exact this)
  have hinfo : isDangerous E.base.env (abspath X.cwd r.dest) py!"bag-info.txt" = false :=
    safe_path _ hDabs (p := [py!"bag-info.txt"]) ⟨by simp, fun c hc => by
      rw [List.mem_singleton] at hc; subst hc; exact Sample.goodName_of_check (by decide)⟩ ⟨by decide, by decide⟩
  have hF : EnvFits (E.into (abspath X.cwd r.dest) E.find) := ⟨hX.utf, hX.algs, hX.sums, hinfo, hman⟩
  have hsafe : ∀ p, PlainPath p → Unexpanded p → isDangerous E.base.env (abspath X.cwd r.dest) p = false := by
    intro p hp hu
    obtain ⟨q, hq, rfl⟩ := hp.path
    exact safe_path _ hDabs hq hu
  have hs : SplitSource hostOk (E.into (abspath X.cwd r.dest) E.find) A (rstripBy (· = '/') path) b.tree b :=
    ⟨hbt ▸ h.opens, h.valid, h.ordinary, h.tagFile,
      ⟨h.tidy.payload.weaken (fun _ _ p _ _ => hsafe p), h.tidy.tag.weaken (fun _ _ p _ _ => hsafe p)⟩, h.nohead, h.notags, h.nofetch⟩
  obtain ⟨names, head, W', W'', b', h1, h2, h3, h4, h5, h6, h7, h8, h9, h10, h11⟩ := round_trip_parts hcan r.basis r.nopass hr.plain
    hr.clean hr.free hr.local_ hr.single hX.cfg hX.blen hr.dest hr.elsewhere hX.walks hF
    (fun a ha hd => (hX.names a ha).2.2.1.unexpanded.2 (by simp [hd])) hX.sizes hs h.paths exts archives dirs
  refine ⟨b', W'', ⟨names.map (pathJoin r.outdir), pathJoin r.outdir head, W', by rw [h1, List.map_append]; rfl, h2⟩, h9, ?_, ?_, h11, ?_⟩
  · have hbt' : b'.tree = W''.below (leadsTo wd r.dest) := h10.symm
    have hnotag : ∀ p, [py!"multibag"] <+: p → b'.tree.exists p = false := h8.tags rfl
    have hfile : ∀ p, b'.tree.isfile p = true → b.tree.isfile p = true ∨ p = [py!"bag-info.txt"] ∨
        ∃ a ∈ E.base.algs, p = [py!"manifest-" ++ a ++ py!".txt"] ∨ p = [py!"tagmanifest-" ++ a ++ py!".txt"] := by
      intro p hp
      rcases h8.files p hp with h | h | h | h
      · exact .inl h
      · exact .inr (.inl h)
      · exfalso
        have : [py!"multibag"] <+: p := by rcases h with h | h | h <;> rw [h] <;> exact ⟨_, rfl⟩
        have := hnotag p this
        rw [exists_of_isfile hp] at this; cases this
      · exact .inr (.inr h)
    have hdir : ∀ p, b'.tree.isdir p = true → b.tree.isdir p = true := by
      intro p hp
      rcases h8.dirs p hp with h | h
      · exact h
      · have := hnotag p (by rw [h]; exact List.prefix_refl _)
        rw [exists_of_isdir hp] at this; cases this
    have hpaths : ∀ p, b'.tree.exists p = true → p ≠ [] → ListablePath (joinPath p) := by
      intro p hp hne
      rcases thing_cases hp with hf | hd
      · rcases hfile p hf with hf | rfl | ⟨a, ha, rfl | rfl⟩
        · exact h.paths p (exists_of_isfile hf) hne
        · exact h.paths _ (exists_of_isfile h.ordinary.baginfo) (by simp)
        · exact (hX.names a ha).2.2.1
        · exact (hX.names a ha).2.2.2
      · exact h.paths p (exists_of_isdir (hdir p hd)) hne
    have hval' := (C80_valid_iff h7 h8.wf hostOk E.sum E.blen).1 h3
    have hst : rstripBy (· = '/') (abspath X.cwd r.dest) = abspath X.cwd r.dest := rstrip_abs hDabs
    have hlead : leadsTo wd (abspath X.cwd r.dest) = leadsTo wd r.dest := by
      exact leadsTo_abspath hX.cwd r.dest
    have hread : ∀ p, ¬ Special p → b.tree.isfile p = true → b'.tree.isfile p = true := by
      intro p hp hf
      obtain ⟨c, hc⟩ := Option.isSome_iff_exists.1 (isfile_read.symm.trans hf)
      exact isfile_of_read ((h5 p hp).1.trans hc)
    have hlisted : ∀ kind, kind = py!"manifest" ∨ kind = py!"tagmanifest" → ∀ a ∈ E.base.algs, ∀ p v,
        Recorded kind b'.tree a p v → PlainPath p → Unexpanded p := by
      intro kind hk a ha p v hr hp
      obtain ⟨c, hc⟩ := h8.listed kind hk a ha p v hr
      obtain ⟨q, hq, rfl⟩ := hp.path
      have e : comps (joinWith ['/'] q) = q := comps_joinPath hq
      rw [e] at hc
      exact (hpaths q (exists_of_isfile (isfile_of_read hc)) hq.1).unexpanded
    have hkey : ∀ k ∈ dkeys b'.info, k ∉ multibagFields → k ≠ py!"Payload-Oxum" → k ≠ py!"Bag-Size" → k ∈ dkeys b.info := by
      intro k hk k1 k2 k3
      have hv := h8.values rfl (fun text ht => nobom_text h.opens h.tagFile h.nobom ht) k k1 k2 k3
      obtain ⟨v, hg⟩ := mem_dkeys_iff.1 hk
      have hne := loaded_values (loaded_openBag h7) hg
      cases hg' : dget b.info k with
      | some w => exact mem_dkeys_iff.2 ⟨w, hg'⟩
      | none =>
        unfold fields at hv
        rw [hg, hg'] at hv
        exact absurd hv hne
    refine { place := ?_, opens := ?_, valid := ?_, ordinary := ?_, tagFile := h8.tagFile, tidy := ?_, nohead := ?_,
               notags := hnotag, nofetch := ?_, nobom := ?_, paths := hpaths, look := ?_, odd := ?_ }
    · rw [hlead]
      exact ⟨hr.dest.root, (bagAt_iff.1 h4).1⟩
    · rw [hst, hlead, ← hbt']; exact h7
    · rw [hst]; exact h3
    · rw [hst]
      refine { wf := h8.wf, bagit := hread _ bagit_not_special h.ordinary.bagit, baginfo := h8.info, data := hval'.data,
                 standard := ?_, headfile := ?_, multibag := ?_, ids := ?_, nodup := nodup_openBag h7, algs := ?_, hashes := ?_ }
      · intro p hp
        cases hd : b'.tree.isdir p with
        | false => exact hd
        | true => exact absurd (hdir p hd) (by rw [show b.tree.isdir p = false from h.ordinary.standard p hp]; simp)
      · intro p hp
        cases hd : b'.tree.isdir p with
        | false => exact hd
        | true => exact absurd (hdir p hd) (by rw [show b.tree.isdir p = false from h.ordinary.headfile p hp]; simp)
      · cases hf : b'.tree.isfile [py!"multibag"] with
        | false => exact hf
        | true =>
          have := hnotag _ (List.prefix_refl _)
          rw [exists_of_isfile hf] at this; cases this
      · exact fun v hv => loaded_values (loaded_openBag h7) hv
      · intro a ha
        obtain ⟨⟨a', p⟩, h1, rfl⟩ := List.mem_map.1 ha
        have := (List.mem_filter.1 h1).1
        obtain ⟨x, hx, e⟩ := List.mem_map.1 this
        cases e
        exact hX.walks.algs _ hx
      · intro f ah hah
        exact hX.walks.algs _ (hashes_valid h7 hval' (f := f) (alg := ah.1) (c := ah.2) hah).1
    · exact ⟨h8.tidy.payload.weaken (fun a ha p v hr hp _ => hlisted _ (.inl rfl) a ha p v hr hp),
        h8.tidy.tag.weaken (fun a ha p v hr hp _ => hlisted _ (.inr rfl) a ha p v hr hp)⟩
    · exact h8.keys rfl _ (by decide)
    · cases he : b'.tree.exists [py!"fetch.txt"] with
      | false => rfl
      | true =>
        exfalso
        rcases thing_cases he with hf | hd
        · rcases hfile _ hf with hf | hf | ⟨a, _, hf | hf⟩
          · have := h.nofetch; rw [exists_of_isfile hf] at this; cases this
          · revert hf; decide
          · simp at hf
          · simp at hf
        · have := h.nofetch; rw [exists_of_isdir (hdir _ hd)] at this; cases this
    · intro k hk
      by_cases k1 : k ∈ multibagFields
      · intro hb
        have : ∀ k ∈ multibagFields, k.head? ≠ some bom := by decide
        exact this k k1 hb
      by_cases k2 : k = py!"Payload-Oxum"
      · rw [k2]; decide
      by_cases k3 : k = py!"Bag-Size"
      · rw [k3]; decide
      exact h.nobom k (hkey k hk k1 k2 k3)
    · intro f hf ht
      rcases hfile _ hf with hf | hf | ⟨a, ha, hf | hf⟩
      · exact h.look f hf ht
      · exact .inr (.inl (by simpa using hf))
      · exact .inr (.inr (.inr ⟨a, (hX.names a ha).1, (hX.names a ha).2.1, .inl (by simpa using hf)⟩))
      · exact .inr (.inr (.inr ⟨a, (hX.names a ha).1, (hX.names a ha).2.1, .inr (by simpa using hf)⟩))
    · intro p hf ht
      rcases hfile _ hf with hf | rfl | ⟨a, ha, rfl | rfl⟩
      · exact h.odd p hf ht
      · exact ⟨_, rfl, .inr (.inl rfl)⟩
      · exact ⟨_, rfl, .inr (.inr (.inr ⟨a, (hX.names a ha).1, (hX.names a ha).2.1, .inl rfl⟩))⟩
      · exact ⟨_, rfl, .inr (.inr (.inr ⟨a, (hX.names a ha).1, (hX.names a ha).2.1, .inr rfl⟩))⟩
  · refine ⟨h5, fun k k1 k2 k3 => ?_⟩
    rw [h8.values rfl (fun text ht => nobom_text h.opens h.tagFile h.nobom ht) k k1 k2 k3, List.map_map]
    congr 1
    funext v
    exact unbroken_twice v
  · intro q hq hn
    by_cases hi : Inside (leadsTo wd r.dest) q
    · exact .inl hi
    · refine .inr (C106_new hcan r.basis r.nopass hr.plain q ?_ hn)
      rw [h1]
      exact (h6 q hi).1 ▸ hq

theorem ran_once {X : SplitEnv} {E : RestoreEnv} {exts : List Str} {archives : Path → Option Tree} {dirs : Tree → List Path}
    {W : Tree} {path : Str} {r : Round} {b b' : RBag} {V V' : Tree} (h : SplitAndRestored X E exts archives dirs W path r b V)
    (h' : SplitAndRestored X E exts archives dirs W path r b' V') : b = b' ∧ V = V' := by
  obtain ⟨ps, hd, Wm, h1, h2⟩ := h
  obtain ⟨ps', hd', Wm', h1', h2'⟩ := h'
  have e := h1.symm.trans h1'
  injection e with e1 e2
  injection e1 with e1
  have e3 := (List.append_inj' e1 rfl).2
  injection e3 with e3
  subst e2 e3
  have e := h2.symm.trans h2'
  injection e with e
  injection e with e4 e5
  exact ⟨e4, e5⟩

/-- C109: a bag is split and restored, the restored bag is split and restored, and so on, each time with any splitter, into
any directories with room for it.  Whatever came before, the bag at the end is valid, has the files, the directories and
the metadata of the bag at the start, and can be split again. -/
theorem C109_round_trips {hostOk : Str → Bool} {X : SplitEnv} {E : RestoreEnv} {wd : Path} (hX : Surroundings X E wd)
    {exts : List Str} {archives : Path → Option Tree} {dirs : Tree → List Path} {A : Str → Prop} {W : Tree} (hW : WfTree W)
    {path : Str} {b : RBag} (h : PlainBag hostOk X E wd A W path b) {rs : List Round} {W' : Tree} {path' : Str}
    (hrs : Rounds X E exts archives dirs wd W path rs W' path') :
    ∃ b', PlainBag hostOk X E wd A W' path' b' ∧ SameBag b b' := by
  induction hrs generalizing b with
  | none W path => exact ⟨b, h, ⟨fun _ _ => ⟨rfl, Iff.rfl⟩, fun _ _ _ _ => rfl⟩⟩
  | next room ran _ ih =>
    obtain ⟨b1, W1, hran, h3, h4, h5, _⟩ := plain_round hX hW h room exts archives dirs
    obtain ⟨rfl, rfl⟩ := ran_once hran ran
    obtain ⟨b', g1, g2⟩ := ih h3 h4
    refine ⟨b', g1, ⟨fun p hp => ⟨((g2.things p hp).1).trans (h5.things p hp).1, (g2.things p hp).2.trans (h5.things p hp).2⟩, ?_⟩⟩
    intro k k1 k2 k3
    exact (g2.fields k k1 k2 k3).trans (h5.fields k k1 k2 k3)

/-- C109: in all these rounds nothing that was on the disk at the start changes, and everything new is in one of the
directories for the restored bags or in a numbered bag in one of the output directories. -/
theorem C109_disk {hostOk : Str → Bool} {X : SplitEnv} {E : RestoreEnv} {wd : Path} (hX : Surroundings X E wd)
    {exts : List Str} {archives : Path → Option Tree} {dirs : Tree → List Path} {A : Str → Prop} {W : Tree} (hW : WfTree W)
    {path : Str} {b : RBag} (h : PlainBag hostOk X E wd A W path b) {rs : List Round} {W' : Tree} {path' : Str}
    (hrs : Rounds X E exts archives dirs wd W path rs W' path') :
    (∀ q, W.exists q = true → SameThing W' W q) ∧
    ∀ q, W'.exists q = true → W.exists q = false → ∃ r ∈ rs, ∃ source, NewIn wd source r q := by
  induction hrs generalizing b with
  | none W path => exact ⟨fun q _ => ⟨rfl, rfl, rfl⟩, fun q h1 h2 => by rw [h1] at h2; cases h2⟩
  | next room ran _ ih =>
    obtain ⟨b1, W1, hran, h3, h4, h5, h6, h7⟩ := plain_round hX hW h room exts archives dirs
    obtain ⟨rfl, rfl⟩ := ran_once hran ran
    obtain ⟨g1, g2⟩ := ih h3 h4
    constructor
    · intro q hq
      have k1 := h6 q hq
      have k2 := g1 q (k1.1.trans hq)
      exact ⟨k2.1.trans k1.1, k2.2.1.trans k1.2.1, k2.2.2.trans k1.2.2⟩
    · intro q hq hn
      cases hm : W1.exists q with
      | true => exact ⟨_, List.mem_cons_self, _, h7 q hm hn⟩
      | false =>
        obtain ⟨r, hr, src, hs⟩ := g2 q hq hm
        exact ⟨r, List.mem_cons_of_mem _ hr, src, hs⟩

theorem rounds_wf {hostOk : Str → Bool} {X : SplitEnv} {E : RestoreEnv} {wd : Path} (hX : Surroundings X E wd)
    {exts : List Str} {archives : Path → Option Tree} {dirs : Tree → List Path} {A : Str → Prop} {W : Tree} (hW : WfTree W)
    {path : Str} {b : RBag} (h : PlainBag hostOk X E wd A W path b) {rs : List Round} {W' : Tree} {path' : Str}
    (hrs : Rounds X E exts archives dirs wd W path rs W' path') : WfTree W' := by
  induction hrs generalizing b with
  | none W path => exact hW
  | next room ran _ ih =>
    obtain ⟨b1, W1, hran, h3, h4, h5, _⟩ := plain_round hX hW h room exts archives dirs
    obtain ⟨rfl, rfl⟩ := ran_once hran ran
    exact ih h3 h4

theorem Spec.Rounds.snoc {X : SplitEnv} {E : RestoreEnv} {exts : List Str} {archives : Path → Option Tree} {dirs : Tree → List Path}
    {wd : Path} {W W' W'' : Tree} {path path' : Str} {rs : List Round} (h : Rounds X E exts archives dirs wd W path rs W' path')
    {r : Round} {b' : RBag} (room : Room X wd W' path' r) (ran : SplitAndRestored X E exts archives dirs W' path' r b' W'') :
    Rounds X E exts archives dirs wd W path (rs ++ [r]) W'' (abspath X.cwd r.dest) := by
  induction h with
  | none W path => exact .next room ran (.none _ _)
  | next room1 ran1 _ ih => exact .next room1 ran1 (ih room ran)

/-- C109: and whatever came before, a further round with room for it succeeds: no number of rounds is too many. -/
theorem C109_next {hostOk : Str → Bool} {X : SplitEnv} {E : RestoreEnv} {wd : Path} (hX : Surroundings X E wd)
    {exts : List Str} {archives : Path → Option Tree} {dirs : Tree → List Path} {A : Str → Prop} {W : Tree} (hW : WfTree W)
    {path : Str} {b : RBag} (h : PlainBag hostOk X E wd A W path b) {rs : List Round} {W' : Tree} {path' : Str}
    (hrs : Rounds X E exts archives dirs wd W path rs W' path') {r : Round} (hr : Room X wd W' path' r) :
    ∃ b' W'', SplitAndRestored X E exts archives dirs W' path' r b' W'' ∧
      Rounds X E exts archives dirs wd W path (rs ++ [r]) W'' (abspath X.cwd r.dest) := by
  obtain ⟨b1, h1, _⟩ := C109_round_trips hX hW h hrs
  obtain ⟨b', W'', h2, _⟩ := plain_round hX (rounds_wf hX hW h hrs) h1 hr exts archives dirs
  exact ⟨b', W'', h2, hrs.snoc hr h2⟩

namespace Sample

theorem call_surroundings : Surroundings callEnv callRenv [py!"home"] where
  cwd := (call_can {} rfl).cwd
  cfg := rfl
  blen := rfl
  walks := ⟨fun _ h => isWalk_walkOf h, renv_ok.2⟩
  utf := renv_fits.utf
  algs := renv_fits.algs
  names := by
    intro a ha
    have : a = py!"md5" ∨ a = py!"sha256" := by revert a; decide
    have hp := fun f h => (plain_line_of_check (h := py!"a") (p := f) (q := [f]) h).path
    rcases this with rfl | rfl
    · exact ⟨by decide, by decide, ⟨hp _ (by decide), ⟨by decide, by decide⟩, cleanStart_of_check (by decide)⟩,
        ⟨hp _ (by decide), ⟨by decide, by decide⟩, cleanStart_of_check (by decide)⟩⟩
    · exact ⟨by decide, by decide, ⟨hp _ (by decide), ⟨by decide, by decide⟩, cleanStart_of_check (by decide)⟩,
        ⟨hp _ (by decide), ⟨by decide, by decide⟩, cleanStart_of_check (by decide)⟩⟩
  sums := renv_fits.sums
  sizes := fun t i => by show Trimmed py!"1 kB"; unfold Trimmed; decide
  word := by decide
  listing := fun _ _ => .refl _

theorem call_plain : PlainBag (fun _ => true) callEnv callRenv [py!"home"] (· = py!"md5") callWorld py!"../src/bag" okBag := by
  have ht : okBag.tree = okTree := by decide +kernel
  have hc := call_can {} rfl
  refine { place := hc.source, opens := hc.opens, valid := call_source.valid, ordinary := ok_ordinary, tagFile := call_source.tagFile,
           tidy := ?_, nohead := hc.nohead, notags := by rw [ht]; exact call_source.notags, nofetch := by rw [ht]; exact call_source.nofetch,
           nobom := by decide +kernel, paths := by rw [ht]; exact ok_listable, look := hc.look, odd := hc.odd }
  rw [ht]
  refine tidy_of_lines (es := [(py!"data/a", py!"d2"), (py!"data/b", py!"d3")]) rfl rfl (by decide) ?_ (by decide)
  intro e he
  have : e = (py!"data/a", py!"d2") ∨ e = (py!"data/b", py!"d3") := by simpa using he
  rcases this with rfl | rfl
  · exact ⟨rfl, plain_line_of_check (q := [py!"data", py!"a"]) (by decide), by decide, by decide⟩
  · exact ⟨rfl, plain_line_of_check (q := [py!"data", py!"b"]) (by decide), by decide, by decide⟩

def round1 : Round := ⟨{ kind := .wellPacked, max := 3 }, py!"/work", none, [], py!"restored"⟩

def round2 : Round := ⟨{ kind := .neighborly, max := 2 }, py!"/work", some py!"second", [], py!"again"⟩

theorem room1 : Room callEnv [py!"home"] callWorld py!"../src/bag" round1 where
  out := ⟨by decide, by decide⟩
  apart := by decide
  plain := by decide
  clean := cleanStart_of_check (by decide)
  free := fun k => call_free _ k
  local_ := by decide
  single := by decide
  dest := call_new
  elsewhere := fun k n _ e => by
    have : [py!"home", py!"restored"] = [py!"work", n] := e
    simp at this
  head := fun _ _ h => by cases h

/-- After the first round there is room for the second. -/
theorem room2 {W : Tree} (hkeep : ∀ q, callWorld.exists q = true → SameThing W callWorld q)
    (hnew : ∀ q, W.exists q = true → callWorld.exists q = false → NewIn [py!"home"] py!"../src/bag" round1 q) :
    Room callEnv [py!"home"] W py!"/home/restored" round2 := by
  have hfree : ∀ q, callWorld.exists q = false → ¬ NewIn [py!"home"] py!"../src/bag" round1 q → W.exists q = false := by
    intro q h1 h2
    cases h : W.exists q with
    | false => rfl
    | true => exact absurd (hnew q h h1) h2
  refine { out := ⟨by decide, ?_⟩, apart := by decide, plain := by decide, clean := cleanStart_of_check (by decide), free := ?_,
           local_ := by decide, single := by decide, dest := ⟨by decide, by decide, by decide, ?_, ?_⟩, elsewhere := ?_, head := ?_ }
  · exact (hkeep [py!"work"] (by decide)).2.2.trans (by decide)
  · intro k n hn
    refine hfree _ (call_free _ k n hn) ?_
    rintro (h | ⟨k', n', hn', h⟩)
    · have : [py!"home", py!"restored"] <+: [py!"work", n] := h
      simp [List.cons_prefix_cons] at this
    · have : [py!"work", n'] <+: [py!"work", n] := h
      have e : n' = n := by simpa [List.cons_prefix_cons] using this
      obtain ⟨i, _, rfl⟩ := List.mem_map.1 hn
      obtain ⟨j, _, rfl⟩ := List.mem_map.1 hn'
      rw [show nameBase py!"/home/restored" round2.basis = py!"second" by decide,
        show nameBase py!"../src/bag" round1.basis = py!"bag" by decide] at e
      simp at e
  · exact (hkeep [py!"home"] (by decide)).2.2.trans (by decide)
  · refine hfree _ (by decide) ?_
    rintro (h | ⟨k', n', hn', h⟩)
    · revert h; decide
    · have : [py!"work", n'] <+: [py!"home", py!"again"] := h
      simp [List.cons_prefix_cons] at this
  · intro k n _ e
    have : [py!"home", py!"again"] = [py!"work", n] := e
    simp at this
  · exact fun _ _ h => by cases h

end Sample

/-- The sample bag is split into `/work`, restored to `/home/restored`, split again with other names, and restored to
`/home/again`. -/
example : ∃ W, Rounds Sample.callEnv Sample.callRenv [py!".zip"] (fun _ => none) (fun _ => []) [py!"home"]
      Sample.callWorld py!"../src/bag" [Sample.round1, Sample.round2] W py!"/home/again" ∧
    (∃ b', PlainBag (fun _ => true) Sample.callEnv Sample.callRenv [py!"home"] (· = py!"md5") W py!"/home/again" b' ∧
      b'.tree.read [py!"data", py!"b"] = some py!"uvw") ∧
    W.read [py!"work", py!"note"] = some py!"n" := by
  have hw : WfTree Sample.callWorld := Sample.wf_of_check (by decide)
  obtain ⟨b1, W1, h1, h2, h3, _, h5, h6⟩ := plain_round Sample.call_surroundings hw Sample.call_plain Sample.room1 [py!".zip"] (fun _ => none) (fun _ => [])
  have hr1 := (Rounds.none (X := Sample.callEnv) (E := Sample.callRenv) (exts := [py!".zip"]) (archives := fun _ => none) (dirs := fun _ => [])
    (wd := [py!"home"]) Sample.callWorld py!"../src/bag").snoc Sample.room1 h1
  obtain ⟨b2, W2, _, h7⟩ := C109_next Sample.call_surroundings hw Sample.call_plain hr1 (Sample.room2 h5 h6)
  obtain ⟨b', g1, g2⟩ := C109_round_trips Sample.call_surroundings hw Sample.call_plain h7
  have g3 := (C109_disk Sample.call_surroundings hw Sample.call_plain h7).1
  refine ⟨W2, h7, ⟨b', g1, ?_⟩, ?_⟩
  · rw [(g2.things _ Sample.not_special_b).1]; decide +kernel
  · rw [(g3 [py!"work", py!"note"] (by decide)).2.1]; decide

end Verif
