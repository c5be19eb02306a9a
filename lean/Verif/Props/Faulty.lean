import Verif.Lemmas.Faulty
import Verif.Props.SplitValid
/-!
# C118: splitting when copies fail
-/

namespace Verif
open Spec

theorem Forall₂.length_eq' {R : α → β → Prop} {as : List α} {bs : List β} (h : Forall₂ R as bs) : as.length = bs.length := by
  induction h with
  | nil => rfl
  | cons _ _ ih => simp [ih]

theorem Forall₂.split {R : α → β → Prop} {as as' : List α} {ds : List β} (h : Forall₂ R (as ++ as') ds) :
    ∃ bs bs', ds = bs ++ bs' ∧ Forall₂ R as bs ∧ Forall₂ R as' bs' := by
  induction as generalizing ds with
  | nil => exact ⟨[], ds, rfl, .nil, h⟩
  | cons a as ih =>
    cases h with
    | cons hab hr =>
      obtain ⟨bs, bs', e, h1, h2⟩ := ih hr
      exact ⟨_ :: bs, bs', by rw [e]; rfl, .cons hab h1, h2⟩

theorem Forall₂.get {R : α → β → Prop} {as : List α} {bs : List β} (h : Forall₂ R as bs) {i : Nat} {b : β} (hb : bs[i]? = some b) :
    ∃ a, as[i]? = some a ∧ R a b := by
  induction h generalizing i with
  | nil => simp at hb
  | cons hab _ ih =>
    cases i with
    | zero => simp at hb; subst hb; exact ⟨_, rfl, hab⟩
    | succ i => simp at hb; exact ih hb

/-- A damaged bag is still a directory tree. -/
theorem DamagedBag.wf {src t t' : Tree} (h : DamagedBag src t t') (hw : WfTree t) : WfTree t' := by
  have sub : ∀ p ∈ dkeys t', p ∈ dkeys t := by
    intro p hp
    obtain ⟨n, hn⟩ := mem_dkeys_iff.1 hp
    refine mem_dkeys_iff.2 ?_
    have := h.files p
    rw [hn] at this
    generalize dget t p = a at this
    cases this with
    | same => exact ⟨_, rfl⟩
    | cut => exact ⟨_, rfl⟩
    | info => exact ⟨_, rfl⟩
    | bagit => exact ⟨_, rfl⟩
  exact ⟨h.once, fun p hp => hw.good p (sub p hp), fun p hp => by rw [Damage.isdir_eq h]; exact hw.parent p (sub p hp)⟩

/-- C118: suppose that the split returns if no copy fails.  Then however the copies end, the split returns, or it raises
`RuntimeError` because a file could not even be created.  If it returns, the bags have the same names, directories,
manifests and multibag tag files as they should; every planned file is there, with a beginning of its contents; and no file
is there that should not be.  What is missing: that the contents are complete, which is false of the code
(`C118_negation_truncated`), and that there is a `bagit.txt` (`C118_negation_no_bagit`). -/
theorem C118_prefix_partial {S : Source} {blen : Str → Nat} {o : ApplyOpts} {plan : List Manifest} {names : List Str}
    {d d' : CopyDisk} (hsrc : d.src = S.tree) (hd : d.out = [] ∧ ∀ e ∈ d.done, (dkeys e.2).Nodup)
    (hf : ∀ m ∈ plan, ∀ f ∈ m.contents, PlanEntry f)
    (hal : ∀ a ∈ S.algs, '/' ∉ a) (ha : ∀ f, ∀ ah ∈ S.hashes f, '/' ∉ ah.1)
    (h : applyPlan copyFS S blen o plan names d = .ok d') (ends : List CopyEnd) :
    (applyPlan faultyFS S blen o plan names { plain := d, ends := ends } = .error .runtimeError ∧ CopyEnd.nothing ∈ ends) ∨
    ∃ l' bags, applyPlan faultyFS S blen o plan names { plain := d, ends := ends } = .ok l' ∧
      l'.plain.src = d.src ∧ l'.plain.done.map Prod.fst = d'.done.map Prod.fst ∧
      d'.done = d.done ++ bags ∧ bags.length = plan.length ∧
      ∀ (i : Nat) m n t', plan[i]? = some m → l'.plain.done[d.done.length + i]? = some (n, t') →
        (∃ t, bags[i]? = some (n, t) ∧ DamagedBag S.tree t t') ∧
        (∀ f ∈ m.contents, ∀ c, S.tree.read (comps f) = some c → ¬ (i + 1 = plan.length ∧ HeadFile (comps f)) →
          ∃ c', t'.read (comps f) = some c' ∧ c' <+: c) := by
  have s0 : Beside d { plain := d, ends := ends } := by
    refine ⟨rfl, rfl, ?_, ?_⟩
    · show DamagedBag d.src d.out d.out
      rw [hd.1]
      exact ⟨fun _ => .same _, List.nodup_nil⟩
    · show Forall₂ _ d.done d.done
      have := hd.2
      generalize d.done = l at this
      induction l with
      | nil => exact .nil
      | cons e l ih =>
        exact .cons ⟨rfl, fun _ => .same _, this e (List.mem_cons_self ..)⟩
          (ih (fun x hx => this x (List.mem_cons_of_mem _ hx)))
  rcases s0.applyPlan hsrc hf ha h with ⟨l', e, s, _⟩ | ⟨e, n⟩
  · obtain ⟨bags, h1, h2, _, _, h5⟩ := C36_contents hsrc hf hal ha h
    have hs : d'.src = d.src := by
      obtain ⟨_, _, _, _, e, _⟩ := applyPlan_copy hsrc hf ha h
      exact e
    refine .inr ⟨l', bags, e, ?_, ?_, h1, h2, ?_⟩
    · rw [s.src, hs]
    · have := s.done
      generalize d'.done = a at this
      generalize l'.plain.done = b at this
      induction this with
      | nil => rfl
      | cons h _ ih => rw [List.map_cons, List.map_cons, ih, h.1]
    · intro i m n t' hm ht'
      obtain ⟨⟨n0, t⟩, hx, hn, hdam⟩ := s.done.get ht'
      simp only at hn
      subst hn
      have hb : bags[i]? = some (n0, t) := by
        rw [h1, List.getElem?_append_right (Nat.le_add_right _ _), Nat.add_sub_cancel_left] at hx
        exact hx
      rw [hs, hsrc] at hdam
      refine ⟨⟨t, hb, hdam⟩, ?_⟩
      intro f hfm c hc hnh
      have hr := (h5 i m n0 t hm hb).2.files f hfm c hc (by
        rintro ⟨h1, h2⟩
        exact hnh ⟨by simpa using h1, h2⟩)
      obtain ⟨_, hns, _⟩ := planEntry_good (hf m (List.mem_of_getElem? hm) f hfm)
      have := hdam.files (comps f)
      unfold Tree.read at hr ⊢
      generalize dget t (comps f) = a at this hr
      generalize dget t' (comps f) = b at this ⊢
      cases this with
      | same => exact ⟨c, hr, List.prefix_refl _⟩
      | cut _ h2 h3 =>
        rw [hc] at h2
        cases h2
        exact ⟨_, rfl, h3⟩
      | info _ _ h => exact absurd (.inr (.inl h)) hns
      | bagit _ _ h => exact absurd (.inl h) hns
  · exact .inl ⟨e, n⟩

/-- Bags with the same `bagit.txt` have the same version and encoding. -/
theorem opened_same {cfg cfg' : ReadCfg} {t t' : Tree} {b b' : RBag} (h : openBag cfg t = .ok b) (h' : openBag cfg' t' = .ok b')
    (hb : t'.read [py!"bagit.txt"] = t.read [py!"bagit.txt"]) : b'.version = b.version ∧ b'.encoding = b.encoding := by
  obtain ⟨_, _, _, _, tags, v, h1, h2, h3, h4, _⟩ := openBag_parts h
  obtain ⟨_, _, _, _, tags', v', h1', h2', h3', h4', _⟩ := openBag_parts h'
  have : loadTagFile true t' [py!"bagit.txt"] = loadTagFile true t [py!"bagit.txt"] := by
    unfold loadTagFile
    rw [hb]
  rw [this, h1] at h1'
  cases h1'
  rw [h2] at h2'
  cases h2'
  rw [h3] at h3'
  rw [h4] at h4'
  injection h3' with h3'
  injection h4' with h4'
  injection h4' with h4'
  exact ⟨h3'.symm, h4'.symm⟩

theorem DamagedBag.manText {src t t' : Tree} (h : DamagedBag src t t') (cfg : ReadCfg) (path : Str) (v : List Int) (e : Str) :
    Spec.manifestText { cfg with bagpath := path } v e t' = Spec.manifestText { cfg with bagpath := path } v e t := by
  have r1 : ∀ a, t'.read [py!"manifest-" ++ a ++ py!".txt"] = t.read [py!"manifest-" ++ a ++ py!".txt"] := by
    intro a
    have := Damage.manifest (a := a) h (.inl rfl)
    rw [manPath_manifest] at this
    unfold Tree.read
    rw [this]
  have r2 : ∀ a, t'.read [py!"tagmanifest-" ++ a ++ py!".txt"] = t.read [py!"tagmanifest-" ++ a ++ py!".txt"] := by
    intro a
    have := Damage.manifest (a := a) h (.inr rfl)
    rw [show manPath py!"tagmanifest" a = [py!"tagmanifest-" ++ a ++ py!".txt"] by simp [manPath]] at this
    unfold Tree.read
    rw [this]
  unfold Spec.manifestText
  simp only [r1, r2]

/-- C118: validating tells.  However the copies end, an output bag of a split that returned, if its `bagit.txt` is intact and
the bag is valid, has the complete contents of every planned payload file whose checksums differ from those of its beginnings. -/
theorem C118_detected {hostOk : Str → Bool} {sum : Str → Str → Str} {blen : Str → Nat} {cfg : ReadCfg} {t : Tree}
    {b : RBag} (ho : openBag cfg t = .ok b) (hw : WfTree t)
    (hv : bagValidate hostOk sum blen cfg b = .ok ())
    (hex : HexSum sum) (halg : cfg.algs.Nodup) (hslash : ∀ a ∈ cfg.algs, '/' ∉ a) (htag : b.tagFile = py!"bag-info.txt")
    {o : ApplyOpts} {plan : List Manifest} {names : List Str} {d d' : CopyDisk} (hsrc : d.src = t)
    (hd : d.out = [] ∧ ∀ e ∈ d.done, (dkeys e.2).Nodup)
    (hf : ∀ m ∈ plan, ∀ f ∈ m.contents, PlanEntry f ∧ PlainPath f ∧ ¬ HeadFile (comps f) ∧ f ≠ py!"fetch.txt")
    (hnd : ∀ m ∈ plan, m.contents.Nodup)
    (hnames : ∀ n ∈ names, OneLineValue n) (hmnames : ∀ m ∈ plan, ∀ n, m.name = some n → OneLineValue n)
    (hver : OneLineValue o.headVersion) (hdep : ∀ x ∈ o.deprecates, OneLineValue (deprecateValue x))
    (h : applyPlan copyFS (b.source cfg) blen o plan names d = .ok d')
    {ends : List CopyEnd} {l' : FaultyDisk}
    (hl : applyPlan faultyFS (b.source cfg) blen o plan names { plain := d, ends := ends } = .ok l')
    {i : Nat} {m : Manifest} {n : Str} {t' : Tree} (hm : plan[i]? = some m)
    (ht' : l'.plain.done[d.done.length + i]? = some (n, t'))
    (hbagit : t'.read [py!"bagit.txt"] = t.read [py!"bagit.txt"])
    {path : Str} (hsafe : ∀ p, t'.isfile p = true → isDangerous cfg.env path (joinPath p) = false)
    {b' : RBag} (ho' : openBag { cfg with bagpath := path } t' = .ok b')
    (hv' : bagValidate hostOk sum blen { cfg with bagpath := path } b' = .ok ())
    {f : Str} (hfm : f ∈ m.contents) (hpay : isPayload f = true) {c : Str} (hc : t.read (comps f) = some c)
    (hcol : ∀ a ∈ cfg.algs, ∀ k, sum a (c.take k) = sum a c → c.take k = c) :
    t'.read (comps f) = some c := by
  have htt := (openBag_parts ho).1
  have hst : (b.source cfg).tree = t := htt
  have hval := (C80_valid_iff ho hw hostOk sum blen).1 hv
  have hf1 : ∀ m ∈ plan, ∀ f ∈ m.contents, PlanEntry f := fun m hm f hfm => (hf m hm f hfm).1
  have ha : ∀ f, ∀ ah ∈ (b.source cfg).hashes f, '/' ∉ ah.1 :=
    fun f ah hh => hslash _ (hashes_valid ho hval hh).1
  have hal : ∀ a ∈ (b.source cfg).algs, '/' ∉ a := by
    intro a hma
    unfold RBag.source manifestFiles at hma
    simp only [List.mem_map, List.mem_filter] at hma
    obtain ⟨_, ⟨⟨a', ha', rfl⟩, _⟩, rfl⟩ := hma
    exact hslash _ ha'
  obtain ⟨bags, hb1, hb2, hb3⟩ := split_outputs ho hw hv hex halg hslash htag hsrc hf hnd hnames hmnames hver hdep h
  rcases C118_prefix_partial (hsrc.trans hst.symm) hd hf1 hal ha h ends with ⟨e, _⟩ | ⟨l2, bags2, e, _, _, h1, _, h3⟩
  · rw [hl] at e; cases e
  rw [hl] at e
  cases e
  have : bags2 = bags := List.append_cancel_left (h1.symm.trans hb1)
  subst this
  obtain ⟨⟨tp, htp, hdam⟩, hpre⟩ := h3 i m n t' hm ht'
  obtain ⟨sb, _, _, _, _, _, _, _, hopen⟩ := hb3 i m n tp hm htp
  obtain ⟨c', hc', hpc⟩ := hpre f hfm c (by rw [hst]; exact hc) (fun hh => (hf m (List.mem_of_getElem? hm) f hfm).2.2.1 hh.2)
  have hbt : dget t' [py!"bagit.txt"] = dget tp [py!"bagit.txt"] := by
    have := sb.bagit.1
    rw [← hbagit] at this
    have hi := sb.bagit.2
    rw [isfile_iff] at hi
    obtain ⟨x, hx⟩ := hi
    have hr : tp.read [py!"bagit.txt"] = some x := by
      unfold Tree.read; rw [hx]
    rw [hr] at this
    rw [hx]
    unfold Tree.read at this
    split at this
    · next y hy => cases this; exact hy
    · cases this
  have hisf : ∀ p, tp.isfile p = true → t'.isfile p = true := by
    intro p hp
    by_cases e : p = [py!"bagit.txt"]
    · subst e
      unfold Tree.isfile at hp ⊢
      rw [hbt]
      exact hp
    · have := hdam.files p
      unfold Tree.isfile at hp ⊢
      generalize dget tp p = x at this hp
      generalize dget t' p = y at this ⊢
      cases this with
      | same => exact hp
      | cut => rfl
      | info => rfl
      | bagit _ _ h => exact absurd h e
  obtain ⟨bp, hop, _, _, hvp⟩ := hopen path (fun p hp => hsafe p (hisf p hp))
  obtain ⟨ev, ee⟩ := opened_same hop ho' (by unfold Tree.read; rw [hbt])
  have hvb := (C80_valid_iff ho' (DamagedBag.wf hdam sb.wf) hostOk sum blen).1 hv'
  have tpt := (openBag_parts hop).1
  have tt' := (openBag_parts ho').1
  obtain ⟨hg, _, hj⟩ := planEntry_good (hf1 m (List.mem_of_getElem? hm) f hfm)
  have hrp : tp.read (comps f) = some c :=
    sb.files f hfm c hc (fun hh => (hf m (List.mem_of_getElem? hm) f hfm).2.2.1 hh.2)
  have hin : (comps f, c) ∈ payload bp.tree := by
    rw [tpt, mem_payload sb.wf]
    exact ⟨hrp, ((isPayload_iff hg).1 (by rw [hj]; exact hpay)).1⟩
  obtain ⟨alg, line, x, hx, hlist⟩ := hvp.listed _ _ hin
  rw [hj] at hlist
  obtain ⟨y, hy, hsy⟩ := hvp.sums alg line x f hx hlist
  rw [tpt, hrp] at hy
  cases hy
  obtain ⟨z, hz, hsz⟩ := hvb.sums alg line x f (by
    rw [tt', DamagedBag.manText hdam, ev, ee, ← tpt]
    exact hx) hlist
  rw [tt', hc'] at hz
  cases hz
  have hal' : alg ∈ cfg.algs := by
    have two : ∀ pre : Str, (alg, line) ∈ cfg.algs.flatMap (fun alg =>
        match bp.tree.read [pre ++ alg ++ py!".txt"] with
        | some text => (manifestLines bp.encoding text).map (fun l => (alg, l))
        | none => []) → alg ∈ cfg.algs := by
      intro pre hg
      obtain ⟨a, ha, hm⟩ := List.mem_flatMap.1 hg
      split at hm
      · obtain ⟨_, _, e⟩ := List.mem_map.1 hm
        cases e
        exact ha
      · cases hm
    unfold Spec.manifestText at hx
    rcases List.mem_append.1 hx with hx | hx
    · exact two _ hx
    · split at hx
      · cases hx
      · exact two _ hx
  obtain ⟨k, hk⟩ : ∃ k, c' = c.take k := ⟨c'.length, (List.prefix_iff_eq_take.1 hpc)⟩
  rw [hc', hk, hcol alg hal' k (by rw [← hk, ← hsz, ← hsy])]


/-- Splits a bag on a disk where copies fail, and looks at the bags: what validating them says, and the contents of a file. -/
def Sample.faultySplit (t : Tree) (plan : List Manifest) (ends : List CopyEnd) (p : Path) :
    Except PyErr (List (Except PyErr Unit × Option Str)) :=
  match openBag Sample.readCfg t with
  | .error e => .error e
  | .ok b =>
    match applyPlan faultyFS (b.source Sample.readCfg) List.length {} plan [] { plain := { src := t }, ends := ends } with
    | .error e => .error e
    | .ok l => .ok (l.plain.done.map (fun e => (Sample.outVerdict Sample.readCfg e.2, e.2.read p)))

/-- The hypotheses of `C118_prefix_partial` and `C118_detected` are met by a valid bag split in two, when the last copy is cut
short; then the second bag is not valid.  And a file that cannot be created is reported. -/
example : ∃ b, openBag Sample.readCfg Sample.goodTree = .ok b ∧ WfTree Sample.goodTree ∧
    bagValidate (fun _ => true) Sample.sum List.length Sample.readCfg b = .ok () ∧ HexSum Sample.sum ∧
    (∀ m ∈ Sample.halves, ∀ f ∈ m.contents, PlanEntry f ∧ PlainPath f ∧ ¬ HeadFile (comps f) ∧ f ≠ py!"fetch.txt") ∧
    (∀ m ∈ Sample.halves, m.contents.Nodup) ∧
    (applyPlan copyFS (b.source Sample.readCfg) List.length {} Sample.halves [] { src := Sample.goodTree }).toOption.isSome = true ∧
    Sample.faultySplit Sample.goodTree Sample.halves [.whole, .whole, .whole, .cut 1] [py!"data", py!"c"] =
      .ok [(.ok (), none), (.error .bagValidationError, some py!"u")] ∧
    Sample.faultySplit Sample.goodTree Sample.halves [] [py!"data", py!"c"] = .ok [(.ok (), none), (.ok (), some py!"uv")] ∧
    Sample.faultySplit Sample.goodTree Sample.halves [.whole, .whole, .whole, .nothing] [py!"data", py!"c"] = .error .runtimeError ∧
    (∀ a ∈ Sample.readCfg.algs, ∀ k, Sample.sum a (py!"uv".take k) = Sample.sum a py!"uv" → py!"uv".take k = py!"uv") := by
  refine ⟨_, rfl, Sample.wf_of_check (by decide), by decide +kernel, Sample.hexSum, ?_, by decide, by decide +kernel,
    by decide +kernel, by decide +kernel, by decide +kernel, ?_⟩
  · intro m hm f hf
    have : f = py!"data/a b" ∨ f = py!"data/c" := by
      rcases List.mem_cons.1 hm with rfl | hm
      · left; simpa using hf
      · rcases List.mem_cons.1 hm with rfl | hm
        · right; simpa using hf
        · cases hm
    rcases this with rfl | rfl
    · exact Sample.plain_data (n := py!"a b") (by decide) (by decide) (by decide)
    · exact Sample.plain_data (n := py!"c") (by decide) (by decide) (by decide)
  · intro a _ k
    match k with
    | 0 => intro h; exact absurd h (by revert a; decide)
    | 1 => intro h; exact absurd h (by revert a; decide)
    | k + 2 => intro _; simp

/-- C118 is false of the code: after a copy that was cut short the split returns normally.  If the file is in no manifest,
validating the bag does not tell either. -/
theorem C118_negation_truncated :
    Sample.faultySplit (dset Sample.goodTree [py!"notes.txt"] (.file py!"all of it"))
      [{ name := some py!"b1", contents := [py!"data/a b"] }, { name := some py!"b2", contents := [py!"data/c", py!"notes.txt"] }]
      [.whole, .whole, .whole, .whole, .cut 3] [py!"notes.txt"] =
    .ok [(.ok (), none), (.ok (), some py!"all")] := by
  decide +kernel

/-- C118: when copying `bagit.txt` fails, the split returns normally, and the result is not a bag. -/
theorem C118_negation_no_bagit :
    Sample.faultySplit Sample.goodTree Sample.halves [.nothing] [py!"bagit.txt"] =
    .ok [(.error .bagError, none), (.ok (), Sample.goodTree.read [py!"bagit.txt"])] := by
  decide +kernel

end Verif
