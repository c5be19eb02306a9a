import Verif.Props.RestoreValid
import Verif.Props.RoundTrip
import Verif.Lemmas.SplitFits
/-!
# Splitting a valid bag and restoring it: C85
-/

namespace Verif

open Spec

namespace Spec

/-- A bag `b`, opened from the tree `t` at `src`, that is valid, not part of an aggregation, without files to
fetch, with tidy manifests for the algorithms `A`, and whose metadata file is `bag-info.txt`. -/
structure SplitSource (hostOk : Str → Bool) (E : RestoreEnv) (A : Str → Prop) (src : Str) (t : Tree) (b : RBag) : Prop where
  opens : openBag { E.base with bagpath := src } t = .ok b
  valid : bagValidate hostOk E.sum E.blen { E.base with bagpath := src } b = .ok ()
  ordinary : Ordinary (b.source { E.base with bagpath := src })
  tagFile : b.tagFile = py!"bag-info.txt"
  tidy : Tidy (AtDest E) E.base.algs A t
  nohead : py!"Multibag-Head-Version" ∉ dkeys b.info
  notags : ∀ p, [py!"multibag"] <+: p → t.exists p = false
  nofetch : t.exists [py!"fetch.txt"] = false

/-- A path that can be listed in a manifest and in the multibag tag files, and does not look dangerous. -/
structure ListablePath (f : Str) : Prop where
  plain : PlainPath f
  unexpanded : Unexpanded f
  clean : CleanStart f

/-- The bags of a split, the head bag `H` last, as a restore finds them: at absolute paths, `srcs` outside the
destination. -/
structure BagsFound (E : RestoreEnv) (bags : List (Str × Tree)) (H : RHead) (srcs : List RSource) : Prop where
  found : ∃ init, bags = init ++ [(H.name, H.tree)] ∧
    Forall₂ (fun b s => E.find b.1 = some s ∧ s.tree = b.2 ∧ s.path ≠ E.base.bagpath ∧ ∃ dir, AbsPath s.path dir) init srcs
  outside : H.path ≠ E.base.bagpath
  place : ∃ dir, AbsPath H.path dir
  info : ∀ b, openBag { E.base with bagpath := H.path } H.tree = .ok b → H.info = b.info

end Spec

/-- Whether tags can be read does not depend on the tag before them. -/
theorem parseTagsFrom_some (ls : List Str) (a b : Str × Str) :
    (∃ l, parseTagsFrom (some a) ls = .ok l) ↔ ∃ l, parseTagsFrom (some b) ls = .ok l := by
  induction ls generalizing a b with
  | nil => exact ⟨fun _ => ⟨_, rfl⟩, fun _ => ⟨_, rfl⟩⟩
  | cons x ls ih =>
    simp only [parseTagsFrom]
    by_cases h1 : strip x = []
    · rw [if_pos h1, if_pos h1]; exact ih a b
    · rw [if_neg h1, if_neg h1]
      by_cases h2 : (x.head?.map isSpace).getD false = true
      · simp only [h2, if_true]; exact ih _ _
      · simp only [h2, Bool.false_eq_true, if_false]
        by_cases h3 : ':' ∈ x
        · simp only [h3, if_true]
          cases parseTagsFrom (some (strip ((strip x).takeWhile (· ≠ ':')), ((strip x).dropWhile (· ≠ ':')).tail)) ls <;> simp
        · simp [h3]

/-- A metadata file that can be read can be read without its byte order mark. -/
theorem parse_dropBom {u : Str} (hr : '\r' ∉ u) {l : List (Str × Str)} (h : parseTags .universal u = .ok l) :
    ∃ l', parseTags .universal (dropBom u) = .ok l' := by
  cases u with
  | nil => exact ⟨l, h⟩
  | cons x u =>
    by_cases hx : x = bom
    · subst hx
      have hd : dropBom (bom :: u) = u := by simp [dropBom]
      rw [hd]
      have hr' : '\r' ∉ u := fun h => hr (List.mem_cons_of_mem _ h)
      unfold parseTags textLines at h ⊢
      simp only at h ⊢
      rw [translateNl_clean hr] at h
      rw [translateNl_clean hr']
      rw [linesOf_cons_not (by decide)] at h
      cases hl : linesOf isNl u with
      | nil => exact ⟨[], rfl⟩
      | cons y ys =>
        rw [hl] at h
        simp only [parseTagsFrom] at h ⊢
        have hs : strip (bom :: y) ≠ [] := by
          intro e
          have := strip_eq_nil_iff.1 e bom List.mem_cons_self
          revert this; decide
        rw [if_neg hs] at h
        have hb : ((bom :: y).head?.map isSpace).getD false = false := by
          show isSpace bom = false
          decide
        rw [hb] at h
        simp only [Bool.false_eq_true, if_false] at h
        by_cases hc : ':' ∈ bom :: y
        · have hcy : ':' ∈ y := by
            rcases List.mem_cons.1 hc with e | e
            · exact absurd e (by decide)
            · exact e
          rw [if_pos hc] at h
          have hsy : strip y ≠ [] := by
            intro e
            have := strip_eq_nil_iff.1 e ':' hcy
            revert this; decide
          rw [if_neg hsy]
          have hok : ∃ l, parseTagsFrom (some (strip ((strip (bom :: y)).takeWhile (· ≠ ':')),
              ((strip (bom :: y)).dropWhile (· ≠ ':')).tail)) ys = .ok l := by
            cases hp : parseTagsFrom (some (strip ((strip (bom :: y)).takeWhile (· ≠ ':')),
              ((strip (bom :: y)).dropWhile (· ≠ ':')).tail)) ys with
            | ok l => exact ⟨l, rfl⟩
            | error e => rw [hp] at h; cases h
          obtain ⟨l', hl'⟩ := (parseTagsFrom_some ys _ (strip ((strip y).takeWhile (· ≠ ':')),
            ((strip y).dropWhile (· ≠ ':')).tail)).1 hok
          refine ⟨l', ?_⟩
          rw [ite_self]
          simp only [hcy, if_true, hl', yieldTag, List.nil_append]
        · rw [if_neg hc] at h; cases h
    · exact ⟨l, by simpa [dropBom, hx] using h⟩

/-- The aggregation's metadata in a head bag made by a split can be read. -/
theorem parse_copied (mode : TextMode) {text : Str} {l : List (Str × Str)} (h : parseTags .universal text = .ok l) :
    ∃ l', parseTags .universal (copiedText mode (translateNl text)) = .ok l' := by
  have hr := translateNl_no_cr text
  have h' : parseTags .universal (translateNl text) = .ok l := by
    rw [← h]
    show parseTagsFrom none (linesOf isNl (translateNl (translateNl text))) = parseTagsFrom none (linesOf isNl (translateNl text))
    rw [translateNl_clean hr]
  cases mode with
  | codecs => exact parse_dropBom hr h'
  | universal =>
    refine ⟨l, ?_⟩
    show parseTags .universal (translateNl (translateNl text)) = _
    rw [translateNl_clean hr]; exact h'

theorem translateNl_start {s : Str} (h : s.head? ≠ some bom) : (translateNl s).head? ≠ some bom := by
  fun_cases translateNl s <;> simp_all [bom]

/-- Without a byte order mark it is read as it was. -/
theorem parse_copied_same (mode : TextMode) {text : Str} (hb : text.head? ≠ some bom) :
    parseTags .universal (copiedText mode (translateNl text)) = parseTags .universal text := by
  have hr := translateNl_no_cr text
  have h' : parseTags .universal (translateNl text) = parseTags .universal text := by
    show parseTagsFrom none (linesOf isNl (translateNl (translateNl text))) = parseTagsFrom none (linesOf isNl (translateNl text))
    rw [translateNl_clean hr]
  cases mode with
  | codecs =>
    have : dropBom (translateNl text) = translateNl text := by
      have := translateNl_start hb
      cases ht : translateNl text with
      | nil => rfl
      | cons x xs =>
        rw [ht] at this
        simp only [List.head?_cons, ne_eq, Option.some.injEq] at this
        simp [dropBom, this]
    show parseTags .universal (dropBom (translateNl text)) = _
    rw [this, h']
  | universal =>
    show parseTags .universal (translateNl (translateNl text)) = _
    rw [translateNl_clean hr, h']

theorem head_version_loaded {fs : List (Str × Str)} {v : Str} (h : valuesOf fs py!"Multibag-Head-Version" = [v]) :
    py!"Multibag-Head-Version" ∈ dkeys (loadTags fs) := by
  have hf := fields_loadTags fs py!"Multibag-Head-Version"
  rw [h] at hf
  unfold fields at hf
  cases hg : dget (loadTags fs) py!"Multibag-Head-Version" with
  | none => simp [hg] at hf
  | some x => exact mem_dkeys_iff.2 ⟨x, hg⟩

/-- What is known of a bag `out` made by a split of `t`, whose metadata is `i`, and a restore, besides what C85 says; it is opened as `b`. -/
structure Remade (E : RestoreEnv) (A : Str → Prop) (t : Tree) (i : Info) (rm : Bool) (out : Tree) (b : RBag) : Prop where
  wf : WfTree out
  tidy : Tidy (AtDest E) E.base.algs A out
  tagFile : b.tagFile = py!"bag-info.txt"
  info : out.isfile [py!"bag-info.txt"] = true
  files : ∀ p, out.isfile p = true → t.isfile p = true ∨ p = [py!"bag-info.txt"] ∨ HeadFile p ∨
    ∃ a ∈ E.base.algs, p = [py!"manifest-" ++ a ++ py!".txt"] ∨ p = [py!"tagmanifest-" ++ a ++ py!".txt"]
  dirs : ∀ p, out.isdir p = true → t.isdir p = true ∨ p = [py!"multibag"]
  tags : rm = true → ∀ p, [py!"multibag"] <+: p → out.exists p = false
  keys : rm = true → ∀ k ∈ multibagKeys, k ∉ dkeys b.info
  listed : ∀ kind, kind = py!"manifest" ∨ kind = py!"tagmanifest" → ∀ a ∈ E.base.algs, ∀ p v, Recorded kind out a p v →
    ∃ c, out.read (comps p) = some c
  values : rm = true → (∀ text, t.read [py!"bag-info.txt"] = some text → text.head? ≠ some bom) → ∀ k, k ∉ multibagFields →
    k ≠ py!"Payload-Oxum" → k ≠ py!"Bag-Size" → fields b.info k = (fields i k).map unbroken

/-- What C85 says, that the head bag opens and is marked as one, and more about the restored bag. -/
theorem split_restored_parts {hostOk : Str → Bool} {E : RestoreEnv} (hE : EnvOk E) (hF : EnvFits E)
    (hdol : ∀ a ∈ E.base.algs, '$' ∉ a) {dest : Path} (hdest : AbsPath E.base.bagpath dest)
    (hsz : ∀ t i, Trimmed (E.sizeText t i))
    {A : Str → Prop} {src : Str} {t : Tree} {b : RBag} (hs : SplitSource hostOk E A src t b)
    {w : Char → Bool} {plan : List Manifest} (hcomp : Complete w t plan)
    (hf : ∀ m ∈ plan, ∀ f ∈ m.contents, PlanEntry f ∧ ListablePath f ∧ ¬ HeadFile (comps f) ∧ f ≠ py!"fetch.txt")
    (hnd : ∀ m ∈ plan, m.contents.Nodup)
    {o : ApplyOpts} (hver : OneLineValue o.headVersion) (hdep : ∀ x ∈ o.deprecates, OneLineValue (deprecateValue x))
    {names : List Str} (hnames : ∀ n ∈ names, OneLineValue n) (hmnames : ∀ m ∈ plan, ∀ n, m.name = some n → OneLineValue n)
    {d d' : CopyDisk} (hsrc : d.src = t) (hd0 : d.done = [])
    (hrun : applyPlan copyFS (b.source { E.base with bagpath := src }) E.blen o plan names d = .ok d')
    (hclean : ∀ e ∈ d'.done, CleanStart e.1)
    {H : RHead} {srcs : List RSource} (hfound : BagsFound E d'.done H srcs) (rm : Bool) :
    ∃ out b', restore E H true rm [] = .ok out ∧ openBag E.base out = .ok b' ∧
      bagValidate hostOk E.sum E.blen E.base b' = .ok () ∧
      ((∃ hb, openBag { E.base with bagpath := H.path } H.tree = .ok hb ∧ py!"Multibag-Head-Version" ∈ dkeys hb.info) ∧
          iterMembers H.mode H.tree H.info = .ok ((d'.done.map Prod.fst).map (fun n => { name := n }))) ∧
      Remade E A t b.info rm out b' ∧
      ∀ p, ¬ Special p → out.read p = t.read p ∧ (out.isdir p = true ↔ t.isdir p = true) := by
  have htree : (b.source { E.base with bagpath := src }).tree = t := (openBag_parts hs.opens).1
  have hw : WfTree t := htree ▸ hs.ordinary.wf
  have hval := (C80_valid_iff hs.opens hw hostOk E.sum E.blen).1 hs.valid
  have hex : HexSum E.sum := by
    intro alg c x hx
    have := (hF.sums alg c).2 x hx
    clear hx
    revert x; decide
  obtain ⟨bags, hb1, hb2, hb3⟩ := split_outputs hs.opens hw hs.valid hex hF.algs hE.algs hs.tagFile hsrc
    (fun m hm f hfm => ⟨(hf m hm f hfm).1, (hf m hm f hfm).2.1.plain, (hf m hm f hfm).2.2⟩) hnd hnames hmnames hver hdep hrun
  rw [hd0, List.nil_append] at hb1
  subst hb1
  have hnofetch := hs.nofetch
  obtain ⟨⟨init, hinit, hfa⟩, hout, ⟨hdir, habs⟩, hinfo⟩ := hfound
  have hlen : init.length + 1 = plan.length := by rw [← hb2, hinit]; simp
  -- every bag fits, at any absolute path
  have hbag : ∀ (i : Nat) n t', d'.done[i]? = some (n, t') → ∀ path dir, AbsPath path dir →
      Fits E A ⟨path, t'⟩ ∧ t'.isfile [py!"fetch.txt"] = false ∧
        ∃ b', openBag { E.base with bagpath := path } t' = .ok b' ∧
          (∃ fs : List (Str × Str), (∃ size count, bagInfoFields (b.source { E.base with bagpath := src }) o n (decide (i + 1 = plan.length)) size count = .ok fs) ∧
            b'.info = loadTags (fs.map (fun f => (f.1, reread f.2)))) ∧
          bagValidate hostOk E.sum E.blen { E.base with bagpath := path } b' = .ok () := by
    intro i n t' hi path dir hpath
    have hil : i < plan.length := by rw [← hb2]; exact (List.getElem?_eq_some_iff.1 hi).1
    have hm := List.getElem?_eq_getElem hil
    have hmem := List.mem_of_getElem? hm
    obtain ⟨sb, hman, _, size, count, fs, hfs, _, hop⟩ := hb3 i _ n t' hm hi
    obtain ⟨hsafe, hfit⟩ := split_fits hE hF hdol hdest hs.opens hs.ordinary hval hs.tidy
      (fun f hfm => ⟨(hf _ hmem f hfm).1, (hf _ hmem f hfm).2.1.plain, (hf _ hmem f hfm).2.1.unexpanded⟩) (hnd _ hmem) sb hman hpath
      (fun h => by
        obtain ⟨b', h1, _, h2, _⟩ := hop path h
        exact ⟨b', h1, h2⟩)
    refine ⟨hfit, ?_, ?_⟩
    · cases hx : t'.isfile [py!"fetch.txt"] with
      | false => rfl
      | true =>
        exfalso
        rcases sb.only _ hx with ⟨h, _⟩ | h | ⟨_, h⟩
        · rw [exists_of_isfile h] at hnofetch; cases hnofetch
        · rcases h with h | h | ⟨a, h | h⟩ <;> simp at h
        · rcases h with h | h | h <;> simp at h
    · obtain ⟨b', h1, h2, _, h4⟩ := hop path hsafe
      exact ⟨b', h1, ⟨fs, ⟨size, count, hfs⟩, h2⟩, (C80_valid_iff h1 sb.wf hostOk E.sum E.blen).2 h4⟩
  have hlast : d'.done[init.length]? = some (H.name, H.tree) := by
    rw [hinit, List.getElem?_append_right (Nat.le_refl _)]; simp
  obtain ⟨hHfit, hHfetch, hb, hHopen, ⟨fs, ⟨size, count, hfs⟩, hHinfo⟩, hHval⟩ := hbag _ _ _ hlast _ _ habs
  have hHi := hinfo hb hHopen
  have hv1 : valuesOf (fs.map (fun f => (f.1, reread f.2))) py!"Multibag-Version" = [py!"0.4"] := by
    rw [valuesOf_reread, (C40_version hfs).1]; decide
  have hv2 : valuesOf (fs.map (fun f => (f.1, reread f.2))) py!"Multibag-Tag-Directory" = [py!"multibag"] := by
    rw [valuesOf_reread, (C40_version hfs).2]; decide
  obtain ⟨r1, r2⟩ := reader_values hv1 hv2
  rw [← hHinfo, ← hHi] at r1 r2
  have r3 : tagDir H.info = py!"multibag" := by rw [hHi, hHinfo, tagDir_loadTags, hv2]; rfl
  have hfa' : Forall₂ (fun b s => E.find b.1 = some s ∧ s.tree = b.2 ∧ s.path ≠ E.base.bagpath) init srcs :=
    forall₂_imp (fun _ _ h => ⟨h.1, h.2.1, h.2.2.1⟩) hfa
  obtain ⟨⟨hA, hlist⟩, hdel, hmem, ts, hts, htl, hall⟩ := split_run_parts hs.ordinary.hashes hs.ordinary.algs hs.nohead
    (fun p hp => by rw [htree]; exact hs.notags p hp)
    (fun m hm f hfm => (hf m hm f hfm).1) (fun m hm f hfm => (hf m hm f hfm).2.1.clean) (htree.symm ▸ hsrc) hd0 hrun r1 r2 r3
    hinit hclean hfa'
  subst hts
  have hclash := split_noclash hs.ordinary htl hall
  have hdeleted : ∀ p, ¬ Deleted [] p := by rintro p ⟨q, _, _, h⟩; cases h
  obtain ⟨out, b', h1, h2, h3, hasm⟩ := restored_valid_parts hE hF hA hclash (A := A) (hostOk := hostOk) (by
      intro s hsm
      rcases List.mem_append.1 hsm with hsm | hsm
      · obtain ⟨x, hx, hxs⟩ := forall₂_mem_right hfa hsm
        obtain ⟨i, hi⟩ := List.mem_iff_getElem?.1 hx
        have hil := (List.getElem?_eq_some_iff.1 hi).1
        obtain ⟨dir, hdir⟩ := hxs.2.2.2
        obtain ⟨g1, g2, b', g3, _, g4⟩ := hbag i x.1 x.2 (by rw [hinit, List.getElem?_append_left hil]; exact hi) _ _ hdir
        rw [← hxs.2.1] at g1 g2 g3
        exact ⟨g1, g2, b', g3, g4⟩
      · rw [List.mem_singleton] at hsm
        subst hsm
        exact ⟨hHfit, hHfetch, hb, hHopen, hHval⟩)
    hdel (fun p _ => hdeleted p) (fun p _ _ => hdeleted p) (by
      intro c hc
      obtain ⟨_, _, hagg, _⟩ := hb3 init.length _ H.name H.tree (List.getElem?_eq_getElem (by omega)) hlast
      rw [show aggregationInfo = mb3 from rfl, hagg hlen] at hc
      cases hc
      obtain ⟨_, _, _, hbi, _⟩ := openBag_parts hs.opens
      rw [hs.tagFile] at hbi
      have hbf := hs.ordinary.baginfo
      rw [htree] at hbf
      rw [if_pos (exists_of_isfile hbf)] at hbi
      unfold loadTagFile at hbi
      rw [isfile_read] at hbf
      obtain ⟨text, ht⟩ := Option.isSome_iff_exists.1 hbf
      rw [ht] at hbi ⊢
      simp only [Bool.false_eq_true, if_false] at hbi
      cases hp : parseTags .universal text with
      | ok l => exact parse_copied H.mode hp
      | error e => rw [hp] at hbi; cases hbi)
    hsz (rm := rm) (fun _ => by
      obtain ⟨sb, _⟩ := hb3 init.length _ H.name H.tree (List.getElem?_eq_getElem (by omega)) hlast
      exact (sb.dirs _).2 (.inr (.inr (.inl ⟨decide_eq_true hlen, rfl⟩))))
    (d := []) (.inl ⟨hout, rfl⟩)
  have hmk : ∀ t' ∈ memberTrees H srcs, ∃ (i : Nat) (m : Manifest) (n : Str), plan[i]? = some m ∧ d'.done[i]? = some (n, t') := by
    intro t' ht'
    rw [hmem] at ht'
    obtain ⟨x, hx, rfl⟩ := List.mem_map.1 ht'
    obtain ⟨i, hi⟩ := List.mem_iff_getElem?.1 hx
    have hil : i < plan.length := by rw [← hb2]; exact (List.getElem?_eq_some_iff.1 hi).1
    exact ⟨i, _, x.1, List.getElem?_eq_getElem hil, hi⟩
  refine ⟨out, b', h1, h2, h3, ⟨⟨hb, hHopen, ?_⟩, hlist⟩, ⟨hasm.wf, hasm.tidy, hasm.tagFile, hasm.info, ?_, ?_, hasm.tags, hasm.keys, hasm.listed, ?_⟩, ?_⟩
  rotate_left
  · intro p hp
    rcases hasm.files p hp with ⟨t', ht', hf'⟩ | h | ⟨a, ha, h⟩
    · obtain ⟨i, m, n, hm, hi⟩ := hmk t' ht'
      obtain ⟨sb, hman, _⟩ := hb3 i m n t' hm hi
      rcases sb.only p hf' with h | h | h
      · exact .inl h.1
      · rcases h with h | h | h
        · left
          have := hs.ordinary.bagit
          rw [htree] at this
          rw [h]; exact this
        · exact .inr (.inl h)
        · right; right; right
          rcases ((hman p h).1).1 hf' with h | ⟨a, ha, e⟩
          · obtain ⟨l, hl⟩ := List.exists_mem_of_ne_nil _ h
            unfold recorded at hl
            obtain ⟨f, _, hl⟩ := List.mem_flatMap.1 hl
            obtain ⟨ah, hah, hl⟩ := List.mem_filterMap.1 hl
            refine ⟨ah.1, (hashes_valid hs.opens hval hah).1, ?_⟩
            by_cases hpay : isPayload f = true
            · rw [if_pos hpay] at hl
              by_cases e : p = [py!"manifest-" ++ ah.1 ++ py!".txt"]
              · exact .inl e
              · rw [if_neg e] at hl; cases hl
            · rw [if_neg hpay] at hl
              by_cases e : p = [py!"tagmanifest-" ++ ah.1 ++ py!".txt"]
              · exact .inr e
              · rw [if_neg e] at hl; cases hl
          · unfold RBag.source manifestFiles at ha
            simp only [List.mem_map, List.mem_filter] at ha
            obtain ⟨_, ⟨⟨a', ha', rfl⟩, _⟩, rfl⟩ := ha
            exact ⟨_, ha', .inl e⟩
      · exact .inr (.inr (.inl h.2))
    · exact .inr (.inl h)
    · refine .inr (.inr (.inr ⟨a, ha, ?_⟩))
      simpa [manPath] using h
  · intro p hp
    rcases hasm.dirs p hp with h | ⟨t', ht', hf'⟩
    · exact .inl (isdir_iff.2 (.inl h))
    · obtain ⟨i, m, n, hm, hi⟩ := hmk t' ht'
      obtain ⟨sb, _⟩ := hb3 i m n t' hm hi
      rcases (sb.dirs p).1 hf' with rfl | rfl | ⟨_, rfl⟩ | ⟨f, hfm, h⟩
      · exact .inl rfl
      · exact .inl (htree ▸ hs.ordinary.data)
      · exact .inr rfl
      · left
        rcases h with ⟨h1, h2⟩ | ⟨h1, h2⟩
        · exact prefix_dir hw h1 h2
        · exact prefix_dir hw (parent_of_file hw h1) h2
  · intro hrm hbom k hk1 hk2 hk3
    obtain ⟨_, _, hagg, _⟩ := hb3 init.length _ H.name H.tree (List.getElem?_eq_getElem (by omega)) hlast
    have hagg := hagg hlen
    obtain ⟨_, _, _, hbi, _⟩ := openBag_parts hs.opens
    rw [hs.tagFile] at hbi
    have hbf := hs.ordinary.baginfo
    rw [htree] at hbf
    rw [if_pos (exists_of_isfile hbf)] at hbi
    unfold loadTagFile at hbi
    rw [isfile_read] at hbf
    obtain ⟨text, ht⟩ := Option.isSome_iff_exists.1 hbf
    rw [ht] at hbi hagg
    simp only [Bool.false_eq_true, if_false] at hbi
    cases hp : parseTags .universal text with
    | error e => rw [hp] at hbi; cases hbi
    | ok l =>
      rw [hp] at hbi
      have hi : loadTags l = b.info := Except.ok.inj hbi
      subst hrm
      have := C49_values_partial hE hA hagg (fs := l) (by rw [Option.getD_some, parse_copied_same H.mode (hbom text ht)]; exact hp) hsz
        h1 h2 hasm.tagFile k (fun _ => ⟨hk2, hk3⟩)
      rw [this, if_neg hk1, ← hi, fields_loadTags]
  · have := roundtrip_parts hs.ordinary htl hall (w := w) (htree.symm ▸ hcomp) hE hA hdel hout h1
    rw [htree] at this
    exact this
  · have hv3 : valuesOf (fs.map (fun f => (f.1, reread f.2))) py!"Multibag-Head-Version" = [reread o.headVersion] := by
      rw [valuesOf_reread, (C40_head_marks hfs).1, if_pos (decide_eq_true hlen)]; rfl
    rw [hHinfo]
    exact head_version_loaded hv3

/-- C85: a valid bag is split by a complete plan and restored from the bags this made.  Restoring succeeds, the
restored bag is valid, and it has the same files with the same contents, and the same directories, as the bag
that was split, apart from those in `Special`: the metadata (C49), the manifests, which must be right as the bag is
valid, and tag files of multibag, of which the source has none. -/
theorem C85_split_restored {hostOk : Str → Bool} {E : RestoreEnv} (hE : EnvOk E) (hF : EnvFits E)
    (hdol : ∀ a ∈ E.base.algs, '$' ∉ a) {dest : Path} (hdest : AbsPath E.base.bagpath dest)
    (hsz : ∀ t i, Trimmed (E.sizeText t i))
    {A : Str → Prop} {src : Str} {t : Tree} {b : RBag} (hs : SplitSource hostOk E A src t b)
    {w : Char → Bool} {plan : List Manifest} (hcomp : Complete w t plan)
    (hf : ∀ m ∈ plan, ∀ f ∈ m.contents, PlanEntry f ∧ ListablePath f ∧ ¬ HeadFile (comps f) ∧ f ≠ py!"fetch.txt")
    (hnd : ∀ m ∈ plan, m.contents.Nodup)
    {o : ApplyOpts} (hver : OneLineValue o.headVersion) (hdep : ∀ x ∈ o.deprecates, OneLineValue (deprecateValue x))
    {names : List Str} (hnames : ∀ n ∈ names, OneLineValue n) (hmnames : ∀ m ∈ plan, ∀ n, m.name = some n → OneLineValue n)
    {d d' : CopyDisk} (hsrc : d.src = t) (hd0 : d.done = [])
    (hrun : applyPlan copyFS (b.source { E.base with bagpath := src }) E.blen o plan names d = .ok d')
    (hclean : ∀ e ∈ d'.done, CleanStart e.1)
    {H : RHead} {srcs : List RSource} (hfound : BagsFound E d'.done H srcs) (rm : Bool) :
    ∃ out b', restore E H true rm [] = .ok out ∧ openBag E.base out = .ok b' ∧
      bagValidate hostOk E.sum E.blen E.base b' = .ok () ∧
      ∀ p, ¬ Special p → out.read p = t.read p ∧ (out.isdir p = true ↔ t.isdir p = true) := by
  obtain ⟨out, b', h1, h2, h3, _, _, h4⟩ := split_restored_parts hE hF hdol hdest hsz hs hcomp hf hnd hver hdep hnames hmnames hsrc hd0 hrun hclean hfound rm
  exact ⟨out, b', h1, h2, h3, h4⟩

/-- The default names of output bags. -/
theorem clean_name {base : Str} (h : CleanStart base) (n : Nat) : CleanStart (base ++ py!"_" ++ natStr n ++ py!".mbag") := by
  have hdig : ∀ c ∈ natStr n, c ≠ '\t' ∧ isBreak c = false := by
    intro c hc
    have := isDigit_natStr hc
    unfold Char.isDigit at this
    simp only [Bool.and_eq_true, decide_eq_true_eq] at this
    have h1 : 48 ≤ c.toNat := this.1
    have h2 : c.toNat ≤ 57 := this.2
    have hcases : ∃ k, k < 58 ∧ 48 ≤ k ∧ c = Char.ofNat k := ⟨c.toNat, by omega, h1, (Char.ofNat_toNat c).symm⟩
    obtain ⟨k, hk1, hk2, rfl⟩ := hcases
    have : ∀ k, k < 58 → 48 ≤ k → Char.ofNat k ≠ '\t' ∧ isBreak (Char.ofNat k) = false := by decide
    exact this k hk1 hk2
  obtain ⟨x, xs, rfl⟩ := List.exists_cons_of_ne_nil h.1.nonempty
  refine ⟨⟨by simp, ?_, ?_, ⟨?_, ?_⟩⟩, ?_⟩
  · intro hm
    simp only [List.mem_append] at hm
    rcases hm with ((hm | hm) | hm) | hm
    · exact h.1.notab hm
    · revert hm; decide
    · exact (hdig _ hm).1 rfl
    · revert hm; decide
  · intro c hm
    simp only [List.mem_append] at hm
    rcases hm with ((hm | hm) | hm) | hm
    · exact h.1.nobreak c hm
    · revert c; decide
    · exact (hdig _ hm).2
    · revert c; decide
  · intro c hc
    exact h.1.noouter.1 c (by simpa using hc)
  · intro c hc
    rw [List.getLast?_append] at hc
    have : c = 'g' := by simpa using hc.symm
    subst this; decide
  · intro e
    exact h.2 (by simpa using e)

theorem cleanStart_oneLine {s : Str} (h : CleanStart s) : OneLineValue s := by
  refine ⟨fun c hc => ?_, h.1.noouter⟩
  have hb := h.1.nobreak c hc
  cases hn : isNl c with
  | false => rfl
  | true =>
    exfalso
    have : c = '\n' ∨ c = '\r' := by simpa [isNl] using hn
    rcases this with rfl | rfl <;> exact absurd hb (by decide)

theorem mem_le_sum {l : List Nat} {n : Nat} (h : n ∈ l) : n ≤ l.sum := by
  induction l with
  | nil => cases h
  | cons x l ih =>
    rw [List.sum_cons]
    rcases List.mem_cons.1 h with rfl | h
    · omega
    · have := ih h; omega

/-- What C85 says of the splitters' plans, and that the head bag opens and is marked as one. -/
theorem every_split_parts {hostOk : Str → Bool} {E : RestoreEnv} (hE : EnvOk E) (hF : EnvFits E)
    (hdol : ∀ a ∈ E.base.algs, '$' ∉ a) {dest : Path} (hdest : AbsPath E.base.bagpath dest)
    (hsz : ∀ t i, Trimmed (E.sizeText t i))
    {A : Str → Prop} {src : Str} {t : Tree} {b : RBag} (hs : SplitSource hostOk E A src t b)
    (hpaths : ∀ p, t.exists p = true → p ≠ [] → ListablePath (joinPath p))
    (s : Splitter) {w : Char → Bool} (hw : w '/' = false) (look : NoLookalike w t) (head : HeadOrdinary w t s.forhead)
    (odd : NoOddManifest w t) (bagName : Str) (size : Str → Nat) {listing : List FInfo}
    (hl : listing.Perm (treeListing size t)) {base : Str} (hbase : CleanStart base)
    {o : ApplyOpts} (hver : OneLineValue o.headVersion) (hdep : ∀ x ∈ o.deprecates, OneLineValue (deprecateValue x)) :
    ∃ d', applyPlan copyFS (b.source { E.base with bagpath := src }) E.blen o
        (s.plan w bagName size t listing (simpleNamer base)).2 [] { src := t } = .ok d' ∧
      ∀ H srcs, BagsFound E d'.done H srcs → ∀ rm, ∃ out b', restore E H true rm [] = .ok out ∧
        openBag E.base out = .ok b' ∧ bagValidate hostOk E.sum E.blen E.base b' = .ok () ∧
        ((∃ hb, openBag { E.base with bagpath := H.path } H.tree = .ok hb ∧ py!"Multibag-Head-Version" ∈ dkeys hb.info) ∧
          iterMembers H.mode H.tree H.info = .ok ((d'.done.map Prod.fst).map (fun n => { name := n }))) ∧
        Remade E A t b.info rm out b' ∧
        ∀ p, ¬ Special p → out.read p = t.read p ∧ (out.isdir p = true ↔ t.isdir p = true) := by
  have htree : (b.source { E.base with bagpath := src }).tree = t := (openBag_parts hs.opens).1
  have hord := hs.ordinary
  have hwf : WfTree t := htree ▸ hord.wf
  have h24 := C24_exactly_once_partial s w hw bagName size t listing (simpleNamer base) hwf hl look head
  have hentries := plan_entries hord s w hw bagName size listing (simpleNamer base) (htree.symm ▸ hl) (htree.symm ▸ look)
    (htree.symm ▸ head) (htree.symm ▸ odd)
  have hcomp := complete_plan hord s w hw bagName size listing (simpleNamer base) (htree.symm ▸ hl) (htree.symm ▸ look)
    (htree.symm ▸ head)
  obtain ⟨_, hnn, hnm⟩ := C33_plan_names s w bagName size t listing base
  rw [htree] at hentries hcomp
  simp only at h24
  generalize (s.plan w bagName size t listing (simpleNamer base)).2 = plan at h24 hentries hcomp hnn hnm ⊢
  have hplace : ∀ m ∈ plan, ∀ f ∈ m.contents, ∃ p, ToPlace w t p ∧ f = joinPath p := by
    intro m hm f hfm
    refine h24.2 f (fun h0 => ?_)
    have hc := List.count_pos_iff.2 hfm
    unfold occurrences at h0
    have := List.sum_eq_zero_iff_forall_eq_nat.1 h0 (m.contents.count f) (by
      rw [List.map_map]; exact List.mem_map.2 ⟨m, hm, rfl⟩)
    omega
  have hex : ∀ p, ToPlace w t p → t.exists p = true ∧ p ≠ [] := by
    rintro p (⟨h, _⟩ | h)
    · exact ⟨exists_of_isfile h, fun e => by
        subst e
        obtain ⟨c, hc⟩ := isfile_iff.1 h
        exact absurd rfl (hwf.good _ (mem_dkeys_iff.2 ⟨_, hc⟩)).1⟩
    · refine ⟨exists_of_isdir h.1, fun e => ?_⟩
      subst e
      have := hord.data
      rw [htree] at this
      exact h.2 [py!"data"] (exists_of_isdir this) (by simp) rfl
  have hf : ∀ m ∈ plan, ∀ f ∈ m.contents, PlanEntry f ∧ ListablePath f ∧ ¬ HeadFile (comps f) ∧ f ≠ py!"fetch.txt" := by
    intro m hm f hfm
    obtain ⟨p, hp, rfl⟩ := hplace m hm f hfm
    obtain ⟨h1, h2⟩ := hex p hp
    have hg : GoodPath p := by
      rcases hp with h | h
      · exact isfile_good hwf h.1
      · exact isdir_good hwf h.1 h2
    refine ⟨hentries m hm _ hfm, hpaths p h1 h2, ?_, ?_⟩
    · rw [comps_joinPath hg]
      intro hh
      have := hs.notags p (by rcases hh with rfl | rfl | rfl <;> exact ⟨_, rfl⟩)
      rw [h1] at this; cases this
    · intro e
      have h3 := comps_joinPath hg
      rw [e] at h3
      have : p = [py!"fetch.txt"] := by rw [← h3]; decide
      subst this
      rw [hs.nofetch] at h1; cases h1
  have hnd : ∀ m ∈ plan, m.contents.Nodup := by
    intro m hm
    rw [List.nodup_iff_count]
    intro f
    by_cases hfm : f ∈ m.contents
    · obtain ⟨p, hp, rfl⟩ := hplace m hm f hfm
      have h1 := h24.1 p hp
      unfold occurrences at h1
      rw [List.map_map] at h1
      have : m.contents.count (joinPath p) ≤ (plan.map ((fun c => c.count (joinPath p)) ∘ Manifest.contents)).sum :=
        mem_le_sum (List.mem_map.2 ⟨m, hm, rfl⟩)
      exact Nat.le_trans this (Nat.le_of_eq h1)
    · rw [List.count_eq_zero.2 hfm]; omega
  have hmn : ∀ m ∈ plan, ∃ n, m.name = some n ∧ CleanStart n := by
    intro m hm
    obtain ⟨i, hi⟩ := List.mem_iff_getElem?.1 hm
    exact ⟨_, hnm i m hi, clean_name hbase _⟩
  have hch : ∀ ms : List Manifest, (∀ m ∈ ms, ∃ n, m.name = some n ∧ CleanStart n) →
      chosenNames ms [] = (ms.map (fun m => m.name.getD [])).map some := by
    intro ms
    induction ms with
    | nil => intro _; rfl
    | cons m ms ih =>
      intro h
      obtain ⟨n, hn, _⟩ := h m (by simp)
      simp only [chosenNames, List.head?_nil, List.tail_nil, List.map_cons]
      rw [ih (fun x hx => h x (List.mem_cons_of_mem _ hx)), hn]
      rfl
  have hdist : (plan.map (fun m => m.name.getD [])).Nodup := by
    have h1 : ∀ ms : List Manifest, (∀ m ∈ ms, ∃ n, m.name = some n ∧ CleanStart n) →
        ms.map (fun m => m.name) = (ms.map (fun m => m.name.getD [])).map some := by
      intro ms h
      rw [List.map_map]
      refine List.map_congr_left (fun m hm => ?_)
      obtain ⟨n, hn, _⟩ := h m hm
      simp [hn]
    have h2 := hnn
    rw [h1 plan hmn] at h2
    unfold List.Nodup at h2 ⊢
    rw [List.pairwise_map] at h2
    exact h2.imp (fun h e => h (by rw [e]))
  obtain ⟨d', hrun⟩ := C36_succeeds hord hs.nohead (blen := E.blen) (o := o) (plan := plan) (names := []) (d := { src := t })
    htree.symm hentries (hch plan hmn) hdist (fun n _ h => by cases h)
  refine ⟨d', hrun, ?_⟩
  intro H srcs hfound rm
  refine split_restored_parts hE hF hdol hdest hsz hs hcomp hf hnd hver hdep (names := []) (fun n h => by cases h) ?_
    (d := { src := t }) rfl rfl hrun ?_ hfound rm
  · intro m hm n hn
    obtain ⟨n', h1, h2⟩ := hmn m hm
    rw [hn] at h1
    cases h1
    exact cleanStart_oneLine h2
  · intro e he
    obtain ⟨bags, hb1, hb2, _, _, hb3⟩ := C36_contents htree.symm hentries hord.algs hord.hashes hrun
    rw [List.nil_append] at hb1
    rw [hb1] at he
    obtain ⟨i, hi⟩ := List.mem_iff_getElem?.1 he
    have hil : i < plan.length := by rw [← hb2]; exact (List.getElem?_eq_some_iff.1 hi).1
    have hm := List.getElem?_eq_getElem hil
    have := (hb3 i _ e.1 e.2 hm hi).1
    obtain ⟨n', h1, h2⟩ := hmn _ (List.mem_of_getElem? hm)
    rw [h1] at this
    simp at this
    exact this ▸ h2

/-- C85, for the plans that the splitters make, with the default names: splitting a valid bag succeeds, and
restoring from the bags this makes, wherever they are put, succeeds with a valid bag with the same files. -/
theorem C85_every_split {hostOk : Str → Bool} {E : RestoreEnv} (hE : EnvOk E) (hF : EnvFits E)
    (hdol : ∀ a ∈ E.base.algs, '$' ∉ a) {dest : Path} (hdest : AbsPath E.base.bagpath dest)
    (hsz : ∀ t i, Trimmed (E.sizeText t i))
    {A : Str → Prop} {src : Str} {t : Tree} {b : RBag} (hs : SplitSource hostOk E A src t b)
    (hpaths : ∀ p, t.exists p = true → p ≠ [] → ListablePath (joinPath p))
    (s : Splitter) {w : Char → Bool} (hw : w '/' = false) (look : NoLookalike w t) (head : HeadOrdinary w t s.forhead)
    (odd : NoOddManifest w t) (bagName : Str) (size : Str → Nat) {listing : List FInfo}
    (hl : listing.Perm (treeListing size t)) {base : Str} (hbase : CleanStart base)
    {o : ApplyOpts} (hver : OneLineValue o.headVersion) (hdep : ∀ x ∈ o.deprecates, OneLineValue (deprecateValue x)) :
    ∃ d', applyPlan copyFS (b.source { E.base with bagpath := src }) E.blen o
        (s.plan w bagName size t listing (simpleNamer base)).2 [] { src := t } = .ok d' ∧
      ∀ H srcs, BagsFound E d'.done H srcs → ∀ rm, ∃ out b', restore E H true rm [] = .ok out ∧
        openBag E.base out = .ok b' ∧ bagValidate hostOk E.sum E.blen E.base b' = .ok () ∧
        ∀ p, ¬ Special p → out.read p = t.read p ∧ (out.isdir p = true ↔ t.isdir p = true) := by
  obtain ⟨d', h, hr⟩ := every_split_parts hE hF hdol hdest hsz hs hpaths s hw look head odd bagName size hl hbase hver hdep
  refine ⟨d', h, fun H srcs hfound rm => ?_⟩
  obtain ⟨out, b', h1, h2, h3, _, _, h4⟩ := hr H srcs hfound rm
  exact ⟨out, b', h1, h2, h3, h4⟩

/-! A bag that meets the hypotheses of both -/

namespace Sample

/-- The tree of a valid bag with a tag file, two payload files and an empty directory. -/
def okTree : Tree :=
  splitTree ++ [([py!"manifest-md5.txt"], .file py!"d2 data/a\nd3 data/b\n")]

def okCfg : ReadCfg := { renv.base with bagpath := py!"/src/bag" }

def okBag : RBag := match openBag okCfg okTree with
  | .ok b => b
  | .error _ => ⟨[], [], [], [], [], [], []⟩

theorem ok_opens : openBag okCfg okTree = .ok okBag := by decide +kernel

theorem ok_wf : WfTree okTree := wf_of_check (by decide)

theorem ok_keys {p : Path} (h : okTree.exists p = true) (hne : p ≠ []) :
    p ∈ [[py!"bagit.txt"], [py!"bag-info.txt"], [py!"about.txt"], [py!"data"], [py!"data", py!"a"], [py!"data", py!"b"],
      [py!"data", py!"e"], [py!"manifest-md5.txt"]] := by
  rw [exists_iff hne] at h
  cases hd : dget okTree p with
  | none => exact absurd hd h
  | some n => exact mem_dkeys_iff.2 ⟨n, hd⟩

theorem ok_ordinary : Ordinary (okBag.source okCfg) := by
  have ht : (okBag.source okCfg).tree = okTree := by decide +kernel
  have hdir : ∀ p, okTree.isdir p = true → p = [] ∨ p = [py!"data"] ∨ p = [py!"data", py!"e"] := by
    intro p hd
    rcases dir_mem hd with h | h
    · exact .inl h
    · rw [show (okTree.filter (fun e => e.2 = .dir)).map Prod.fst = [[py!"data"], [py!"data", py!"e"]] by decide] at h
      right; simpa using h
  refine ⟨ht ▸ ok_wf, by rw [ht]; decide, by rw [ht]; decide, by rw [ht]; decide, ?_, ?_, by rw [ht]; decide, ?_,
    by decide +kernel, by decide +kernel, hashes_of (fun ah => '/' ∉ ah.1) (by decide +kernel)⟩
  · intro p hp
    rw [ht]
    cases hd : okTree.isdir p with
    | false => rfl
    | true =>
      obtain ⟨h1, h2, h3, _⟩ := standard_head (.inl hp)
      rcases hdir p hd with h | h | h
      · exact absurd h h1
      · exact absurd h h2
      · exact absurd h h3
  · intro p hp
    rw [ht]
    cases hd : okTree.isdir p with
    | false => rfl
    | true =>
      obtain ⟨h1, h2, h3, _⟩ := standard_head (.inr hp)
      rcases hdir p hd with h | h | h
      · exact absurd h h1
      · exact absurd h h2
      · exact absurd h h3
  · intro v hv
    rw [show dget (okBag.source okCfg).info py!"External-Identifier" = none by decide +kernel] at hv
    cases hv

/-- The environment of a restore that finds the given bags. -/
def storeEnv (bags : List (Str × Tree)) : RestoreEnv :=
  { renv with find := fun n => (dget bags n).map (fun t => ⟨py!"/store/m", t⟩) }

theorem store_ok (bags) : EnvOk (storeEnv bags) := ⟨fun _ h => isWalk_walkOf h, renv_ok.2⟩

theorem store_fits (bags) : EnvFits (storeEnv bags) := ⟨renv_fits.utf, renv_fits.algs, renv_fits.sums, renv_fits.info, renv_fits.manifests⟩

/-- The head bag among the given bags. -/
def storeHead (n : Str) (t : Tree) : RHead :=
  { mode := .universal, tree := t, path := py!"/store/h", name := n
    info := match openBag { renv.base with bagpath := py!"/store/h" } t with
      | .ok b => b.info
      | .error _ => [] }

theorem abs_store (c : Str) (h : c = py!"m" ∨ c = py!"h") : ∃ dir, AbsPath (py!"/store/" ++ c) dir := by
  refine ⟨[py!"store", c], ⟨⟨by simp, ?_⟩, ?_⟩⟩
  · intro n hn
    simp at hn
    rcases h with rfl | rfl <;> rcases hn with rfl | rfl <;> constructor <;> decide
  · rcases h with rfl | rfl <;> rfl

theorem abs_out : AbsPath py!"/out" [py!"out"] := by
  refine ⟨⟨by simp, ?_⟩, rfl⟩
  intro n hn
  simp at hn
  subst hn
  constructor <;> decide

theorem not_special_b : ¬ Special [py!"data", py!"b"] := by
  rintro (h | h | h | ⟨a, h | h⟩ | ⟨r, h⟩) <;> simp at h

theorem path_out (c : Str) : py!"/store/" ++ c ≠ renv.base.bagpath := by
  show _ ≠ py!"/out"
  simp

/-- Any bags with different names can be found like this. -/
theorem store_found {bags : List (Str × Tree)} (hne : bags ≠ []) (hnd : (dkeys bags).Nodup) :
    ∃ H srcs, BagsFound (storeEnv bags) bags H srcs := by
  obtain ⟨init, ⟨n, t⟩, rfl⟩ : ∃ init l, bags = init ++ [l] := ⟨_, _, (List.dropLast_concat_getLast hne).symm⟩
  refine ⟨storeHead n t, init.map (fun b => ⟨py!"/store/m", b.2⟩), ⟨init, rfl, ?_⟩, path_out py!"h", abs_store py!"h" (.inr rfl), ?_⟩
  · have : ∀ l : List (Str × Tree), (∀ b ∈ l, b ∈ init ++ [(n, t)]) →
        Forall₂ (fun b s => (storeEnv (init ++ [(n, t)])).find b.1 = some s ∧ s.tree = b.2 ∧ s.path ≠ renv.base.bagpath ∧
          ∃ dir, AbsPath s.path dir) l (l.map (fun b => (⟨py!"/store/m", b.2⟩ : RSource))) := by
      intro l
      induction l with
      | nil => intro _; exact .nil
      | cons b l ih =>
        intro hl
        refine .cons ⟨?_, rfl, path_out py!"m", abs_store py!"m" (.inl rfl)⟩ (ih fun x hx => hl x (List.mem_cons_of_mem _ hx))
        show (dget (init ++ [(n, t)]) b.1).map _ = _
        rw [dget_of_mem hnd (hl b List.mem_cons_self)]
        rfl
    exact this init (fun b hb => List.mem_append_left _ hb)
  · intro b hb
    show (match openBag { renv.base with bagpath := py!"/store/h" } t with
      | .ok b => b.info
      | .error _ => []) = b.info
    have : openBag { renv.base with bagpath := py!"/store/h" } t = .ok b := hb
    rw [this]

theorem ok_source (bags) : SplitSource (fun _ => true) (storeEnv bags) (· = py!"md5") py!"/src/bag" okTree okBag where
  opens := ok_opens
  valid := by
    show bagValidate (fun _ => true) Sample.sum List.length okCfg okBag = .ok ()
    decide +kernel
  ordinary := ok_ordinary
  tagFile := by decide +kernel
  tidy := by
    show Tidy (AtDest renv) renv.base.algs (· = py!"md5") okTree
    refine tidy_of_lines (es := [(py!"data/a", py!"d2"), (py!"data/b", py!"d3")]) rfl rfl (by decide) ?_ (by decide)
    intro e he
    have : e = (py!"data/a", py!"d2") ∨ e = (py!"data/b", py!"d3") := by simpa using he
    rcases this with rfl | rfl
    · exact ⟨rfl, plain_line_of_check (q := [py!"data", py!"a"]) (by decide), by unfold AtDest; decide +kernel⟩
    · exact ⟨rfl, plain_line_of_check (q := [py!"data", py!"b"]) (by decide), by unfold AtDest; decide +kernel⟩
  nohead := by decide +kernel
  notags := by
    rintro p ⟨r, rfl⟩
    cases h : okTree.exists ([py!"multibag"] ++ r) with
    | false => rfl
    | true =>
      have := ok_keys h (by simp)
      simp at this
  nofetch := by decide

theorem ok_listable (p : Path) (h : okTree.exists p = true) (hne : p ≠ []) : ListablePath (joinPath p) := by
  have hk := ok_keys h hne
  have hp : PlainPath (joinPath p) := by
    simp only [List.mem_cons, List.not_mem_nil, or_false] at hk
    rcases hk with rfl | rfl | rfl | rfl | rfl | rfl | rfl | rfl
    · exact (plain_line_of_check (h := py!"a") (q := [py!"bagit.txt"]) (by decide)).path
    · exact (plain_line_of_check (h := py!"a") (q := [py!"bag-info.txt"]) (by decide)).path
    · exact (plain_line_of_check (h := py!"a") (q := [py!"about.txt"]) (by decide)).path
    · exact (plain_line_of_check (h := py!"a") (q := [py!"data"]) (by decide)).path
    · exact (plain_line_of_check (h := py!"a") (q := [py!"data", py!"a"]) (by decide)).path
    · exact (plain_line_of_check (h := py!"a") (q := [py!"data", py!"b"]) (by decide)).path
    · exact (plain_line_of_check (h := py!"a") (q := [py!"data", py!"e"]) (by decide)).path
    · exact (plain_line_of_check (h := py!"a") (q := [py!"manifest-md5.txt"]) (by decide)).path
  simp only [List.mem_cons, List.not_mem_nil, or_false] at hk
  refine ⟨hp, ?_, ?_⟩
  · unfold Unexpanded
    rcases hk with rfl | rfl | rfl | rfl | rfl | rfl | rfl | rfl <;> decide
  · rcases hk with rfl | rfl | rfl | rfl | rfl | rfl | rfl | rfl <;> exact cleanStart_of_check (by decide)

theorem ok_look : NoLookalike word okTree := by
  intro f hf hs
  have := ok_keys (exists_of_isfile hf) (by simp)
  simp at this
  rcases this with rfl | rfl | rfl | rfl | rfl
  · exact .inl rfl
  · exact .inr (.inl rfl)
  · exact absurd hs (not_special_iff.1 (not_special word _ (by decide)))
  · exact absurd hf (by decide)
  · exact .inr (.inr (.inr ⟨py!"md5", by decide, by decide, .inl rfl⟩))

theorem ok_odd : NoOddManifest word okTree := by
  intro p hf hp
  obtain ⟨h1, h2, _⟩ := standard_head (.inl hp)
  have := ok_keys (exists_of_isfile hf) h1
  simp at this
  rcases this with rfl | rfl | rfl | rfl | rfl | rfl | rfl | rfl
  · exact ⟨_, rfl, .inl rfl⟩
  · exact ⟨_, rfl, .inr (.inl rfl)⟩
  · rcases hp with h | h | ⟨a, h | h⟩ <;> simp at h
  · exact absurd hf (by decide)
  · rcases hp with h | h | ⟨a, h | h⟩ <;> simp at h
  · rcases hp with h | h | ⟨a, h | h⟩ <;> simp at h
  · exact absurd hf (by decide)
  · exact ⟨_, rfl, .inr (.inr (.inr ⟨py!"md5", by decide, by decide, .inl rfl⟩))⟩

theorem ok_entries : ∀ m ∈ splitPlan, ∀ f ∈ m.contents,
    PlanEntry f ∧ ListablePath f ∧ ¬ HeadFile (comps f) ∧ f ≠ py!"fetch.txt" := by
  intro m hm f hf
  have he := splitEntries m hm f hf
  have : f ∈ [py!"data/a", py!"about.txt", py!"data/e", py!"data/b"] := by
    have h2 : f ∈ splitPlan.flatMap (fun m => m.contents) := List.mem_flatMap.2 ⟨m, hm, hf⟩
    exact h2
  simp only [List.mem_cons, List.not_mem_nil, or_false] at this
  have head : ∀ p : Path, p.head? ≠ some py!"multibag" → ¬ HeadFile p := by
    rintro p hp (rfl | rfl | rfl) <;> exact hp rfl
  rcases this with rfl | rfl | rfl | rfl
  · exact ⟨he, ok_listable [py!"data", py!"a"] (by decide) (by simp), head _ (by decide), by decide⟩
  · exact ⟨he, ok_listable [py!"about.txt"] (by decide) (by simp), head _ (by decide), by decide⟩
  · exact ⟨he, ok_listable [py!"data", py!"e"] (by decide) (by simp), head _ (by decide), by decide⟩
  · exact ⟨he, ok_listable [py!"data", py!"b"] (by decide) (by simp), head _ (by decide), by decide⟩

theorem ok_complete : Complete word okTree splitPlan := by
  intro p hp
  by_cases hm : p = [py!"manifest-md5.txt"]
  · subst hm
    rcases hp with ⟨_, h⟩ | h
    · exact absurd ⟨_, rfl, .inr (.inr (.inr ⟨py!"md5", by decide, by decide, .inl rfl⟩))⟩ h
    · exact absurd h.1 (by decide)
  · have hd : ∀ q, q ≠ [py!"manifest-md5.txt"] → dget okTree q = dget splitTree q := by
      intro q hq
      show dget (splitTree ++ _) q = _
      rw [dget_append]
      cases dget splitTree q with
      | none => simp [dget, Ne.symm hq]
      | some n => rfl
    refine splitComplete p ?_
    rcases hp with ⟨h1, h2⟩ | ⟨h1, h2⟩
    · obtain ⟨c, hc⟩ := isfile_iff.1 h1
      exact .inl ⟨isfile_iff.2 ⟨c, (hd p hm) ▸ hc⟩, h2⟩
    · refine .inr ⟨?_, fun q hq hne => h2 q ?_ hne⟩
      · rcases isdir_iff.1 h1 with h | h
        · exact isdir_iff.2 (.inl h)
        · exact isdir_iff.2 (.inr ((hd p hm) ▸ h))
      · rw [exists_iff hne] at hq ⊢
        by_cases hq' : q = [py!"manifest-md5.txt"]
        · subst hq'; decide
        · rw [hd q hq']; exact hq

end Sample

/-- The hypotheses of `C85_split_restored` are met, for a plan chosen by hand. -/
example : ∃ E d' H srcs out b', BagsFound E d'.done H srcs ∧
    applyPlan copyFS (Sample.okBag.source Sample.okCfg) List.length {} Sample.splitPlan [py!"b1", py!"b2"]
      { src := Sample.okTree } = .ok d' ∧
    restore E H true true [] = .ok out ∧ openBag E.base out = .ok b' ∧
    bagValidate (fun _ => true) E.sum E.blen E.base b' = .ok () ∧ out.read [py!"data", py!"b"] = some py!"uvw" := by
  obtain ⟨d', hd⟩ := C36_succeeds Sample.ok_ordinary (blen := List.length) (o := {}) (d := { src := Sample.okTree }) (by decide) rfl
    Sample.splitEntries (names := [py!"b1", py!"b2"]) (ns := [py!"b1", py!"b2"]) rfl (by decide) (by simp)
  obtain ⟨bags, h1, h2, h3, h4⟩ := C36_contents rfl Sample.splitEntries Sample.ok_ordinary.algs Sample.ok_ordinary.hashes hd
  rw [show ({ src := Sample.okTree } : CopyDisk).done = [] from rfl, List.nil_append] at h1
  subst h1
  have hne : d'.done ≠ [] := fun e => by rw [e] at h2; cases h2
  obtain ⟨H, srcs, hf⟩ := Sample.store_found hne h3
  have hnames : ∀ e ∈ d'.done, CleanStart e.1 := by
    intro e he
    obtain ⟨i, hi⟩ := List.mem_iff_getElem?.1 he
    have hil : i < 2 := by
      have := (List.getElem?_eq_some_iff.1 hi).1
      rw [h2] at this; exact this
    have h5 := h4.2 i _ e.1 e.2 (List.getElem?_eq_getElem (show i < Sample.splitPlan.length from hil)) hi
    have h6 := h5.1
    generalize e.1 = x at h6
    match i, hil with
    | 0, _ => cases h6; exact cleanStart_of_check (by decide)
    | 1, _ => cases h6; exact cleanStart_of_check (by decide)
  obtain ⟨out, b', r1, r2, r3, r4⟩ := C85_split_restored (Sample.store_ok _) (Sample.store_fits _)
    (show ∀ a ∈ Sample.renv.base.algs, '$' ∉ a by decide) (dest := [py!"out"]) Sample.abs_out
    (fun t i => by show Trimmed py!"1 kB"; unfold Trimmed; decide) (Sample.ok_source d'.done) Sample.ok_complete
    Sample.ok_entries (by decide) (o := {}) ⟨by decide, by unfold Trimmed; decide⟩ (by simp)
    (names := [py!"b1", py!"b2"])
    (by
      intro n hn
      have : n = py!"b1" ∨ n = py!"b2" := by simpa using hn
      rcases this with rfl | rfl <;> exact ⟨by decide, by unfold Trimmed; decide⟩)
    (by
      intro m hm n hn
      simp [Sample.splitPlan] at hm
      rcases hm with rfl | rfl <;> cases hn) rfl rfl hd hnames hf true
  refine ⟨_, d', H, srcs, out, b', hf, hd, r1, r2, r3, ?_⟩
  rw [(r4 [py!"data", py!"b"] Sample.not_special_b).1]
  decide

/-- The hypotheses of `C85_every_split` are met, for both splitters, any sizes and any order of reading, and the
bags can be found. -/
example (s : Splitter) (hs : s.forhead = []) (size : Str → Nat) : ∃ E d' H srcs out b', BagsFound E d'.done H srcs ∧
    applyPlan copyFS (Sample.okBag.source Sample.okCfg) List.length {}
      (s.plan Sample.word py!"bag" size Sample.okTree (treeListing size Sample.okTree) (simpleNamer py!"bag")).2 []
      { src := Sample.okTree } = .ok d' ∧
    restore E H true false [] = .ok out ∧ openBag E.base out = .ok b' ∧
    bagValidate (fun _ => true) E.sum E.blen E.base b' = .ok () ∧ out.read [py!"data", py!"b"] = some py!"uvw" := by
  have key : ∀ bags, _ := fun bags =>
    C85_every_split (Sample.store_ok bags) (Sample.store_fits bags) (show ∀ a ∈ Sample.renv.base.algs, '$' ∉ a by decide) (dest := [py!"out"]) Sample.abs_out
      (fun t i => by show Trimmed py!"1 kB"; unfold Trimmed; decide) (Sample.ok_source bags) Sample.ok_listable s
      (w := Sample.word) (by decide) Sample.ok_look (fun _ _ _ h => by simp [hs] at h) Sample.ok_odd py!"bag" size (.refl _)
      (base := py!"bag") (cleanStart_of_check (by decide)) (o := {}) ⟨by decide, by unfold Trimmed; decide⟩ (by simp)
  obtain ⟨d', hd, _⟩ := key []
  obtain ⟨d2, hd2, hall⟩ := key d'.done
  have : d2 = d' := by
    have := hd2.symm.trans hd
    exact Except.ok.inj this
  subst this
  have hent := plan_entries Sample.ok_ordinary s Sample.word (by decide) py!"bag" size (treeListing size Sample.okTree)
    (simpleNamer py!"bag") (.refl _) Sample.ok_look (fun _ _ _ h => by simp [hs] at h) Sample.ok_odd
  have hcomp := complete_plan Sample.ok_ordinary s Sample.word (by decide) py!"bag" size (treeListing size Sample.okTree)
    (simpleNamer py!"bag") (.refl _) Sample.ok_look (fun _ _ _ h => by simp [hs] at h)
  obtain ⟨bags, h1, h2, h3, _⟩ := C36_contents rfl hent Sample.ok_ordinary.algs Sample.ok_ordinary.hashes hd
  rw [show ({ src := Sample.okTree } : CopyDisk).done = [] from rfl, List.nil_append] at h1
  subst h1
  obtain ⟨m, hm, _⟩ := hcomp [py!"data", py!"a"] (.inl ⟨by decide +kernel, by rintro ⟨f, h, _⟩; simp at h⟩)
  have hne : d2.done ≠ [] := by
    intro e
    rw [e] at h2
    rw [List.eq_nil_of_length_eq_zero h2.symm] at hm
    cases hm
  obtain ⟨H, srcs, hf⟩ := Sample.store_found hne h3
  obtain ⟨out, b', r1, r2, r3, r4⟩ := hall H srcs hf false
  refine ⟨_, d2, H, srcs, out, b', hf, hd, r1, r2, r3, ?_⟩
  rw [(r4 [py!"data", py!"b"] Sample.not_special_b).1]
  decide

end Verif
