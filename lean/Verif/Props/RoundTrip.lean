import Verif.Props.Apply
import Verif.Props.RestoreFetch
/-!
# Splitting a bag and restoring it: C51
-/

namespace Verif

open Spec

namespace Spec

/-- Every file of the source that is not BagIt's own, and every empty directory, is in some
manifest of the plan. -/
def Complete (w : Char → Bool) (t : Tree) (plan : List Manifest) : Prop :=
  ∀ p, ToPlace w t p → ∃ m ∈ plan, joinPath p ∈ m.contents

/-- The bags `bags` were made by splitting `S`, and `E` finds them, outside the destination;
`H` is the last one, opened. -/
structure SplitAndFound (S : Source) (plan : List Manifest) (E : RestoreEnv) (H : RHead) (srcs : List RSource) : Prop where
  run : ∃ blen o names d d', d.src = S.tree ∧ d.done = [] ∧ applyPlan copyFS S blen o plan names d = .ok d' ∧
    (∃ size count fs, bagInfoFields S o H.name true size count = .ok fs ∧ H.info = loadTags fs) ∧
    ∃ bags : List (Str × Tree), d'.done = bags ++ [(H.name, H.tree)] ∧ (∀ b ∈ d'.done, CleanStart b.1) ∧
      Forall₂ (fun b s => E.find b.1 = some s ∧ s.tree = b.2 ∧ s.path ≠ E.base.bagpath) bags srcs
  outside : H.path ≠ E.base.bagpath

end Spec

theorem found_names {E : RestoreEnv} {bags : List (Str × Tree)} {srcs : List RSource}
    (h : Forall₂ (fun b s => E.find b.1 = some s ∧ s.tree = b.2 ∧ s.path ≠ E.base.bagpath) bags srcs) :
    Forall₂ (fun n s => E.find n = some s) (bags.map Prod.fst) srcs := by
  induction h with
  | nil => exact .nil
  | cons hxy _ ih => exact .cons hxy.1 ih

theorem found_trees {E : RestoreEnv} {bags : List (Str × Tree)} {srcs : List RSource}
    (h : Forall₂ (fun b s => E.find b.1 = some s ∧ s.tree = b.2 ∧ s.path ≠ E.base.bagpath) bags srcs) :
    srcs.map (fun s => s.tree) = bags.map Prod.snd := by
  induction h with
  | nil => rfl
  | cons hxy _ ih => rw [List.map_cons, List.map_cons, ih, hxy.2.1]

theorem exists_of_isfile {t : Tree} {p : Path} (h : t.isfile p = true) : t.exists p = true := by
  obtain ⟨c, hc⟩ := isfile_iff.1 h
  unfold Tree.exists
  rw [hc]; simp

theorem exists_of_isdir {t : Tree} {p : Path} (h : t.isdir p = true) : t.exists p = true := by
  unfold Tree.exists
  rcases isdir_iff.1 h with rfl | h
  · simp
  · rw [h]; simp

/-- The parts of a source that is split, seen from the bags; the head bag's metadata is known as far as it
matters for reading the multibag tag files. -/
theorem split_run_parts {S : Source} (hhash : ∀ f, ∀ ah ∈ S.hashes f, '/' ∉ ah.1) (halg : ∀ a ∈ S.algs, '/' ∉ a)
    (hnh : py!"Multibag-Head-Version" ∉ dkeys S.info)
    (hmb : ∀ p, [py!"multibag"] <+: p → S.tree.exists p = false)
    {plan : List Manifest} (hf : ∀ m ∈ plan, ∀ f ∈ m.contents, PlanEntry f)
    (hc : ∀ m ∈ plan, ∀ f ∈ m.contents, CleanStart f)
    {E : RestoreEnv} {H : RHead} {srcs : List RSource}
    {blen : Str → Nat} {o : ApplyOpts} {names : List Str} {d d' : CopyDisk} (hsrc : d.src = S.tree) (hd0 : d.done = [])
    (hrun : applyPlan copyFS S blen o plan names d = .ok d')
    (r1 : readerTagDir H.info = .ok py!"multibag") (r2 : profileVersion H.info = py!"0.4")
    (r3 : tagDir H.info = py!"multibag")
    {bags0 : List (Str × Tree)} (hdone : d'.done = bags0 ++ [(H.name, H.tree)]) (hclean : ∀ b ∈ d'.done, CleanStart b.1)
    (hfind : Forall₂ (fun b s => E.find b.1 = some s ∧ s.tree = b.2 ∧ s.path ≠ E.base.bagpath) bags0 srcs) :
    (Aggregation E H srcs ∧ iterMembers H.mode H.tree H.info = .ok ((d'.done.map Prod.fst).map (fun n => { name := n }))) ∧
    iterDeleted H.mode H.tree H.info = .ok [] ∧ memberTrees H srcs = d'.done.map Prod.snd ∧ ∃ ts : List Tree, memberTrees H srcs = ts ∧ ts.length = plan.length ∧
      ∀ (i : Nat) m t, plan[i]? = some m → ts[i]? = some t → SplitBag S.tree m.contents (decide (i + 1 = plan.length)) t := by
  obtain ⟨old, oldLookup, hidx, bags, _, h2, h3, h4, _, h6⟩ := applyPlan_copy hsrc hf hhash hrun
  have hidx0 : initialIndex S = .ok ([], []) := by
    unfold initialIndex
    rw [if_neg (by rw [dmem_iff]; exact hnh)]
  rw [hidx0] at hidx
  cases hidx
  rw [hd0, List.nil_append] at h2
  have hts1 : d'.done.map Prod.fst = (bags0 ++ [(H.name, H.tree)]).map Prod.fst := by rw [hdone]
  have hts0 : d'.done.map Prod.snd = (bags0 ++ [(H.name, H.tree)]).map Prod.snd := by rw [hdone]
  rw [h2] at hdone hclean
  subst hdone
  -- the head bag
  have hlen : bags0.length + 1 = plan.length := by simpa using h3
  have hlast : bags0.length < plan.length := by omega
  obtain ⟨n, t, fields, hb, _, b⟩ := h6 bags0.length _ (List.getElem?_eq_getElem hlast)
  rw [List.getElem?_append_right (Nat.le_refl _)] at hb
  simp at hb
  obtain ⟨rfl, rfl⟩ := hb
  have sb : ∀ (i : Nat) m n t, plan[i]? = some m → (bags0 ++ [(H.name, H.tree)])[i]? = some (n, t) →
      SplitBag S.tree m.contents (decide (i + 1 = plan.length)) t := by
    intro i m n t hm hb
    obtain ⟨n', t', fields, hb', hn, b⟩ := h6 i m hm
    rw [hb] at hb'
    cases hb'
    exact b.splitBag halg (hf m (List.mem_of_getElem? hm))
  have e1 : bags0.length + 1 = plan.length := hlen
  rw [e1, show decide (plan.length = plan.length) = true by simp] at b
  rw [List.take_of_length_le (by simp [hlen])] at b
  rw [List.take_of_length_le (by simp [hlen])] at b
  rw [foldl_moveToEnd List.nodup_nil h4] at b
  have hmem : iterMembers H.mode H.tree H.info = .ok ((bags0 ++ [(H.name, H.tree)]).map Prod.fst |>.map (fun n => { name := n })) := by
    have hcn : ∀ n ∈ (bags0 ++ [(H.name, H.tree)]).map Prod.fst, CleanStart n := by
      intro n hn
      obtain ⟨x, hx, rfl⟩ := List.mem_map.1 hn
      exact hclean x hx
    have hpairs : ∀ e ∈ dupdate [] (indexPairs S.tree (plan.zip ((bags0 ++ [(H.name, H.tree)]).map Prod.fst))),
        CleanStart e.1 ∧ CleanStart e.2 := by
      intro e he
      rcases mem_dupdate he with he | he
      · cases he
      · obtain ⟨mn, h7, h8, h9⟩ := mem_indexPairs he
        exact ⟨hc mn.1 (List.of_mem_zip h7).1 _ (copied_mem.1 h8).1, h9 ▸ hcn _ (List.of_mem_zip h7).2⟩
    have := (head_reads_info b H.mode r1 r2 (by simpa using fun n hn => (hcn n hn).1) (by
      intro m hm
      exact (hcn m (by simpa using List.mem_of_mem_head? hm)).2)
      (fun e he => ⟨(hpairs e he).1.1, (hpairs e he).2.1⟩)
      (fun e he => (hpairs e (List.mem_of_mem_head? he)).1.2)).1
    rw [this]
    simp
  have hagg : Aggregation E H srcs := by
    refine ⟨⟨_, bags0.map Prod.fst, hmem, by simp [Function.comp_def], ?_⟩, ?_, ?_, ?_⟩
    · exact found_names hfind
    · exact (sb bags0.length _ H.name H.tree (List.getElem?_eq_getElem hlast) (by
        rw [List.getElem?_append_right (Nat.le_refl _)]; simp)).wf
    · intro s hs
      obtain ⟨x, hx, hxs⟩ := forall₂_mem_right hfind hs
      obtain ⟨i, hi⟩ := List.mem_iff_getElem?.1 hx
      have hil := (List.getElem?_eq_some_iff.1 hi).1
      rw [hxs.2.1]
      exact (sb i _ x.1 x.2 (List.getElem?_eq_getElem (by omega)) (by
        rw [List.getElem?_append_left hil]; exact hi)).wf
    · intro s hs
      obtain ⟨x, hx, hxs⟩ := forall₂_mem_right hfind hs
      exact hxs.2.2
  have hts : memberTrees H srcs = (bags0 ++ [(H.name, H.tree)]).map Prod.snd := by
    unfold memberTrees
    rw [List.map_append]
    congr 1
    exact found_trees hfind
  refine ⟨⟨hagg, hts1 ▸ hmem⟩, ?_, hts.trans hts0.symm, _, rfl, by rw [hts]; simpa using h3, ?_⟩
  · have hsb := sb bags0.length _ H.name H.tree (List.getElem?_eq_getElem hlast) (by
        rw [List.getElem?_append_right (Nat.le_refl _)]; simp)
    have hdf : deletedFile H.info = [py!"multibag", py!"deleted.txt"] := by
      unfold deletedFile
      rw [r3]
      decide
    unfold iterDeleted
    rw [hdf]
    have hex : S.tree.exists [py!"multibag", py!"deleted.txt"] = false := hmb _ ⟨[py!"deleted.txt"], rfl⟩
    cases hdg : dget H.tree [py!"multibag", py!"deleted.txt"] with
    | none => rfl
    | some x =>
      exfalso
      cases x with
      | file c =>
        rcases hsb.only _ (isfile_iff.2 ⟨c, hdg⟩) with ⟨h, _⟩ | h | h
        · rw [exists_of_isfile h] at hex; cases hex
        · rcases h with h | h | ⟨a, h | h⟩ <;> simp at h
        · rcases h.2 with h | h | h <;> simp at h
      | dir =>
        rcases (hsb.dirs _).1 (isdir_iff.2 (.inr hdg)) with h | h | h | ⟨f, hfm, h⟩
        · simp at h
        · simp at h
        · simp at h
        · have : S.tree.exists (comps f) = true := by
            rcases h with h | h
            · exact exists_of_isdir h.1
            · exact exists_of_isfile h.1
          rw [hmb (comps f) (by
            rcases h with ⟨_, h⟩ | ⟨_, h⟩
            · exact List.IsPrefix.trans ⟨[py!"deleted.txt"], rfl⟩ h
            · exact List.IsPrefix.trans (List.IsPrefix.trans ⟨[py!"deleted.txt"], rfl⟩ h) (List.dropLast_prefix _))] at this
          cases this
  · intro i m t hm ht
    rw [hts, List.getElem?_map] at ht
    obtain ⟨x, hx, rfl⟩ := Option.map_eq_some_iff.1 ht
    exact sb i m x.1 x.2 hm hx

/-- The parts of a source that is split, seen from the bags. -/
theorem split_parts {S : Source} (ord : Ordinary S) (hnh : py!"Multibag-Head-Version" ∉ dkeys S.info)
    (hmb : ∀ p, [py!"multibag"] <+: p → S.tree.exists p = false)
    {plan : List Manifest} (hf : ∀ m ∈ plan, ∀ f ∈ m.contents, PlanEntry f)
    (hc : ∀ m ∈ plan, ∀ f ∈ m.contents, CleanStart f)
    {E : RestoreEnv} {H : RHead} {srcs : List RSource} (hsp : SplitAndFound S plan E H srcs) :
    Aggregation E H srcs ∧ iterDeleted H.mode H.tree H.info = .ok [] ∧
    ∃ ts : List Tree, memberTrees H srcs = ts ∧ ts.length = plan.length ∧
      ∀ (i : Nat) m t, plan[i]? = some m → ts[i]? = some t → SplitBag S.tree m.contents (decide (i + 1 = plan.length)) t := by
  obtain ⟨blen, o, names, d, d', hsrc, hd0, hrun, ⟨size, count, fs, hfs, hinfo⟩, bags0, hdone, hclean, hfind⟩ := hsp.run
  obtain ⟨r1, r2⟩ := reader_fields hfs
  rw [← hinfo] at r1 r2
  obtain ⟨⟨h1, _⟩, h2, _, h3⟩ := split_run_parts ord.hashes ord.algs hnh hmb hf hc hsrc hd0 hrun r1 r2
    (by rw [hinfo, tagDir_loadTags, (C40_version hfs).2]; rfl) hdone hclean hfind
  exact ⟨h1, h2, h3⟩

theorem parent_of_file {t : Tree} (hw : WfTree t) {p : Path} (h : t.isfile p = true) : t.isdir p.dropLast = true := by
  obtain ⟨c, hc⟩ := isfile_iff.1 h
  exact hw.parent p (mem_dkeys_iff.2 ⟨_, hc⟩)

theorem not_file_dir {t : Tree} {p : Path} (h1 : t.isfile p = true) (h2 : t.isdir p = true) (hw : WfTree t) : False := by
  obtain ⟨c, hc⟩ := isfile_iff.1 h1
  rcases isdir_iff.1 h2 with rfl | h
  · exact absurd rfl (hw.good _ (mem_dkeys_iff.2 ⟨_, hc⟩)).1
  · rw [hc] at h; cases h

/-- Below a directory there is a file or an empty directory, possibly itself. -/
theorem leaf_below {t : Tree} (hw : WfTree t) {p : Path} (hd : t.isdir p = true) :
    ∃ q, p <+: q ∧ (t.isfile q = true ∨ EmptyDir t q) := by
  have hb : ∃ n, ∀ q ∈ dkeys t, q.length ≤ n := by
    generalize dkeys t = ks
    induction ks with
    | nil => exact ⟨0, by simp⟩
    | cons k ks ih =>
      obtain ⟨n, hn⟩ := ih
      refine ⟨max n k.length, fun q hq => ?_⟩
      rcases List.mem_cons.1 hq with rfl | hq
      · exact Nat.le_max_right _ _
      · exact Nat.le_trans (hn q hq) (Nat.le_max_left _ _)
  obtain ⟨n, hn⟩ := hb
  have key : ∀ k (p : Path), n - p.length = k → t.isdir p = true → ∃ q, p <+: q ∧ (t.isfile q = true ∨ EmptyDir t q) := by
    intro k
    induction k using Nat.strongRecOn with
    | _ k ih =>
      intro p hk hd
      by_cases hem : ∃ q, t.exists q = true ∧ q ≠ [] ∧ q.dropLast = p
      · obtain ⟨q, h1, h2, rfl⟩ := hem
        have hpre : q.dropLast <+: q := List.dropLast_prefix _
        rw [exists_cases, Bool.or_eq_true] at h1
        rcases h1 with h1 | h1
        · have hlen : q.dropLast.length + 1 = q.length := by
            rw [List.length_dropLast]
            have := List.length_pos_iff.2 h2
            omega
          have hqn : q.length ≤ n := by
            rcases isdir_iff.1 h1 with h | h
            · exact absurd h h2
            · exact hn q (mem_dkeys_iff.2 ⟨_, h⟩)
          obtain ⟨r, hr, hr'⟩ := ih (n - q.length) (by omega) q rfl h1
          exact ⟨r, List.IsPrefix.trans hpre hr, hr'⟩
        · exact ⟨q, hpre, .inl h1⟩
      · exact ⟨p, List.prefix_refl _, .inr ⟨hd, fun q h1 h2 h3 => hem ⟨q, h1, h2, h3⟩⟩⟩
  exact key _ p rfl hd

theorem isfile_of_overlay {ts : List Tree} {p : Path} {c : Str} (h : overlay ts p = some c) : ∃ t ∈ ts, t.read p = some c := by
  induction ts with
  | nil => cases h
  | cons t ts ih =>
    simp only [overlay] at h
    cases ho : overlay ts p with
    | none => rw [ho, Option.none_or] at h; exact ⟨t, List.mem_cons_self, h⟩
    | some c' =>
      rw [ho, Option.some_or] at h
      cases h
      obtain ⟨t', h1, h2⟩ := ih ho
      exact ⟨t', List.mem_cons_of_mem _ h1, h2⟩

theorem overlay_of_read {ts : List Tree} {p : Path} {t : Tree} {c : Str} (ht : t ∈ ts) (h : t.read p = some c)
    (hall : ∀ t' ∈ ts, ∀ c', t'.read p = some c' → c' = c) : overlay ts p = some c := by
  cases ho : overlay ts p with
  | some c' =>
    obtain ⟨t', h1, h2⟩ := isfile_of_overlay ho
    rw [hall t' h1 c' h2]
  | none =>
    exfalso
    clear hall
    induction ts with
    | nil => cases ht
    | cons t0 ts ih =>
      simp only [overlay, Option.or_eq_none_iff] at ho
      rcases List.mem_cons.1 ht with rfl | ht
      · rw [h] at ho; cases ho.2
      · exact ih ht ho.1

/-- The bags of a split do not clash. -/
theorem split_noclash {S : Source} (ord : Ordinary S) {plan : List Manifest}
    {H : RHead} {srcs : List RSource} (hlen : (memberTrees H srcs).length = plan.length)
    (hall : ∀ (i : Nat) m t, plan[i]? = some m → (memberTrees H srcs)[i]? = some t →
      SplitBag S.tree m.contents (decide (i + 1 = plan.length)) t) :
    NoClash (memberTrees H srcs) := by
  have bagOf : ∀ t ∈ memberTrees H srcs, ∃ m ∈ plan, ∃ b, SplitBag S.tree m.contents b t := by
    intro t ht
    obtain ⟨i, hi⟩ := List.mem_iff_getElem?.1 ht
    have hil : i < plan.length := by rw [← hlen]; exact (List.getElem?_eq_some_iff.1 hi).1
    exact ⟨_, List.getElem_mem hil, _, hall i _ t (List.getElem?_eq_getElem hil) hi⟩
  -- directories of a bag are the source's, or the tag directory
  have dirS : ∀ t ∈ memberTrees H srcs, ∀ p, t.isdir p = true → S.tree.isdir p = true ∨ p = [py!"multibag"] := by
    intro t ht p hp
    obtain ⟨m, hm, b, sb⟩ := bagOf t ht
    rcases (sb.dirs p).1 hp with rfl | rfl | ⟨_, rfl⟩ | ⟨f, hfm, h⟩
    · exact .inl rfl
    · exact .inl ord.data
    · exact .inr rfl
    · left
      rcases h with ⟨h1, h2⟩ | ⟨h1, h2⟩
      · exact prefix_dir ord.wf h1 h2
      · exact prefix_dir ord.wf (parent_of_file ord.wf h1) h2
  have fileS : ∀ t ∈ memberTrees H srcs, ∀ p, t.isfile p = true → S.tree.isfile p = true ∨ Standard p ∨ HeadFile p := by
    intro t ht p hp
    obtain ⟨m, hm, b, sb⟩ := bagOf t ht
    rcases sb.only p hp with h | h | h
    · exact .inl h.1
    · exact .inr (.inl h)
    · exact .inr (.inr h.2)
  intro t ht t' ht' p ⟨h1, h2⟩
  rcases dirS t' ht' p h2 with h2 | rfl
  · rcases fileS t ht p h1 with h1 | h1 | h1
    · exact not_file_dir h1 h2 ord.wf
    · rw [ord.standard p h1] at h2; cases h2
    · rw [ord.headfile p h1] at h2; cases h2
  · rcases fileS t ht _ h1 with h1 | h1 | h1
    · rw [ord.multibag] at h1; cases h1
    · rcases h1 with h | h | ⟨a, h | h⟩ <;> simp at h
    · rcases h1 with h | h | h <;> simp at h

/-- Restoring the bags of a split, if that succeeds. -/
theorem roundtrip_parts {S : Source} (ord : Ordinary S) {plan : List Manifest}
    {H : RHead} {srcs : List RSource} (hlen : (memberTrees H srcs).length = plan.length)
    (hall : ∀ (i : Nat) m t, plan[i]? = some m → (memberTrees H srcs)[i]? = some t →
      SplitBag S.tree m.contents (decide (i + 1 = plan.length)) t)
    {w : Char → Bool} (hcomp : Complete w S.tree plan)
    {E : RestoreEnv} (hE : EnvOk E) (hA : Aggregation E H srcs) (hdel : iterDeleted H.mode H.tree H.info = .ok [])
    (hout : H.path ≠ E.base.bagpath) {us rm : Bool} {out : Tree} (h : restore E H us rm [] = .ok out) :
    ∀ p, ¬ Special p → out.read p = S.tree.read p ∧ (out.isdir p = true ↔ S.tree.isdir p = true) := by
  have bagOf : ∀ t ∈ memberTrees H srcs, ∃ m ∈ plan, ∃ b, SplitBag S.tree m.contents b t := by
    intro t ht
    obtain ⟨i, hi⟩ := List.mem_iff_getElem?.1 ht
    have hil : i < plan.length := by rw [← hlen]; exact (List.getElem?_eq_some_iff.1 hi).1
    exact ⟨_, List.getElem_mem hil, _, hall i _ t (List.getElem?_eq_getElem hil) hi⟩
  -- directories of a bag are the source's, or the tag directory
  have dirS : ∀ t ∈ memberTrees H srcs, ∀ p, t.isdir p = true → S.tree.isdir p = true ∨ p = [py!"multibag"] := by
    intro t ht p hp
    obtain ⟨m, hm, b, sb⟩ := bagOf t ht
    rcases (sb.dirs p).1 hp with rfl | rfl | ⟨_, rfl⟩ | ⟨f, hfm, h⟩
    · exact .inl rfl
    · exact .inl ord.data
    · exact .inr rfl
    · left
      rcases h with ⟨h1, h2⟩ | ⟨h1, h2⟩
      · exact prefix_dir ord.wf h1 h2
      · exact prefix_dir ord.wf (parent_of_file ord.wf h1) h2
  have fileS : ∀ t ∈ memberTrees H srcs, ∀ p, t.isfile p = true → S.tree.isfile p = true ∨ Standard p ∨ HeadFile p := by
    intro t ht p hp
    obtain ⟨m, hm, b, sb⟩ := bagOf t ht
    rcases sb.only p hp with h | h | h
    · exact .inl h.1
    · exact .inr (.inl h)
    · exact .inr (.inr h.2)
  have clash := split_noclash ord hlen hall
  intro p hp
  have hnd : ¬ Deleted [] p := by rintro ⟨q, _, _, h⟩; cases h
  have hover := C44_overlay hE hA clash (.inl ⟨hout, rfl⟩) h hdel hp hnd
  have hdirs := C44_directories hE hA clash (.inl ⟨hout, rfl⟩) h hdel hp hnd
  have treeOf : ∀ m ∈ plan, ∃ t ∈ memberTrees H srcs, ∃ b, SplitBag S.tree m.contents b t := by
    intro m hm
    obtain ⟨i, hi⟩ := List.mem_iff_getElem?.1 hm
    have hil : i < (memberTrees H srcs).length := by rw [hlen]; exact (List.getElem?_eq_some_iff.1 hi).1
    exact ⟨_, List.getElem_mem hil, _, hall i m _ hi (List.getElem?_eq_getElem hil)⟩
  have hnhead : ¬ HeadFile p := by
    intro hh
    refine hp (.inr (.inr (.inr (.inr ?_))))
    rcases hh with rfl | rfl | rfl <;> exact ⟨_, rfl⟩
  -- all bags agree with the source
  have agree : ∀ t ∈ memberTrees H srcs, ∀ c, t.read p = some c → S.tree.read p = some c := by
    intro t ht c hcr
    obtain ⟨m, hm, b, sb⟩ := bagOf t ht
    have hfile : t.isfile p = true := by rw [isfile_read, hcr]; rfl
    rcases sb.only p hfile with ⟨h1, f, hfm, rfl⟩ | hs | hs
    · rw [isfile_read] at h1
      obtain ⟨c', hc'⟩ := Option.isSome_iff_exists.1 h1
      have := sb.files f hfm c' hc' (fun h => hnhead h.2)
      rw [this] at hcr
      rw [hc', hcr]
    · rcases hs with rfl | rfl | hm
      · rw [← sb.bagit.1]; exact hcr
      · exact absurd (.inl rfl) hp
      · exact absurd (.inr (.inr (.inr (.inl hm)))) hp
    · exact absurd hs.2 hnhead
  constructor
  · rw [hover]
    cases hr : S.tree.read p with
    | none =>
      cases ho : overlay (memberTrees H srcs) p with
      | none => rfl
      | some c =>
        obtain ⟨t, ht, hc'⟩ := isfile_of_overlay ho
        rw [agree t ht c hc'] at hr; cases hr
    | some c =>
      have hfileS : S.tree.isfile p = true := by rw [isfile_read, hr]; rfl
      have gp := isfile_good ord.wf hfileS
      have some_bag : ∃ t ∈ memberTrees H srcs, t.read p = some c := by
        by_cases hres : ∃ f, p = [f] ∧ Reserved w f
        · obtain ⟨f, rfl, hf'⟩ := hres
          rcases hf' with rfl | rfl | rfl | ⟨a, _, _, e | e⟩
          · obtain ⟨m, hm, b, sb⟩ := bagOf H.tree (by simp [memberTrees])
            exact ⟨H.tree, by simp [memberTrees], by rw [sb.bagit.1]; exact hr⟩
          · exact absurd (.inl rfl) hp
          · exact absurd (.inr (.inr (.inl rfl))) hp
          · exact absurd (.inr (.inr (.inr (.inl ⟨a, .inl (by rw [e])⟩)))) hp
          · exact absurd (.inr (.inr (.inr (.inl ⟨a, .inr (by rw [e])⟩)))) hp
        · obtain ⟨m, hm, hmem⟩ := hcomp p (.inl ⟨hfileS, hres⟩)
          obtain ⟨t, ht, b, sb⟩ := treeOf m hm
          have hcp := comps_joinPath gp
          have := sb.files _ hmem c (by rw [hcp]; exact hr) (by rw [hcp]; exact fun h => hnhead h.2)
          rw [hcp] at this
          exact ⟨t, ht, this⟩
      obtain ⟨t, ht, htr⟩ := some_bag
      refine overlay_of_read ht htr (fun t' ht' c' hc' => ?_)
      have := agree t' ht' c' hc'
      rw [hr] at this
      exact (Option.some.inj this).symm
  · rw [hdirs]
    constructor
    · rintro ⟨t, ht, hd⟩
      rcases dirS t ht p hd with h | rfl
      · exact h
      · exact absurd (.inr (.inr (.inr (.inr (List.prefix_refl _))))) hp
    · intro hd
      by_cases hne : p = []
      · subst hne
        exact ⟨H.tree, by simp [memberTrees], rfl⟩
      obtain ⟨q, hpq, hq⟩ := leaf_below ord.wf hd
      have hplace : ToPlace w S.tree q := by
        rcases hq with hq | hq
        · refine .inl ⟨hq, ?_⟩
          rintro ⟨f, rfl, _⟩
          obtain ⟨r, hr⟩ := hpq
          cases p with
          | nil => exact hne rfl
          | cons x xs =>
            simp only [List.cons_append, List.cons.injEq, List.append_eq_nil_iff] at hr
            obtain ⟨rfl, rfl, rfl⟩ := hr
            exact not_file_dir hq hd ord.wf
        · exact .inr hq
      obtain ⟨m, hm, hmem⟩ := hcomp q hplace
      obtain ⟨t, ht, b, sb⟩ := treeOf m hm
      have gq : GoodPath q := by
        rcases hq with hq | hq
        · exact isfile_good ord.wf hq
        · exact isdir_good ord.wf hq.1 (by rintro rfl; exact hne (List.prefix_nil.1 hpq))
      have hcp := comps_joinPath gq
      refine ⟨t, ht, (sb.dirs p).2 (.inr (.inr (.inr ⟨_, hmem, ?_⟩)))⟩
      rw [hcp]
      rcases hq with hq | hq
      · refine .inr ⟨hq, ?_⟩
        obtain ⟨r, rfl⟩ := hpq
        cases r with
        | nil => rw [List.append_nil] at hq; exact absurd hq (fun h => not_file_dir h hd ord.wf)
        | cons x xs =>
          rw [List.dropLast_append_of_ne_nil (by simp)]
          exact List.prefix_append _ _
      · exact .inl ⟨hq.1, hpq⟩

/-- C51: a source bag is split by a complete plan, and restored into a new directory from the
bags this made.  If restoring succeeds, then each file of the source is there with the same contents,
there are no others, and the directories are the same.  Missing: that restoring succeeds (for which see C83), and the
files in `Special`: the fetch list (which is lost), the metadata (C49), the manifests (C47), and
anything in a directory `multibag`. -/
theorem C51_roundtrip_partial {S : Source} (ord : Ordinary S) (hnh : py!"Multibag-Head-Version" ∉ dkeys S.info)
    (hmb : ∀ p, [py!"multibag"] <+: p → S.tree.exists p = false)
    {w : Char → Bool} {plan : List Manifest} (hf : ∀ m ∈ plan, ∀ f ∈ m.contents, PlanEntry f)
    (hc : ∀ m ∈ plan, ∀ f ∈ m.contents, CleanStart f) (hcomp : Complete w S.tree plan)
    {E : RestoreEnv} (hE : EnvOk E) {H : RHead} {srcs : List RSource} (hsp : SplitAndFound S plan E H srcs)
    {us rm : Bool} {out : Tree} (h : restore E H us rm [] = .ok out) :
    ∀ p, ¬ Special p → out.read p = S.tree.read p ∧ (out.isdir p = true ↔ S.tree.isdir p = true) := by
  obtain ⟨hA, hdel, ts, hts, hlen, hall⟩ := split_parts ord hnh hmb hf hc hsp
  subst hts
  exact roundtrip_parts ord hlen hall hcomp hE hA hdel hsp.outside h

/-- The fetch list of a bag does not survive: if the plan does not name `fetch.txt` (those made by
the splitters never do), the restored bag has none. -/
theorem C51_negation_fetch {S : Source} (ord : Ordinary S) (hnh : py!"Multibag-Head-Version" ∉ dkeys S.info)
    (hmb : ∀ p, [py!"multibag"] <+: p → S.tree.exists p = false) (hfetch : S.tree.isfile [py!"fetch.txt"] = true)
    {plan : List Manifest} (hf : ∀ m ∈ plan, ∀ f ∈ m.contents, PlanEntry f)
    (hc : ∀ m ∈ plan, ∀ f ∈ m.contents, CleanStart f) (hno : ∀ m ∈ plan, py!"fetch.txt" ∉ m.contents)
    {E : RestoreEnv} (hE : EnvOk E) {H : RHead} {srcs : List RSource} (hsp : SplitAndFound S plan E H srcs)
    {us rm : Bool} {out : Tree} (h : restore E H us rm [] = .ok out) :
    out.exists [py!"fetch.txt"] = false := by
  obtain ⟨hA, hdel, ts, hts, hlen, hall⟩ := split_parts ord hnh hmb hf hc hsp
  subst hts
  have none : ∀ t ∈ memberTrees H srcs, dget t [py!"fetch.txt"] = none := by
    intro t ht
    obtain ⟨i, hi⟩ := List.mem_iff_getElem?.1 ht
    have hil : i < plan.length := by rw [← hlen]; exact (List.getElem?_eq_some_iff.1 hi).1
    have sb := hall i _ t (List.getElem?_eq_getElem hil) hi
    have hmem := List.getElem_mem hil
    cases hg : dget t [py!"fetch.txt"] with
    | none => rfl
    | some n =>
      exfalso
      cases n with
      | dir =>
        have hd : t.isdir [py!"fetch.txt"] = true := isdir_iff.2 (.inr hg)
        rcases (sb.dirs _).1 hd with h | h | h | ⟨f, hfm, h⟩
        · cases h
        · simp at h
        · simp at h
        · refine not_file_dir hfetch ?_ ord.wf
          rcases h with ⟨h1, h2⟩ | ⟨h1, h2⟩
          · exact prefix_dir ord.wf h1 h2
          · exact prefix_dir ord.wf (parent_of_file ord.wf h1) h2
      | file c =>
        rcases sb.only _ (isfile_iff.2 ⟨c, hg⟩) with ⟨_, f, hfm, he⟩ | hs | hs
        · obtain ⟨q, hq, rfl, _⟩ := hf _ hmem f hfm
          rw [comps_joinPath hq] at he
          subst he
          exact hno _ hmem hfm
        · rcases hs with h | h | ⟨a, h | h⟩ <;> simp at h
        · rcases hs.2 with h | h | h <;> simp at h
  have hsrc : ∀ s ∈ srcs, dget s.tree [py!"fetch.txt"] = Option.none := fun s hs =>
    none _ (by unfold memberTrees; exact List.mem_append_left _ (List.mem_map.2 ⟨s, hs, rfl⟩))
  have hl : ∀ ss : List RSource, (∀ s ∈ ss, dget s.tree [py!"fetch.txt"] = Option.none) →
      Forall₂ (fun s l => HasFetch s.tree l) ss (ss.map (fun _ => [])) := by
    intro ss hss
    induction ss with
    | nil => exact .nil
    | cons s ss ih =>
      refine .cons ⟨?_, by simp⟩ (ih (fun x hx => hss x (List.mem_cons_of_mem _ hx)))
      rw [read_none_of_dget (hss s List.mem_cons_self)]; rfl
  have key := C48_merge hE hA (.inl ⟨hsp.outside, rfl⟩) h hdel (hl srcs hsrc)
  have hnd : ¬ Deleted [] [py!"fetch.txt"] := by rintro ⟨q, _, _, h⟩; cases h
  have hflat : (srcs.map (fun _ => ([] : List FetchEntry))).flatten = [] := by
    rw [List.flatten_eq_nil_iff]; intro l hl; obtain ⟨_, _, rfl⟩ := List.mem_map.1 hl; rfl
  have hout := key.2.1 hflat hnd
  have hfirst : ∀ ss : List RSource, (∀ s ∈ ss, dget s.tree [py!"fetch.txt"] = Option.none) →
      firstAt ss [py!"fetch.txt"] = Option.none := by
    intro ss hss
    induction ss with
    | nil => rfl
    | cons s ss ih =>
      unfold firstAt
      rw [hss s List.mem_cons_self, ih (fun x hx => hss x (List.mem_cons_of_mem _ hx))]; rfl
  rw [hfirst _ (by
    intro s hs
    rcases List.mem_cons.1 hs with rfl | hs
    · exact none _ (by unfold memberTrees; simp)
    · exact hsrc s (List.mem_reverse.1 hs))] at hout
  cases he : out.exists [py!"fetch.txt"] with
  | false => rfl
  | true => exact absurd hout ((exists_iff (by simp)).1 he)

/-- The plans of C24 are complete. -/
theorem complete_plan {S : Source} (ord : Ordinary S) (s : Splitter) (w : Char → Bool) (hw : w '/' = false)
    (bagName : Str) (size : Str → Nat) (listing : List FInfo) (naming : Nat → Option Str)
    (hl : listing.Perm (treeListing size S.tree)) (look : NoLookalike w S.tree)
    (head : HeadOrdinary w S.tree s.forhead) :
    Complete w S.tree (s.plan w bagName size S.tree listing naming).2 := by
  intro p hp
  have h24 := C24_exactly_once_partial s w hw bagName size S.tree listing naming ord.wf hl look head
  obtain ⟨i, a, hi, hx⟩ := occurrences_pos (by rw [h24.1 p hp]; decide)
  rw [List.getElem?_map] at hi
  obtain ⟨m, hm, rfl⟩ := Option.map_eq_some_iff.1 hi
  exact ⟨m, List.mem_of_getElem? hm, hx⟩

/-! ### A case that meets the hypotheses -/

namespace Sample

/-- The first and second of the bags made by the sample split. -/
def part (i : Nat) : Tree := ((splitDone.done[i]?).map Prod.snd).getD []

def partFields : List (Str × Str) :=
  match bagInfoFields splitSource {} py!"b2" true 3 1 with
  | .ok fs => fs
  | .error _ => []

def partHead : RHead := { name := py!"b2", path := py!"/store/b2", tree := part 1, info := loadTags partFields, mode := .codecs }

def partEnv : RestoreEnv := { renv with find := fun n => if n = py!"b1" then some ⟨py!"/store/b1", part 0⟩ else none }

theorem partEnv_ok : EnvOk partEnv := ⟨fun _ h => isWalk_walkOf h, renv_ok.2⟩

theorem part_split : SplitAndFound splitSource splitPlan partEnv partHead [⟨py!"/store/b1", part 0⟩] where
  run := by
    refine ⟨List.length, {}, [py!"b1", py!"b2"], { src := splitTree }, splitDone, rfl, rfl, split_ok,
      ⟨3, 1, partFields, ?_, rfl⟩, [(py!"b1", part 0)], ?_, ?_, .cons ⟨rfl, rfl, by decide⟩ .nil⟩
    · decide +kernel
    · decide +kernel
    · intro b hb
      have hn : b.1 ∈ splitDone.done.map Prod.fst := List.mem_map.2 ⟨b, hb, rfl⟩
      rw [show splitDone.done.map Prod.fst = [py!"b1", py!"b2"] by decide +kernel] at hn
      generalize b.1 = x at hn
      have : x = py!"b1" ∨ x = py!"b2" := by simpa using hn
      rcases this with rfl | rfl
      · exact cleanStart_of_check (by decide)
      · exact cleanStart_of_check (by decide)
  outside := by decide

theorem splitCleanEntries : ∀ m ∈ splitPlan, ∀ f ∈ m.contents, CleanStart f := by
  intro m hm f hf
  have : f ∈ [py!"data/a", py!"about.txt", py!"data/e", py!"data/b"] := by
    have h2 : f ∈ splitPlan.flatMap (fun m => m.contents) := List.mem_flatMap.2 ⟨m, hm, hf⟩
    exact h2
  simp only [List.mem_cons, List.not_mem_nil, or_false] at this
  rcases this with rfl | rfl | rfl | rfl <;> exact cleanStart_of_check (by decide)

def wordChar (c : Char) : Bool := c.isAlphanum || c = '_'

theorem splitComplete : Complete wordChar splitTree splitPlan := by
  intro p hp
  have hex : p ∈ ([] : Path) :: dkeys splitTree := by
    rcases hp with ⟨h, _⟩ | ⟨h, _⟩
    · obtain ⟨c, hc⟩ := isfile_iff.1 h
      exact List.mem_cons_of_mem _ (mem_dkeys_iff.2 ⟨_, hc⟩)
    · rcases isdir_iff.1 h with rfl | h
      · exact List.mem_cons_self
      · exact List.mem_cons_of_mem _ (mem_dkeys_iff.2 ⟨_, h⟩)
  have hk : ([] : Path) :: dkeys splitTree = [[], [py!"bagit.txt"], [py!"bag-info.txt"], [py!"about.txt"], [py!"data"],
    [py!"data", py!"a"], [py!"data", py!"b"], [py!"data", py!"e"]] := rfl
  rw [hk] at hex
  simp only [List.mem_cons, List.not_mem_nil, or_false] at hex
  have nondir : ∀ d q, splitTree.exists q = true → q ≠ [] → q.dropLast = d → ¬ EmptyDir splitTree d :=
    fun d q h1 h2 h3 h => h.2 q h1 h2 h3
  rcases hex with rfl | rfl | rfl | rfl | rfl | rfl | rfl | rfl
  · rcases hp with ⟨h, _⟩ | h
    · exact absurd h (by decide)
    · exact absurd h (nondir _ [py!"data"] (by decide) (by decide) rfl)
  · rcases hp with ⟨_, h⟩ | h
    · exact absurd ⟨_, rfl, .inl rfl⟩ h
    · exact absurd h.1 (by decide)
  · rcases hp with ⟨_, h⟩ | h
    · exact absurd ⟨_, rfl, .inr (.inl rfl)⟩ h
    · exact absurd h.1 (by decide)
  · exact ⟨splitPlan[0], by simp [splitPlan], by decide⟩
  · rcases hp with ⟨h, _⟩ | h
    · exact absurd h (by decide)
    · exact absurd h (nondir _ [py!"data", py!"a"] (by decide) (by decide) rfl)
  · exact ⟨splitPlan[0], by simp [splitPlan], by decide⟩
  · exact ⟨splitPlan[1], by simp [splitPlan], by decide⟩
  · exact ⟨splitPlan[1], by simp [splitPlan], by decide⟩

theorem splitNoMultibag : ∀ p, [py!"multibag"] <+: p → splitSource.tree.exists p = false := by
  rintro p ⟨r, rfl⟩
  cases h : splitSource.tree.exists ([py!"multibag"] ++ r) with
  | false => rfl
  | true =>
    rw [exists_iff (by simp)] at h
    cases hd : dget splitSource.tree ([py!"multibag"] ++ r) with
    | none => exact absurd hd h
    | some n =>
      have := mem_dkeys_iff.2 ⟨n, hd⟩
      simp [splitSource, splitTree, dkeys] at this

end Sample

/-- The hypotheses of C51 are met, and the outcome. -/
example : ∃ out, restore Sample.partEnv Sample.partHead true true [] = .ok out ∧
    (∀ p, ¬ Special p → out.read p = Sample.splitTree.read p ∧ (out.isdir p = true ↔ Sample.splitTree.isdir p = true)) ∧
    out.read [py!"data", py!"a"] = some py!"xy" ∧ out.isdir [py!"data", py!"e"] = true := by
  obtain ⟨out, h1, h2⟩ := Sample.ok_of_check (r := restore Sample.partEnv Sample.partHead true true [])
    (f := fun out => decide (out.read [py!"data", py!"a"] = some py!"xy") && out.isdir [py!"data", py!"e"]) (by decide +kernel)
  rw [Bool.and_eq_true, decide_eq_true_eq] at h2
  exact ⟨out, h1, C51_roundtrip_partial Sample.splitOrdinary (by decide) Sample.splitNoMultibag Sample.splitEntries
    Sample.splitCleanEntries Sample.splitComplete Sample.partEnv_ok Sample.part_split h1, h2⟩

/-! A bag with a fetch list, for the negation -/

namespace Sample

def farTree : Tree := splitTree ++ [([py!"fetch.txt"], .file py!"http://x/y 3 data/far\n")]

def farSource : Source := { splitSource with tree := farTree }

theorem farOrdinary : Ordinary farSource :=
  { wf := wf_of_check (by decide), bagit := by decide, baginfo := by decide, data := by decide
    standard := by
      intro p hp
      cases hd : farSource.tree.isdir p with
      | false => rfl
      | true =>
        obtain ⟨h1, h2, h3, _⟩ := standard_head (.inl hp)
        rcases dir_mem hd with h | h
        · exact absurd h h1
        · rw [show (farSource.tree.filter (fun e => e.2 = .dir)).map Prod.fst = [[py!"data"], [py!"data", py!"e"]] by decide] at h
          simp [h2, h3] at h
    headfile := by
      intro p hp
      cases hd : farSource.tree.isdir p with
      | false => rfl
      | true =>
        obtain ⟨h1, h2, h3, _⟩ := standard_head (.inr hp)
        rcases dir_mem hd with h | h
        · exact absurd h h1
        · rw [show (farSource.tree.filter (fun e => e.2 = .dir)).map Prod.fst = [[py!"data"], [py!"data", py!"e"]] by decide] at h
          simp [h2, h3] at h
    multibag := by decide, ids := by intro v hv; simp [farSource, splitSource, dget] at hv, nodup := by decide
    algs := by decide
    hashes := splitOrdinary.hashes }

theorem farNoMultibag : ∀ p, [py!"multibag"] <+: p → farSource.tree.exists p = false := by
  rintro p ⟨r, rfl⟩
  cases h : farSource.tree.exists ([py!"multibag"] ++ r) with
  | false => rfl
  | true =>
    rw [exists_iff (by simp)] at h
    cases hd : dget farSource.tree ([py!"multibag"] ++ r) with
    | none => exact absurd hd h
    | some n =>
      have := mem_dkeys_iff.2 ⟨n, hd⟩
      simp [farSource, farTree, splitTree, dkeys] at this

/-- The bags made of it. -/
def farDone : CopyDisk := match applyPlan copyFS farSource List.length {} splitPlan [py!"b1", py!"b2"] { src := farTree } with
  | .ok d => d
  | .error _ => { src := [] }

theorem far_ok : applyPlan copyFS farSource List.length {} splitPlan [py!"b1", py!"b2"] { src := farTree } = .ok farDone := by
  have : ∀ r : Except PyErr CopyDisk, (∃ d, r = .ok d) → r = .ok (match r with | .ok d => d | .error _ => { src := [] }) := by
    rintro _ ⟨d, rfl⟩; rfl
  exact this _ (C36_succeeds farOrdinary (by decide) rfl splitEntries (ns := [py!"b1", py!"b2"]) rfl (by decide) (by simp))

def farPart (i : Nat) : Tree := ((farDone.done[i]?).map Prod.snd).getD []

def farHead : RHead := { partHead with tree := farPart 1 }

def farEnv : RestoreEnv := { renv with find := fun n => if n = py!"b1" then some ⟨py!"/store/b1", farPart 0⟩ else none }

theorem farEnv_ok : EnvOk farEnv := ⟨fun _ h => isWalk_walkOf h, renv_ok.2⟩

theorem far_split : SplitAndFound farSource splitPlan farEnv farHead [⟨py!"/store/b1", farPart 0⟩] where
  run := by
    refine ⟨List.length, {}, [py!"b1", py!"b2"], { src := farTree }, farDone, rfl, rfl, far_ok,
      ⟨3, 1, partFields, ?_, rfl⟩, [(py!"b1", farPart 0)], ?_, ?_, .cons ⟨rfl, rfl, by decide⟩ .nil⟩
    · decide +kernel
    · decide +kernel
    · intro b hb
      have hn : b.1 ∈ farDone.done.map Prod.fst := List.mem_map.2 ⟨b, hb, rfl⟩
      rw [show farDone.done.map Prod.fst = [py!"b1", py!"b2"] by decide +kernel] at hn
      generalize b.1 = x at hn
      have : x = py!"b1" ∨ x = py!"b2" := by simpa using hn
      rcases this with rfl | rfl
      · exact cleanStart_of_check (by decide)
      · exact cleanStart_of_check (by decide)
  outside := by decide

end Sample

/-- The hypotheses of C51_negation_fetch are met: the bag had a fetch list, the restored one has none. -/
example : Sample.farTree.isfile [py!"fetch.txt"] = true ∧
    ∃ out, restore Sample.farEnv Sample.farHead true true [] = .ok out ∧ out.exists [py!"fetch.txt"] = false ∧
      out.read [py!"data", py!"a"] = some py!"xy" := by
  obtain ⟨out, h1, h2⟩ := Sample.ok_of_check (r := restore Sample.farEnv Sample.farHead true true [])
    (f := fun out => decide (out.read [py!"data", py!"a"] = some py!"xy")) (by decide +kernel)
  exact ⟨by decide, out, h1, C51_negation_fetch Sample.farOrdinary (by decide) Sample.farNoMultibag (by decide) Sample.splitEntries
    Sample.splitCleanEntries (by decide) Sample.farEnv_ok Sample.far_split h1, of_decide_eq_true h2⟩

end Verif
