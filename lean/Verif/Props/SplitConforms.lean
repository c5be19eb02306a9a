import Verif.Lemmas.SplitRows
import Verif.Props.SplitRestored
import Verif.Props.ValidateExact
/-!
# The bags made by a split, as the package's own validators see them (C86, C87)
-/

namespace Verif
open Spec

/-- One value in the file is one string in memory. -/
theorem dget_of_one {l : List (Str × Str)} {k v : Str} (h : valuesOf l k = [v]) : dget (loadTags l) k = some (.one v) := by
  have hf := fields_loadTags l k
  have hl := loaded_loadTags l
  rw [h] at hf
  unfold fields at hf
  cases hg : dget (loadTags l) k with
  | none => rw [hg] at hf; cases hf
  | some x =>
    rw [hg] at hf
    cases x with
    | one y => simp only [InfoVal.values] at hf; cases hf; rfl
    | many l' =>
      have := hl k _ hg
      simp only [InfoVal.values] at hf this
      rw [hf] at this
      simp at this

theorem dget_of_none {l : List (Str × Str)} {k : Str} (h : valuesOf l k = []) : dget (loadTags l) k = none := by
  have hf := fields_loadTags l k
  have hl := loaded_loadTags l
  rw [h] at hf
  unfold fields at hf
  cases hg : dget (loadTags l) k with
  | none => rfl
  | some x =>
    rw [hg] at hf
    cases x with
    | one y => simp only [InfoVal.values] at hf; cases hf
    | many l' =>
      have := hl k _ hg
      simp only [InfoVal.values] at hf this
      rw [hf] at this
      simp at this

/-- A deprecation that can be written down: the version and the identifier hold no commas, and they are not those
of the head bag `n` itself. -/
structure DeprecationOk (headVersion n : Str) (x : Str × Option Str) : Prop where
  version : x.1 ≠ [] ∧ ',' ∉ x.1 ∧ Trimmed x.1 ∧ x.1 ≠ headVersion
  id : ∀ i, x.2 = some i → ',' ∉ i ∧ strip i ≠ n

theorem DeprecationOk.value {hv n : Str} {x : Str × Option Str} (h : DeprecationOk hv n x) :
    deprecateValue x ≠ [] ∧ (deprecParts (deprecateValue x)).length ≤ 2 ∧
    (deprecParts (deprecateValue x)).head? ≠ some hv ∧ (deprecParts (deprecateValue x))[1]? ≠ some n := by
  obtain ⟨v, i⟩ := x
  obtain ⟨⟨h1, h2, h3, h4⟩, hid⟩ := h
  simp only at h1 h2 h3 h4 hid
  cases i with
  | none =>
    have e : deprecParts v = [v] := by
      unfold deprecParts; rw [splitOn_noSep h2, List.map_singleton, strip_of_trimmed h3]
    simp only [deprecateValue]
    rw [e]
    exact ⟨h1, by simp, by simpa using h4, by simp⟩
  | some i =>
    obtain ⟨h5, h6⟩ := hid i rfl
    have e : deprecParts (v ++ ',' :: i) = [v, strip i] := by
      unfold deprecParts
      rw [splitOn_append, splitOn_noSep h2, splitOn_noSep h5]
      simp [strip_of_trimmed h3]
    simp only [deprecateValue]
    rw [e]
    exact ⟨by simp, by simp, by simpa using h4, by simpa using h6⟩

/-- Where the values of the group identifier come from. -/
theorem group_values {S : Source} {o : ApplyOpts} {n : Str} {ih : Bool} {size count : Nat} {fs : List (Str × Str)}
    (h : bagInfoFields S o n ih size count = .ok fs) {v : Str} (hv : v ∈ valuesOf fs py!"Bag-Group-Identifier") :
    ∃ e ∈ S.info, (e.1 = py!"External-Identifier" ∨ e.1 = py!"Bag-Group-Identifier") ∧ v ∈ e.2.values := by
  rw [valuesOf_bagInfo h, if_neg (by decide), if_neg (by decide), valuesOf_head _ (by decide) (by decide)] at hv
  simp only [List.nil_append, List.append_nil, List.mem_flatMap] at hv
  obtain ⟨e, he, hv⟩ := hv
  refine ⟨e, he, ?_⟩
  rw [contributes_eq] at hv
  have src : ∀ k : Str, py!"Multibag-Source-" ++ k ≠ py!"Bag-Group-Identifier" := by intro k; simp
  repeat' split at hv
  all_goals first
    | (cases hv; done)
    | (rename_i e1; simp [e1] at hv; done)
    | skip
  all_goals simp_all
  done

/-- The sender fields, if passed on, hold the bag's name and a fixed text. -/
theorem sender_values {S : Source} {o : ApplyOpts} {n : Str} {ih : Bool} {size count : Nat} {fs : List (Str × Str)}
    (h : bagInfoFields S o n ih size count = .ok fs) :
    (∀ v ∈ valuesOf fs py!"Internal-Sender-Identifier", v = n) ∧
    (∀ v ∈ valuesOf fs py!"Internal-Sender-Description", v = senderDesc) := by
  have src : ∀ k : Str, py!"Multibag-Source-" ++ k ≠ py!"Internal-Sender-Identifier" := by intro k; simp
  have src' : ∀ k : Str, py!"Multibag-Source-" ++ k ≠ py!"Internal-Sender-Description" := by intro k; simp
  constructor
  · intro v hv
    rw [valuesOf_bagInfo h, if_neg (by decide), if_neg (by decide), valuesOf_head _ (by decide) (by decide)] at hv
    simp only [List.nil_append, List.append_nil, List.mem_flatMap] at hv
    obtain ⟨e, he, hv⟩ := hv
    rw [contributes_eq] at hv
    repeat' split at hv
    all_goals simp_all
  · intro v hv
    rw [valuesOf_bagInfo h, if_neg (by decide), if_neg (by decide), valuesOf_head _ (by decide) (by decide)] at hv
    simp only [List.nil_append, List.append_nil, List.mem_flatMap] at hv
    obtain ⟨e, he, hv⟩ := hv
    rw [contributes_eq] at hv
    repeat' split at hv
    all_goals simp_all

/-- The metadata of a head bag, as validation sees it. -/
structure HeadInfo (o : ApplyOpts) (n : Str) (l : List (Str × Str)) : Prop where
  version : valuesOf l py!"Multibag-Version" = [py!"0.4"]
  dir : valuesOf l py!"Multibag-Tag-Directory" = [py!"multibag"]
  head : valuesOf l py!"Multibag-Head-Version" = [o.headVersion]
  deprecates : valuesOf l py!"Multibag-Head-Deprecates" = o.deprecates.map deprecateValue
  reference : valuesOf l py!"Multibag-Reference" = []
  sender : ∀ v ∈ valuesOf l py!"Internal-Sender-Identifier", v = n
  desc : ∀ v ∈ valuesOf l py!"Internal-Sender-Description", v = reread senderDesc
  group : ∀ v ∈ valuesOf l py!"Bag-Group-Identifier", v ≠ []

/-- The checks, given what is known of the bag. -/
theorem conforms_of_parts {hostOk : Str → Bool} {o : ApplyOpts} {n : Str} {l : List (Str × Str)} (hi : HeadInfo o n l)
    {vb : VBag} (hname : vb.name = n) (hinfo : vb.info = loadTags l) (hval : vb.verdict = .valid) (hn : n ≠ [])
    (hver : o.headVersion ≠ []) (hdep : ∀ x ∈ o.deprecates, DeprecationOk o.headVersion n x)
    {init : List Str} {dest : List (Str × Str)} (hm : ∀ m ∈ init ++ [n], Clean m) (hmd : (init ++ [n]).Nodup)
    (hd : ∀ e ∈ dest, Clean e.1 ∧ Clean e.2) (hdd : (dkeys dest).Nodup)
    (hf : ∀ e ∈ dest, e.2 = n → vb.tree.isfile (comps e.1) = true)
    (h1 : vb.tree.read mb1 = some ((init ++ [n]).map (· ++ ['\n'])).flatten)
    (h2 : vb.tree.read mb2 = some (lookupText dest))
    (h3 : ∃ text fs, vb.tree.read mb3 = some text ∧ parseTags .universal (dropBom text) = .ok fs)
    (h4 : vb.tree.isdir [py!"data"] = true) (h5 : vb.tree.isdir [py!"multibag"] = true) :
    HeadConforms hostOk vb ∧ HeadTidy vb := by
  subst hname
  have hv : infoVersion vb.info = some py!"0.4" := by
    rw [hinfo]; unfold infoVersion; rw [dget_of_one hi.version]
  have ht : tagDirOf vb = py!"multibag" := by
    unfold tagDirOf; rw [hinfo]; unfold tagDirs; rw [dget_of_one hi.dir]; rfl
  have f1 : tagFile (tagDirOf vb) (listFile (infoVersion vb.info)) = mb1 := by rw [hv, ht]; decide
  have f2 : tagFile (tagDirOf vb) (placesFile (infoVersion vb.info)) = mb2 := by rw [hv, ht]; decide
  have f3 : tagFile (tagDirOf vb) py!"aggregation-info.txt" = mb3 := by rw [ht]; decide
  have g1 : ∀ text, rows (listFields (infoVersion vb.info)) text = memberRows text := by
    intro text; rw [hv]; rfl
  have g2 : ∀ text, rows (placesFields (infoVersion vb.info)) text = lookupRows text := by
    intro text; rw [hv]; rfl
  have hheadf : fields vb.info py!"Multibag-Head-Version" = [o.headVersion] := by rw [hinfo, fields_loadTags, hi.head]
  have hlast : lastValue vb.info py!"Multibag-Head-Version" = o.headVersion := by unfold lastValue; rw [hheadf]; rfl
  have hdepf : fields vb.info py!"Multibag-Head-Deprecates" = o.deprecates.map deprecateValue := by
    rw [hinfo, fields_loadTags, hi.deprecates]
  constructor
  · refine { bag := hval, version := ⟨_, ?_, hinfo ▸ dget_of_one hi.version⟩, reference := ?_, dir := .inr ⟨py!"multibag", by decide, ?_, h5⟩, head := ?_, deprecates := ?_, recommended := ?_, members := ?_, lookup := ⟨h4, ?_⟩, aggregation := ?_ }
    · decide
    · intro h
      unfold hasValue at h
      rw [hinfo, dget_of_none hi.reference] at h
      cases h
    · rw [hinfo, fields_loadTags, hi.dir]
    · rw [hinfo, dmem, dget_of_one hi.head]; rfl
    · intro _
      rw [hlast, hdepf]
      refine ⟨hver, fun _ v hv => ?_⟩
      obtain ⟨x, hx, rfl⟩ := List.mem_map.1 hv
      exact (hdep x hx).value.2.1
    · intro el hel _ v hv
      rw [hinfo, fields_loadTags] at hv
      simp only [List.mem_cons, List.not_mem_nil, or_false] at hel
      rcases hel with rfl | rfl | rfl
      · rw [hi.sender v hv]; exact hn
      · rw [hi.desc v hv]; decide +kernel
      · exact hi.group v hv
    · rw [f1]
      refine ⟨_, h1, ?_, ?_⟩
      · rw [g1, rows_members hm]
        intro row hr
        obtain ⟨m, _, rfl⟩ := List.mem_map.1 hr
        exact ⟨fun _ => by simp, fun u hu => by simp at hu⟩
      · rw [g1, rows_members hm]
        exact ⟨init.map (fun m => [m]), [vb.name], by simp, rfl⟩
    · rw [f2]
      refine ⟨_, h2, ?_⟩
      rw [g2, rows_lookup hd]
      intro row hr
      obtain ⟨e, he, rfl⟩ := List.mem_map.1 hr
      refine ⟨rfl, fun h => hf e he ?_⟩
      simpa using h
    · rw [f3]
      exact .inr (.inr (.inr h3))
  · refine { head := ⟨_, hver, hheadf⟩, deprecates := ?_, members := ?_, lookup := ?_ }
    · intro h
      have hne : o.deprecates ≠ [] := by
        intro e
        rw [hinfo, dmem, dget_of_none (by rw [hi.deprecates, e]; rfl)] at h
        cases h
      obtain ⟨x, xs, hx⟩ := List.exists_cons_of_ne_nil hne
      rw [hdepf, hlast]
      refine ⟨?_, ?_⟩
      · rw [hx]
        exact (hdep x (by rw [hx]; exact List.mem_cons_self)).value.1
      · intro v hv
        obtain ⟨x, hx, rfl⟩ := List.mem_map.1 hv
        exact (hdep x hx).value.2.2
    · rw [f1, h1]
      intro text e
      cases e
      rw [g1, rows_members hm, List.map_map]
      rw [show ((fun row : List Str => row.head?.getD []) ∘ fun m => [m]) = id from rfl, List.map_id]
      exact hmd
    · rw [f2, h2]
      intro text e
      cases e
      rw [g2, rows_lookup hd, List.map_map]
      exact hdd

/-- C86: the head bag of a split passes the package's own validation of head bags, without errors and without
warnings, wherever it is put. -/
theorem C86_head_conforms {hostOk : Str → Bool} {sum : Str → Str → Str} {blen : Str → Nat} {cfg : ReadCfg} {t : Tree}
    {b : RBag} (ho : openBag cfg t = .ok b) (hw : WfTree t)
    (hv : bagValidate hostOk sum blen cfg b = .ok ())
    (hex : HexSum sum) (halg : cfg.algs.Nodup) (hslash : ∀ a ∈ cfg.algs, '/' ∉ a) (htag : b.tagFile = py!"bag-info.txt")
    {o : ApplyOpts} {plan : List Manifest} {names : List Str} {d d' : CopyDisk} (hsrc : d.src = t) (hne : plan ≠ [])
    (hf : ∀ m ∈ plan, ∀ f ∈ m.contents, PlanEntry f ∧ PlainPath f ∧ ¬ HeadFile (comps f) ∧ f ≠ py!"fetch.txt")
    (hclean : ∀ m ∈ plan, ∀ f ∈ m.contents, Clean f) (hnd : ∀ m ∈ plan, m.contents.Nodup)
    (hnames : ∀ n ∈ names, Clean n) (hmnames : ∀ m ∈ plan, ∀ n, m.name = some n → Clean n)
    (hver : OneLineValue o.headVersion) (hver0 : o.headVersion ≠ [])
    (hdep : ∀ x ∈ o.deprecates, OneLineValue (deprecateValue x))
    (hgroup : ∀ k ∈ [py!"External-Identifier", py!"Bag-Group-Identifier"], ∀ v ∈ fields b.info k, v ≠ [])
    {old : List Str} {oldLookup : List (Str × Str)} (hold : initialIndex (b.source cfg) = .ok (old, oldLookup))
    (hold1 : old.Nodup) (hold2 : ∀ m ∈ old, Clean m)
    (hold3 : (dkeys oldLookup).Nodup) (hold4 : ∀ e ∈ oldLookup, Clean e.1 ∧ Clean e.2)
    (h : applyPlan copyFS (b.source cfg) blen o plan names d = .ok d') :
    ∃ bags n t', d'.done = d.done ++ bags ∧ bags.length = plan.length ∧ bags.getLast? = some (n, t') ∧
      ((∀ e ∈ oldLookup, e.2 ≠ n) → (∀ x ∈ o.deprecates, DeprecationOk o.headVersion n x) →
      ∀ path, (∀ p, t'.isfile p = true → isDangerous cfg.env path (joinPath p) = false) →
        ∃ b', openBag { cfg with bagpath := path } t' = .ok b' ∧
          isValid (fun w => validateHead hostOk (b'.seen hostOk sum blen { cfg with bagpath := path } n) w none) PROB = .ok true) := by
  have one : ∀ {n : Str}, Clean n → OneLineValue n := fun hn =>
    ⟨fun c hc => isNl_of_isBreak (hn.nobreak c hc), hn.noouter⟩
  have hval := (C80_valid_iff ho hw hostOk sum blen).1 hv
  obtain ⟨htt, _⟩ := openBag_parts ho
  have hst : (b.source cfg).tree = t := htt
  have ha : ∀ f, ∀ ah ∈ (b.source cfg).hashes f, '/' ∉ ah.1 :=
    fun f ah hh => hslash _ (hashes_valid ho hval hh).1
  obtain ⟨bags, hb1, hb2, hb3⟩ := split_outputs ho hw hv hex halg hslash htag hsrc hf hnd
    (fun n hn => one (hnames n hn)) (fun m hm n hn => one (hmnames m hm n hn)) hver hdep h
  obtain ⟨old', lk', hi, bags2, _, h2, h3, h4, _, h6⟩ := applyPlan_copy (hst ▸ hsrc) (fun m hm f hfm => (hf m hm f hfm).1) ha h
  rw [hold] at hi
  cases hi
  have : bags2 = bags := List.append_cancel_left (h2.symm.trans hb1)
  subst this
  have hpos : 0 < plan.length := List.length_pos_iff.2 hne
  have hil : plan.length - 1 < plan.length := by omega
  have hlast : plan.length - 1 + 1 = plan.length := by omega
  have hm := List.getElem?_eq_getElem hil
  have hmem := List.mem_of_getElem? hm
  obtain ⟨n, t', fields', hb', hn, B⟩ := h6 _ _ hm
  have hget : bags2.getLast? = some (n, t') := by
    rw [List.getLast?_eq_getElem?, hb2]; exact hb'
  obtain ⟨sb, _, hagg, size, count, fs, hfs, hwr, hop⟩ := hb3 _ _ n t' hm hb'
  refine ⟨bags2, n, t', hb1, hb2, hget, ?_⟩
  intro holdn hdepn path hpath
  obtain ⟨b', ho', hinfo', htag', hval'⟩ := hop path hpath
  refine ⟨b', ho', ?_⟩
  have htree' : b'.tree = t' := (openBag_parts ho').1
  have hnamesOk : ∀ x ∈ bags2.map Prod.fst, Clean x := by
    intro x hx
    obtain ⟨e, he, rfl⟩ := List.mem_map.1 hx
    obtain ⟨i, hi⟩ := List.mem_iff_getElem?.1 he
    have hil : i < plan.length := by rw [← hb2]; exact (List.getElem?_eq_some_iff.1 hi).1
    obtain ⟨n', t'', _, hb'', hn', _⟩ := h6 i _ (List.getElem?_eq_getElem hil)
    rw [hi] at hb''
    cases hb''
    cases hni : names[i]? with
    | none => rw [hni] at hn'; exact hmnames _ (List.getElem_mem hil) n' hn'
    | some x => rw [hni] at hn'; cases hn'; exact hnames _ (List.mem_of_getElem? hni)
  have hnmem : n ∈ bags2.map Prod.fst := List.mem_map.2 ⟨_, List.mem_of_getElem? hb', rfl⟩
  have hnc := hnamesOk n hnmem
  rw [show decide (plan.length - 1 + 1 = plan.length) = true from decide_eq_true hlast] at B hfs sb
  -- the member list
  have hlen : (bags2.map Prod.fst).length = plan.length := by rw [List.length_map, hb2]
  have hmembers : ((bags2.map Prod.fst).take (plan.length - 1 + 1)).foldl moveToEnd old =
      (old.filter (fun m => m ∉ bags2.map Prod.fst) ++ (bags2.map Prod.fst).dropLast) ++ [n] := by
    rw [List.take_of_length_le (by omega), foldl_moveToEnd hold1 h4, List.append_assoc]
    congr 1
    have hl : (bags2.map Prod.fst).getLast? = some n := by rw [List.getLast?_map, hget]; rfl
    obtain ⟨ys, hys⟩ := List.getLast?_eq_some_iff.1 hl
    rw [hys, List.dropLast_concat]
  have hmd : ((old.filter (fun m => m ∉ bags2.map Prod.fst) ++ (bags2.map Prod.fst).dropLast) ++ [n]).Nodup := by
    rw [← hmembers, List.take_of_length_le (by omega), foldl_moveToEnd hold1 h4, List.nodup_append]
    refine ⟨hold1.filter _, h4, ?_⟩
    intro x hx y hy e
    subst e
    have := (List.mem_filter.1 hx).2
    simp only [decide_eq_true_eq] at this
    exact this hy
  have hmc : ∀ m ∈ (old.filter (fun m => m ∉ bags2.map Prod.fst) ++ (bags2.map Prod.fst).dropLast) ++ [n], Clean m := by
    intro m hm
    rcases List.mem_append.1 hm with hm | hm
    · rcases List.mem_append.1 hm with hm | hm
      · exact hold2 _ (List.mem_filter.1 hm).1
      · exact hnamesOk _ (List.dropLast_subset _ hm)
    · rw [List.mem_singleton] at hm; subst hm; exact hnc
  -- the lookup list
  rw [hlast] at B
  rw [hlast] at hmembers
  have hzip : (plan.zip (bags2.map Prod.fst)).take plan.length = plan.zip (bags2.map Prod.fst) := by
    apply List.take_of_length_le
    rw [List.length_zip]; exact Nat.min_le_left _ _
  rw [hzip, hmembers] at B
  have hpairs : ∀ e ∈ indexPairs (b.source cfg).tree (plan.zip (bags2.map Prod.fst)),
      ∃ (i : Nat) (m : Manifest), plan[i]? = some m ∧ (bags2.map Prod.fst)[i]? = some e.2 ∧ e.1 ∈ copied t m.contents := by
    intro e he
    obtain ⟨mn, hmn, hc, e2⟩ := mem_indexPairs he
    obtain ⟨i, hi⟩ := List.mem_iff_getElem?.1 hmn
    rw [List.getElem?_zip_eq_some] at hi
    exact ⟨i, mn.1, hi.1, by rw [e2]; exact hi.2, hst ▸ hc⟩
  have hdc : ∀ e ∈ dupdate oldLookup (indexPairs (b.source cfg).tree (plan.zip (bags2.map Prod.fst))), Clean e.1 ∧ Clean e.2 := by
    intro e he
    rcases mem_dupdate he with he | he
    · exact hold4 e he
    · obtain ⟨i, m, h1, h2, h3⟩ := hpairs e he
      exact ⟨hclean m (List.mem_of_getElem? h1) _ (copied_mem.1 h3).1, hnamesOk _ (List.mem_of_getElem? h2)⟩
  have hdf : ∀ e ∈ dupdate oldLookup (indexPairs (b.source cfg).tree (plan.zip (bags2.map Prod.fst))), e.2 = n →
      t'.isfile (comps e.1) = true := by
    intro e he hen
    rcases mem_dupdate he with he | he
    · exact absurd hen (holdn e he)
    · obtain ⟨i, m, h1, h2, h3⟩ := hpairs e he
      have hin : i = plan.length - 1 := by
        have hx : (bags2.map Prod.fst)[plan.length - 1]? = some n := by rw [List.getElem?_map, hb']; rfl
        rw [hen] at h2
        exact ((List.getElem?_inj (by rw [← hlen] at hil; rw [hlen] at hil ⊢; omega) h4).1 (hx.trans h2.symm)).symm
      subst hin
      rw [hm] at h1
      cases h1
      obtain ⟨hc1, hc2⟩ := copied_mem.1 h3
      rw [isfile_read] at hc2 ⊢
      obtain ⟨c, hc⟩ := Option.isSome_iff_exists.1 hc2
      rw [sb.files _ hc1 c hc (fun hx => (hf _ hmem _ hc1).2.2.1 hx.2)]
      rfl
  -- the metadata
  have hI : HeadInfo o n (fs.map (fun f => (f.1, reread f.2))) := by
    constructor
    · rw [valuesOf_reread, (C40_version hfs).1]; decide
    · rw [valuesOf_reread, (C40_version hfs).2]; decide
    · rw [valuesOf_reread, (head_marks hfs).1]
      simp [hver.reread]
    · rw [valuesOf_reread, (head_marks hfs).2, if_pos rfl, List.map_map]
      apply List.map_congr_left
      intro x hx
      exact (hdep x hx).reread
    · rw [valuesOf_reread, List.map_eq_nil_iff]
      refine Classical.byContradiction fun hx => ?_
      have := C40_multibag_dropped hfs py!"Multibag-Reference" (by decide) hx
      revert this; clear hx; decide
    · rw [valuesOf_reread]
      intro v hv
      obtain ⟨w, hw, rfl⟩ := List.mem_map.1 hv
      rw [(sender_values hfs).1 w hw]; exact (one hnc).reread
    · rw [valuesOf_reread]
      intro v hv
      obtain ⟨w, hw, rfl⟩ := List.mem_map.1 hv
      rw [(sender_values hfs).2 w hw]
    · rw [valuesOf_reread]
      intro v hv
      obtain ⟨w, hw, rfl⟩ := List.mem_map.1 hv
      obtain ⟨e, he, hk, hv'⟩ := group_values hfs hw
      obtain ⟨l, hl, hli⟩ := source_info ho
      have he' : e ∈ b.info := he
      have hnd' : (dkeys b.info).Nodup := by rw [hli]; exact nodup_loadTags l
      have hfold : ∀ v ∈ e.2.values, Foldable v := by
        rw [hli] at he'
        exact (loadTags_values hl e he').2
      refine reread_ne_nil (hfold w hv').trimmed (hgroup e.1 ?_ w ?_)
      · rcases hk with hk | hk <;> rw [hk] <;> decide
      · unfold fields; rw [dget_of_mem hnd' he']; exact hv'
  refine (C79_problems hostOk _).2 (conforms_of_parts hI rfl hinfo' ?_ hnc.nonempty hver0 hdepn hmc hmd hdc (nodup_dupdate hold3)
    ?_ ?_ ?_ ?_ ?_ ?_)
  · show (match bagValidate hostOk sum blen { cfg with bagpath := path } b' with | .ok () => BagVerdict.valid | .error e => .raises e) = _
    rw [(C80_valid_iff ho' (htree' ▸ sb.wf) hostOk sum blen).2 hval']
  · show ∀ e ∈ _, _ → b'.tree.isfile _ = true
    rw [htree']; exact hdf
  · show b'.tree.read mb1 = _
    rw [htree', B.read, if_pos ⟨rfl, rfl⟩]
  · show b'.tree.read mb2 = _
    rw [htree', B.read, if_neg (by decide), if_pos ⟨rfl, rfl⟩]
  · show ∃ text fs, b'.tree.read mb3 = some text ∧ _
    rw [htree']
    have := hagg hlast
    obtain ⟨_, _, _, hbi, _⟩ := openBag_parts ho
    rw [htag] at hbi
    have hbf : t.isfile [py!"bag-info.txt"] = true := by rw [isfile_read, ← hst]; exact B.agg rfl
    rw [if_pos (exists_of_isfile hbf)] at hbi
    unfold loadTagFile at hbi
    rw [isfile_read] at hbf
    obtain ⟨text, ht⟩ := Option.isSome_iff_exists.1 hbf
    rw [ht] at hbi
    simp only [Bool.false_eq_true, if_false] at hbi
    cases hp : parseTags .universal text with
    | ok l =>
      obtain ⟨l', hl'⟩ := parse_dropBom (translateNl_no_cr text) (l := l) (by
        rw [← hp]
        show parseTagsFrom none (linesOf isNl (translateNl (translateNl text))) = parseTagsFrom none (linesOf isNl (translateNl text))
        rw [translateNl_clean (translateNl_no_cr text)])
      exact ⟨_, l', this, by rw [ht]; exact hl'⟩
    | error e => rw [hp] at hbi; cases hbi
  · show b'.tree.isdir _ = true
    rw [htree', sb.dirs]; exact .inr (.inl rfl)
  · show b'.tree.isdir _ = true
    rw [htree', sb.dirs]; exact .inr (.inr (.inl ⟨rfl, rfl⟩))

/-! ## C87 -/

/-- The results for a bag like the member bags of a split. -/
theorem member_results {l : List (Str × Str)} (h1 : valuesOf l py!"Multibag-Version" = [py!"0.4"])
    (h2 : valuesOf l py!"Multibag-Tag-Directory" = [py!"multibag"]) (h3 : valuesOf l py!"Multibag-Head-Version" = [])
    (h4 : valuesOf l py!"Multibag-Head-Deprecates" = []) {vb : VBag} (hinfo : vb.info = loadTags l)
    (hval : vb.verdict = .valid) (hn : Clean vb.name) :
    validateMember vb ALL (some { want := ALL }) = .ok
      { want := ALL
        errors := [⟨py!"2-Bag", ERROR, true, []⟩, ⟨py!"2.1a-name-TAB", ERROR, true, []⟩, ⟨py!"2.1b-name-wsp", ERROR, true, []⟩]
        warnings := [⟨py!"2-Head-Deprecates", WARN, true, []⟩, ⟨py!"2-Tag-Directory", WARN, false, []⟩,
          ⟨py!"2-Tag-Directory", WARN, !vb.tree.exists [py!"multibag"], []⟩]
        recs := [⟨py!"3-Version-for-member", REC, true, []⟩] } := by
  have hv : infoVersion vb.info = some py!"0.4" := by
    rw [hinfo]; unfold infoVersion; rw [dget_of_one h1]
  have ht : tagDirs vb.info = [py!"multibag"] := by
    rw [hinfo]; unfold tagDirs; rw [dget_of_one h2]; rfl
  have hh : isHeadInfo vb.info = false := by
    unfold isHeadInfo dmem; rw [hinfo, dget_of_none h3]; rfl
  have hd : dmem vb.info py!"Multibag-Head-Deprecates" = false := by
    unfold dmem; rw [hinfo, dget_of_none h4]; rfl
  have hd2 : dmem vb.info py!"Multibag-Tag-Directory" = true := by
    unfold dmem; rw [hinfo, dget_of_one h2]; rfl
  have n1 : vb.name.contains '\t' = false := by
    cases hc : vb.name.contains '\t' with
    | false => rfl
    | true => rw [List.contains_iff_mem] at hc; exact absurd hc hn.notab
  have n2 : vb.name.head?.any isSpace = false := by
    cases hx : vb.name.head? with
    | none => rfl
    | some c => exact hn.noouter.1 c hx
  have n3 : vb.name.getLast?.any isSpace = false := by
    cases hx : vb.name.getLast? with
    | none => rfl
    | some c => exact hn.noouter.2 c hx
  unfold validateMember validateBag
  simp only [hval, Option.getD_some, hv, show wants ALL ERROR = true by decide, if_true]
  rw [if_neg (by decide)]
  unfold validateBagname
  rw [if_neg (by decide), n1, n2, n3]
  unfold validateAsNonhead
  rw [hh, hd, hd2, ht]
  rfl

/-- C87 is false in one respect: a member bag made by a split that is validated as a member bag, with the results
collected, is found to name a tag directory, against which the profile has a recommendation.
Missing: that there is no such finding. -/
theorem C87_member_checked_partial {hostOk : Str → Bool} {sum : Str → Str → Str} {blen : Str → Nat} {cfg : ReadCfg} {t : Tree}
    {b : RBag} (ho : openBag cfg t = .ok b) (hw : WfTree t)
    (hv : bagValidate hostOk sum blen cfg b = .ok ())
    (hex : HexSum sum) (halg : cfg.algs.Nodup) (hslash : ∀ a ∈ cfg.algs, '/' ∉ a) (htag : b.tagFile = py!"bag-info.txt")
    {o : ApplyOpts} {plan : List Manifest} {names : List Str} {d d' : CopyDisk} (hsrc : d.src = t)
    (hf : ∀ m ∈ plan, ∀ f ∈ m.contents, PlanEntry f ∧ PlainPath f ∧ ¬ HeadFile (comps f) ∧ f ≠ py!"fetch.txt")
    (hnd : ∀ m ∈ plan, m.contents.Nodup)
    (hnames : ∀ n ∈ names, Clean n) (hmnames : ∀ m ∈ plan, ∀ n, m.name = some n → Clean n)
    (hver : OneLineValue o.headVersion) (hdep : ∀ x ∈ o.deprecates, OneLineValue (deprecateValue x))
    (h : applyPlan copyFS (b.source cfg) blen o plan names d = .ok d') :
    ∃ bags : List (Str × Tree), d'.done = d.done ++ bags ∧ bags.length = plan.length ∧
      ∀ (i : Nat) n t', i + 1 < plan.length → bags[i]? = some (n, t') →
      ∀ path, (∀ p, t'.isfile p = true → isDangerous cfg.env path (joinPath p) = false) →
        ∃ b' r, openBag { cfg with bagpath := path } t' = .ok b' ∧
          validateMember (b'.seen hostOk sum blen { cfg with bagpath := path } n) ALL (some { want := ALL }) = .ok r ∧
          (∀ c ∈ r.applied ERROR, c.passed = true) ∧ (∀ c ∈ r.applied REC, c.passed = true) ∧
          Reports r ERROR py!"2-Bag" true ∧ Reports r WARN py!"2-Tag-Directory" false := by
  have one : ∀ {n : Str}, Clean n → OneLineValue n := fun hn =>
    ⟨fun c hc => isNl_of_isBreak (hn.nobreak c hc), hn.noouter⟩
  obtain ⟨bags, hb1, hb2, hb3⟩ := split_outputs ho hw hv hex halg hslash htag hsrc hf hnd
    (fun n hn => one (hnames n hn)) (fun m hm n hn => one (hmnames m hm n hn)) hver hdep h
  have hval := (C80_valid_iff ho hw hostOk sum blen).1 hv
  have hst : (b.source cfg).tree = t := (openBag_parts ho).1
  have ha : ∀ f, ∀ ah ∈ (b.source cfg).hashes f, '/' ∉ ah.1 :=
    fun f ah hh => hslash _ (hashes_valid ho hval hh).1
  obtain ⟨_, _, _, bags2, _, h2, h3, h4, _, h6⟩ := applyPlan_copy (hst ▸ hsrc) (fun m hm f hfm => (hf m hm f hfm).1) ha h
  have : bags2 = bags := List.append_cancel_left (h2.symm.trans hb1)
  subst this
  refine ⟨bags2, hb1, hb2, ?_⟩
  intro i n t' hi hbi path hpath
  have hil : i < plan.length := by omega
  have hm := List.getElem?_eq_getElem hil
  obtain ⟨n', t'', _, hb', hn', _⟩ := h6 i _ hm
  rw [hbi] at hb'
  cases hb'
  have hnc : Clean n := by
    cases hni : names[i]? with
    | none => rw [hni] at hn'; exact hmnames _ (List.getElem_mem hil) n hn'
    | some x => rw [hni] at hn'; cases hn'; exact hnames _ (List.mem_of_getElem? hni)
  obtain ⟨sb, _, _, size, count, fs, hfs, hwr, hop⟩ := hb3 _ _ n t' hm hbi
  obtain ⟨b', ho', hinfo', htag', hval'⟩ := hop path hpath
  rw [show decide (i + 1 = plan.length) = false from decide_eq_false (by omega)] at hfs
  have htree' : b'.tree = t' := (openBag_parts ho').1
  refine ⟨b', _, ho', member_results (l := fs.map (fun f : Str × Str => (f.1, reread f.2))) ?_ ?_ ?_ ?_ hinfo' ?_ hnc, ?_, ?_, ?_, ?_⟩
  · rw [valuesOf_reread, (C40_version hfs).1]; decide
  · rw [valuesOf_reread, (C40_version hfs).2]; decide
  · rw [valuesOf_reread, (head_marks hfs).1]; rfl
  · rw [valuesOf_reread, (head_marks hfs).2]; rfl
  · show (match bagValidate hostOk sum blen { cfg with bagpath := path } b' with | .ok () => BagVerdict.valid | .error e => .raises e) = _
    rw [(C80_valid_iff ho' (htree' ▸ sb.wf) hostOk sum blen).2 hval']
  · intro c hc
    simp only [Results.applied, show wants ERROR ERROR = true by decide, show wants ERROR WARN = false by decide,
      show wants ERROR REC = false by decide, if_true, Bool.false_eq_true, if_false, List.append_nil, List.mem_cons,
      List.not_mem_nil, or_false] at hc
    rcases hc with rfl | rfl | rfl <;> rfl
  · intro c hc
    simp only [Results.applied, show wants REC ERROR = false by decide, show wants REC WARN = false by decide,
      show wants REC REC = true by decide, if_true, Bool.false_eq_true, if_false, List.nil_append, List.mem_cons,
      List.not_mem_nil, or_false] at hc
    subst hc; rfl
  · exact ⟨⟨py!"2-Bag", ERROR, true, []⟩, List.mem_append_left _ (List.mem_append_left _ (by simp [wants, ALL, ERROR])), rfl, rfl, rfl⟩
  · exact ⟨⟨py!"2-Tag-Directory", WARN, false, []⟩, List.mem_append_left _ (List.mem_append_right _ (by simp [wants, ALL, WARN])), rfl, rfl, rfl⟩

/-! ## Concrete cases -/

namespace Sample

def okRun : CopyDisk :=
  match applyPlan copyFS (okBag.source okCfg) List.length {} splitPlan [py!"b1", py!"b2"] { src := okTree } with
  | .ok d => d
  | .error _ => { src := [] }

theorem ok_run : applyPlan copyFS (okBag.source okCfg) List.length {} splitPlan [py!"b1", py!"b2"] { src := okTree } = .ok okRun := by
  decide +kernel

theorem ok_done : okRun.done.map Prod.fst = [py!"b1", py!"b2"] := by decide +kernel

theorem ok_safe {e : Str × Tree} (he : e ∈ okRun.done) (p : Path) (hp : e.2.isfile p = true) :
    isDangerous okCfg.env py!"/store/h" (joinPath p) = false := by
  have : ∀ e ∈ okRun.done, ∀ k ∈ dkeys e.2, isDangerous okCfg.env py!"/store/h" (joinPath k) = false := by decide +kernel
  obtain ⟨c, hc⟩ := isfile_iff.1 hp
  exact this e he p (mem_dkeys_iff.2 ⟨_, hc⟩)

theorem ok_hex : HexSum Sample.sum := by
  intro alg c x hx
  have := (renv_fits.sums alg c).2 x hx
  clear hx
  revert x; decide

theorem ok_names : ∀ n ∈ [py!"b1", py!"b2"], Clean n := by
  intro n hn
  have : n = py!"b1" ∨ n = py!"b2" := by simpa using hn
  rcases this with rfl | rfl <;> exact clean_of_check (by decide)

theorem ok_unnamed : ∀ m ∈ splitPlan, ∀ n, m.name = some n → Clean n := by
  intro m hm n hn
  simp [splitPlan] at hm
  rcases hm with rfl | rfl <;> cases hn

/-- A valid bag with an empty identifier. -/
def noIdTree : Tree := dset okTree [py!"bag-info.txt"]
  (.file py!"Payload-Oxum: 5.2\nExternal-Identifier:\nBag-Group-Identifier: g\n")

def noIdBag : RBag := match openBag okCfg noIdTree with
  | .ok b => b
  | .error _ => ⟨[], [], [], [], [], [], []⟩

def noIdRun : CopyDisk :=
  match applyPlan copyFS (noIdBag.source okCfg) List.length {} splitPlan [py!"b1", py!"b2"] { src := noIdTree } with
  | .ok d => d
  | .error _ => { src := [] }

end Sample

/-- The hypotheses of `C86_head_conforms` are met. -/
example : ∃ n t' b', Sample.okRun.done.getLast? = some (n, t') ∧
    openBag { Sample.okCfg with bagpath := py!"/store/h" } t' = .ok b' ∧
    isValid (fun w => validateHead (fun _ => true)
      (b'.seen (fun _ => true) Sample.sum List.length { Sample.okCfg with bagpath := py!"/store/h" } n) w none) PROB = .ok true := by
  obtain ⟨bags, n, t', h1, _, h2, h3⟩ := C86_head_conforms (hostOk := fun _ => true) Sample.ok_opens Sample.ok_wf
    (sum := Sample.sum) (blen := List.length) (Sample.ok_source []).valid Sample.ok_hex (by decide) (by decide) (Sample.ok_source []).tagFile
    (o := {}) (plan := Sample.splitPlan) (names := [py!"b1", py!"b2"]) (d := { src := Sample.okTree }) rfl (by decide)
    (fun m hm f hf => ⟨(Sample.ok_entries m hm f hf).1, (Sample.ok_entries m hm f hf).2.1.plain, (Sample.ok_entries m hm f hf).2.2⟩)
    (fun m hm f hf => (Sample.ok_entries m hm f hf).2.1.clean.1) (by decide) Sample.ok_names Sample.ok_unnamed
    ⟨by decide, by unfold Trimmed; decide⟩ (by decide) (by simp) (by decide +kernel) (old := []) (oldLookup := []) (by decide +kernel)
    (by decide) (by simp) (by decide) (by simp) Sample.ok_run
  rw [show ({ src := Sample.okTree } : CopyDisk).done = [] from rfl, List.nil_append] at h1
  subst h1
  obtain ⟨b', h4, h5⟩ := h3 (by simp) (fun x hx => by cases hx) py!"/store/h"
    (fun p hp => Sample.ok_safe (List.mem_of_getLast? h2) p hp)
  exact ⟨n, t', b', h2, h4, h5⟩

/-- The head bag of a split of a valid bag with an empty External-Identifier and a Bag-Group-Identifier has an
error, although all other hypotheses of `C86_head_conforms` are met. -/
theorem C86_negation_empty_identifier : ∃ n t' b', openBag Sample.okCfg Sample.noIdTree = .ok Sample.noIdBag ∧
    bagValidate (fun _ => true) Sample.sum List.length Sample.okCfg Sample.noIdBag = .ok () ∧
    applyPlan copyFS (Sample.noIdBag.source Sample.okCfg) List.length {} Sample.splitPlan [py!"b1", py!"b2"]
      { src := Sample.noIdTree } = .ok Sample.noIdRun ∧
    Sample.noIdRun.done.getLast? = some (n, t') ∧
    openBag { Sample.okCfg with bagpath := py!"/store/h" } t' = .ok b' ∧
    isValid (fun w => validateHead (fun _ => true)
      (b'.seen (fun _ => true) Sample.sum List.length { Sample.okCfg with bagpath := py!"/store/h" } n) w none) ERROR = .ok false := by
  have hl : Sample.noIdRun.done.getLast? ≠ none := by decide +kernel
  obtain ⟨⟨n, t'⟩, h1⟩ := Option.ne_none_iff_exists'.1 hl
  have key : ∀ e ∈ Sample.noIdRun.done.getLast?, (match openBag { Sample.okCfg with bagpath := py!"/store/h" } e.2 with
      | .error _ => false
      | .ok b' => decide (isValid (fun w => validateHead (fun _ => true)
        (b'.seen (fun _ => true) Sample.sum List.length { Sample.okCfg with bagpath := py!"/store/h" } e.1) w none) ERROR = .ok false)) = true := by
    decide +kernel
  have := key _ h1
  simp only at this
  split at this
  · cases this
  · next b' hb => exact ⟨n, t', b', by decide +kernel, by decide +kernel, by decide +kernel, h1, hb, of_decide_eq_true this⟩

/-- C87 is false of the code: a valid bag, split in two, gives a member bag about which its validator warns.  (It also shows
that the hypotheses of `C87_member_checked_partial` are met.) -/
theorem C87_negation_tag_directory : ∃ n t' b' r, openBag Sample.okCfg Sample.okTree = .ok Sample.okBag ∧
    bagValidate (fun _ => true) Sample.sum List.length Sample.okCfg Sample.okBag = .ok () ∧
    applyPlan copyFS (Sample.okBag.source Sample.okCfg) List.length {} Sample.splitPlan [py!"b1", py!"b2"]
      { src := Sample.okTree } = .ok Sample.okRun ∧
    Sample.okRun.done[0]? = some (n, t') ∧ Sample.okRun.done.length = 2 ∧
    openBag { Sample.okCfg with bagpath := py!"/store/h" } t' = .ok b' ∧
    validateMember (b'.seen (fun _ => true) Sample.sum List.length { Sample.okCfg with bagpath := py!"/store/h" } n) ALL
      (some { want := ALL }) = .ok r ∧ Reports r WARN py!"2-Tag-Directory" false := by
  obtain ⟨bags, h1, h2, h3⟩ := C87_member_checked_partial (hostOk := fun _ => true) Sample.ok_opens Sample.ok_wf
    (sum := Sample.sum) (blen := List.length) (Sample.ok_source []).valid Sample.ok_hex (by decide) (by decide) (Sample.ok_source []).tagFile
    (o := {}) (plan := Sample.splitPlan) (names := [py!"b1", py!"b2"]) (d := { src := Sample.okTree }) rfl
    (fun m hm f hf => ⟨(Sample.ok_entries m hm f hf).1, (Sample.ok_entries m hm f hf).2.1.plain, (Sample.ok_entries m hm f hf).2.2⟩)
    (by decide) Sample.ok_names Sample.ok_unnamed
    ⟨by decide, by unfold Trimmed; decide⟩ (by simp) Sample.ok_run
  rw [show ({ src := Sample.okTree } : CopyDisk).done = [] from rfl, List.nil_append] at h1
  subst h1
  have hl : Sample.okRun.done[0]? ≠ none := by decide +kernel
  obtain ⟨⟨n, t'⟩, h4⟩ := Option.ne_none_iff_exists'.1 hl
  obtain ⟨b', r, h5, h6, _, _, _, h7⟩ := h3 0 n t' (by decide) h4 py!"/store/h"
    (fun p hp => Sample.ok_safe (List.mem_of_getElem? h4) p hp)
  exact ⟨n, t', b', r, Sample.ok_opens, (Sample.ok_source []).valid, Sample.ok_run, h4, by decide +kernel, h5, h6, h7⟩

end Verif
