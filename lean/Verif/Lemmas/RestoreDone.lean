import Verif.Lemmas.RestoreSaves
import Verif.Props.Restore
/-!
# The whole of a restore succeeds
-/

namespace Verif

open Spec

/-- Copying from several bags succeeds. -/
theorem restoreList_ready {E : RestoreEnv} (hE : EnvOk E) (hF : EnvFits E) {A : Str → Prop} {ts : List Tree}
    (hc : NoClash ts) (hts : ∀ t ∈ ts, Tidy (AtDest E) E.base.algs A t ∧ TagInfoOk t ∧ WfTree t)
    {skip : List Str} (he : [] ∉ skip) (hkeep : ∀ p, (p = [py!"bagit.txt"] ∨ ManifestFile p) → ¬ Deleted skip p)
    {head : Tree} {cfg : ReadCfg} (hk : cfg.knownEncoding = E.base.knownEncoding) {hb : RBag}
    (hopen : openBag cfg head = .ok hb) (htag : hb.tagFile = py!"bag-info.txt")
    {srcs : List RSource} (hs : ∀ s ∈ srcs, Fits E A s ∧ s.tree ∈ ts ∧ s.path ≠ E.base.bagpath)
    {d : Tree} (hd : Ready E A ts d) (hbag : dget d [py!"bagit.txt"] = dget head [py!"bagit.txt"]) :
    ∃ d', restoreList E skip srcs d = .ok d' ∧ Ready E A ts d' ∧ dget d' [py!"bagit.txt"] = dget head [py!"bagit.txt"] := by
  induction srcs generalizing d with
  | nil => exact ⟨d, rfl, hd, hbag⟩
  | cons s srcs ih =>
    obtain ⟨h1, h2, h3⟩ := hs s List.mem_cons_self
    obtain ⟨d1, e1, r1, b1⟩ := restoreFrom_ready hE hF hc hts h1 h2 h3 he hkeep hk hopen htag hd (.inl hbag)
    obtain ⟨d2, e2, r2, b2⟩ := ih (fun s hs' => hs s (List.mem_cons_of_mem _ hs')) r1 b1
    exact ⟨d2, by simp only [restoreList, e1, e2], r2, b2⟩

theorem Ready.congr {E : RestoreEnv} (hE : EnvOk E) {A : Str → Prop} {ts : List Tree} {d d' : Tree} {n : Str} (h : Ready E A ts d)
    (hw : WfTree d') (hne : ¬ ManifestFile [n]) (e : ∀ p, p ≠ [n] → dget d' p = dget d p)
    (hf : ∃ c, dget d' [n] = some (.file c)) (hn : n = py!"bag-info.txt" ∨ ∃ t ∈ ts, t.isfile [n] = true)
    (hi : TagInfoOk d') : Ready E A ts d' := by
  have hm : ∀ a, [n] ≠ manPath py!"manifest" a ∧ [n] ≠ manPath py!"tagmanifest" a := fun a =>
    ⟨fun e => hne (e ▸ (manPath_manifestFile a).1), fun e => hne (e ▸ (manPath_manifestFile a).2)⟩
  refine ⟨hw, ⟨?_, ?_⟩, ?_, ?_, hi⟩
  · exact h.tidy.payload.congr (fun a _ => e _ (fun x => (hm a).1 x.symm))
  · exact h.tidy.tag.congr (fun a _ => e _ (fun x => (hm a).2 x.symm))
  · intro p hp
    by_cases hx : p = [n]
    · subst hx
      rcases hn with rfl | hn
      · exact .inr (.inl rfl)
      · exact .inl hn
    · obtain ⟨c, hc⟩ := isfile_iff.1 hp
      rw [e p hx] at hc
      exact h.files p (isfile_iff.2 ⟨c, hc⟩)
  · intro p hp
    rcases isdir_iff.1 hp with hx | hx
    · exact .inl hx
    · by_cases hx' : p = [n]
      · subst hx'
        obtain ⟨c, hc⟩ := hf
        rw [hc] at hx; cases hx
      · rw [e p hx'] at hx
        exact h.dirs p (isdir_iff.2 (.inr hx))

theorem collectFetch_total {E : RestoreEnv} {names : List Str} {srcs : List RSource} {A : Str → Prop}
    (hf : Forall₂ (fun n s => E.find n = some s) names srcs) (hs : ∀ s ∈ srcs, Fits E A s) (f : List (Str × Str)) :
    ∃ r, collectFetch E names f = .ok r ∧ ((∀ s ∈ srcs, s.tree.read [py!"fetch.txt"] = none) → r = f) := by
  induction hf generalizing f with
  | nil => exact ⟨f, rfl, fun _ => rfl⟩
  | @cons n s ns ss h1 _ ih =>
    obtain ⟨b, hb, _⟩ := (hs s List.mem_cons_self).opens
    obtain ⟨r, hr, hr'⟩ := ih (fun s hx => hs s (List.mem_cons_of_mem _ hx)) (match s.tree.read [py!"fetch.txt"] with
          | none => f
          | some text => addFetch text f)
    refine ⟨r, by simp only [collectFetch, h1, hb]; exact hr, fun hno => ?_⟩
    rw [hr' (fun s hx => hno s (List.mem_cons_of_mem _ hx)), hno s List.mem_cons_self]

/-- Writing the fetch list succeeds. -/
theorem restoreFetch_ready {E : RestoreEnv} (hE : EnvOk E) {A : Str → Prop} {ts : List Tree} (hc : NoClash ts)
    {names : List Str} {srcs : List RSource} (hf : Forall₂ (fun n s => E.find n = some s) names srcs)
    (hs : ∀ s ∈ srcs, Fits E A s ∧ s.tree ∈ ts) {d : Tree} (hd : Ready E A ts d) :
    ∃ d', (if names = [] then .ok d else restoreFetch E names d) = .ok d' ∧ Ready E A ts d' := by
  by_cases hn : names = []
  · rw [if_pos hn]; exact ⟨d, rfl, hd⟩
  · rw [if_neg hn]
    obtain ⟨r, hr, hr'⟩ := collectFetch_total hf (fun s hx => (hs s hx).1) []
    unfold restoreFetch
    rw [hr]
    cases r with
    | nil => exact ⟨d, rfl, hd⟩
    | cons x r =>
      simp only
      have hex : ∃ t ∈ ts, t.isfile [py!"fetch.txt"] = true := by
        apply Classical.byContradiction
        intro hno
        have := hr' (fun s hx => by
          cases hrd : s.tree.read [py!"fetch.txt"] with
          | none => rfl
          | some c => exact absurd ⟨_, (hs s hx).2, isfile_of_read hrd⟩ hno)
        cases this
      obtain ⟨t, ht, htf⟩ := hex
      have hnd : d.isdir [py!"fetch.txt"] = false := by
        cases hdd : d.isdir [py!"fetch.txt"] with
        | false => rfl
        | true =>
          rcases hd.dirs _ hdd with e | ⟨t', ht', e⟩
          · cases e
          · exact absurd ⟨htf, e⟩ (hc t ht t' ht' _)
      have hw := write_root (c := (List.map Prod.snd (x :: r)).flatten) hnd
      refine ⟨_, hw, hd.congr hE (n := py!"fetch.txt") (wf_write hd.wf good_fetch hw) ?_ ?_ ?_ (.inr ⟨t, ht, htf⟩) ?_⟩
      · rintro ⟨a, h | h⟩ <;> simp at h
      · intro p hp; rw [dget_dset, if_neg (fun e => hp e.symm)]
      · exact ⟨_, by rw [dget_dset, if_pos rfl]⟩
      · exact hd.info.congr (by rw [dget_dset, if_neg (by decide)])

/-- Where a restore starts from. -/
theorem startRestore_first {E : RestoreEnv} (hE : EnvOk E) {A : Str → Prop} {ts : List Tree}
    (hts : ∀ t ∈ ts, Tidy (AtDest E) E.base.algs A t ∧ TagInfoOk t ∧ WfTree t)
    {skip : List Str} {H : RHead} (hH : Fits E A ⟨H.path, H.tree⟩) (hin : H.tree ∈ ts)
    (hinfo : ∀ c, H.tree.read aggregationInfo = some c → ∃ l, parseTags .universal (copiedText H.mode c) = .ok l)
    {d : Tree} (hst : StartsFrom E H d) :
    ∃ d0, startRestore E H skip d =
        (if H.path = E.base.bagpath then .ok d0 else restoreFrom E ⟨H.path, H.tree⟩ skip false d0) ∧ Ready E A ts d0 ∧
      ∀ p, p ≠ [py!"bag-info.txt"] → dget d0 p = dget d p := by
  have hempty : Ready E A ts [] := by
    have hk : ∀ kind pay, TidyKind (AtDest E) E.base.algs A kind pay [] := by
      intro kind pay
      have hr : ∀ a p h, ¬ Recorded kind [] a p h := by
        rintro a p h ⟨text, line, h1, _⟩
        cases h1
      exact ⟨fun a _ => rfl, fun a _ h => (by cases h), fun a _ a' _ h => (by cases h), fun a _ p h hx => absurd hx (hr a p h),
        fun a _ text h => (by cases h), fun a _ a' _ _ p h hx => absurd hx (hr a p h)⟩
    refine ⟨⟨List.nodup_nil, fun p hp => (by cases hp), fun p hp => (by cases hp)⟩, ⟨hk _ _, hk _ _⟩, fun p hp => (by cases hp),
      fun p hp => ?_, .none rfl⟩
    rcases isdir_iff.1 hp with e | e
    · exact .inl e
    · cases e
  have hready : Ready E A ts d := by
    rcases hst with ⟨_, rfl⟩ | ⟨_, rfl⟩
    · exact hempty
    · exact ⟨(hts _ hin).2.2, hH.tidy, fun p hp => .inl ⟨_, hin, hp⟩, fun p hp => .inr ⟨_, hin, hp⟩, hH.info⟩
  cases hr : H.tree.read aggregationInfo with
  | none => exact ⟨d, by unfold startRestore; rw [hr], hready, fun _ _ => rfl⟩
  | some c =>
    have hw := write_root (c := copiedText H.mode c) hready.info.nodir
    refine ⟨_, by unfold startRestore; rw [hr]; simp only [hw], hready.congr hE (n := py!"bag-info.txt") (wf_write hready.wf good_baginfo hw) bag_info_not_manifest
      (fun p hp => by rw [dget_dset, if_neg (fun e => hp e.symm)]) ⟨_, by rw [dget_dset, if_pos rfl]⟩ (.inl rfl) ?_,
      fun p hp => by rw [dget_dset, if_neg (fun e => hp e.symm)]⟩
    obtain ⟨l, hl⟩ := hinfo c hr
    refine ⟨loadTags l, ?_⟩
    have hg : dget (dset d [py!"bag-info.txt"] (.file (copiedText H.mode c))) [py!"bag-info.txt"] =
        some (.file (copiedText H.mode c)) := by rw [dget_dset, if_pos rfl]
    rw [if_pos ((exists_iff (by simp)).2 (by rw [hg]; simp))]
    unfold loadTagFile Tree.read
    rw [hg]
    simp only [Bool.false_eq_true, if_false, hl]

/-- The start of a restore succeeds. -/
theorem startRestore_ready {E : RestoreEnv} (hE : EnvOk E) (hF : EnvFits E) {A : Str → Prop} {ts : List Tree}
    (hc : NoClash ts) (hts : ∀ t ∈ ts, Tidy (AtDest E) E.base.algs A t ∧ TagInfoOk t ∧ WfTree t)
    {skip : List Str} (he : [] ∉ skip) (hkeep : ∀ p, (p = [py!"bagit.txt"] ∨ ManifestFile p) → ¬ Deleted skip p)
    {H : RHead} (hH : Fits E A ⟨H.path, H.tree⟩) (hin : H.tree ∈ ts)
    (hinfo : ∀ c, H.tree.read aggregationInfo = some c → ∃ l, parseTags .universal (copiedText H.mode c) = .ok l)
    {d : Tree} (hst : StartsFrom E H d) :
    ∃ d1, startRestore E H skip d = .ok d1 ∧ Ready E A ts d1 ∧ dget d1 [py!"bagit.txt"] = dget H.tree [py!"bagit.txt"] := by
  obtain ⟨hb, hopen, htag⟩ := hH.opens
  obtain ⟨d0, h0, r0, f0⟩ := startRestore_first hE hts (skip := skip) hH hin hinfo hst
  rw [h0]
  by_cases e : H.path = E.base.bagpath
  · rw [if_pos e]
    refine ⟨d0, rfl, r0, ?_⟩
    rcases hst with ⟨hx, _⟩ | ⟨_, rfl⟩
    · exact absurd e hx
    · exact f0 _ (by decide)
  · rw [if_neg e]
    refine restoreFrom_ready hE hF hc hts hH hin e he hkeep (cfg := { E.base with bagpath := H.path }) rfl hopen htag r0 (.inr ⟨?_, rfl⟩)
    rcases hst with ⟨_, rfl⟩ | ⟨hx, _⟩
    · exact f0 _ (by decide)
    · exact absurd hx e

theorem Ready.saving {E : RestoreEnv} (hF : EnvFits E) {A : Str → Prop} {ts : List Tree} {d : Tree} (h : Ready E A ts d)
    (hn : ∀ t ∈ ts, ∀ p, t.isfile p = true → p.head? ≠ some py!"data" → PlainPath (joinPath p) ∧ AtDest E (joinPath p))
    {b : RBag} (hb : openBag E.base d = .ok b) (htag : b.tagFile = py!"bag-info.txt")
    (hu : startsWith py!"UTF" b.encoding = true) : Saving E A b := by
  obtain ⟨ht, hl, _⟩ := openBag_parts hb
  obtain ⟨h1, h2⟩ := tidy_algorithms h.tidy hl
  refine ⟨ht ▸ h.wf, ht ▸ h.tidy, htag, ht ▸ h.info.nodir, hu, h1, h2, ?_⟩
  rw [ht]
  intro p hp hd hl
  rcases h.files p hp with ⟨t, htt, hf⟩ | rfl | ⟨a, ha, rfl | rfl⟩
  · exact hn t htt p hf hd
  · exact ⟨plain_bag_info, hF.info⟩
  · exact hF.manifests a ha
  · rw [manPath_tag_last] at hl; cases hl

/-- The end of a restore succeeds. -/
theorem finishRestore_ready {E : RestoreEnv} (hE : EnvOk E) (hF : EnvFits E) {A : Str → Prop} {ts : List Tree} {d : Tree}
    (h : Ready E A ts d)
    (hn : ∀ t ∈ ts, ∀ p, t.isfile p = true → p.head? ≠ some py!"data" → PlainPath (joinPath p) ∧ AtDest E (joinPath p))
    {b : RBag} (hb : openBag E.base d = .ok b) (htag : b.tagFile = py!"bag-info.txt")
    (hu : startsWith py!"UTF" b.encoding = true) {us rm : Bool} (hmb : rm = true → d.isdir [py!"multibag"] = true) :
    ∃ out, finishRestore E us rm d = .ok out ∧ WfTree out ∧ Tidy (AtDest E) E.base.algs A out ∧
      ((us = true ∨ rm = true) → b.algorithms ≠ [] → TagSums E out) := by
  have hsv := h.saving hF hn hb htag hu
  have ht := (openBag_parts hb).1
  have h1 : ∃ b1, (if rm then removeTags E b else .ok b) = .ok b1 ∧ Saving E A b1 ∧
      (b.algorithms ≠ [] → b1.algorithms ≠ [] ∧ (rm = true → TagSums E b1.tree)) := by
    cases rm with
    | false => exact ⟨b, rfl, hsv, fun h => ⟨h, fun h => by cases h⟩⟩
    | true =>
      simp only [if_true]
      have hdir := hmb rfl
      rw [← ht] at hdir
      have hrm : b.tree.rmtree [py!"multibag"] = .ok (b.tree.filter (fun e => !List.isPrefixOf [py!"multibag"] e.1)) := by
        unfold Tree.rmtree; rw [if_pos hdir]
      have hdg := rmtree_dget hrm
      have hk : ∀ n : Str, n ≠ py!"multibag" → dget (b.tree.filter (fun e => !List.isPrefixOf [py!"multibag"] e.1)) [n] = dget b.tree [n] := by
        intro n hn
        rw [hdg, if_neg]
        intro hp
        have := List.isPrefixOf_iff_prefix.1 hp
        exact hn (by simpa using (List.prefix_cons_iff.1 this).elim (fun e => by cases e) (fun ⟨t, e, _⟩ => by cases e; rfl))
      have hsv1 : Saving E A { b with tree := b.tree.filter (fun e => !List.isPrefixOf [py!"multibag"] e.1), info := multibagKeys.foldl ddel b.info } := by
        refine ⟨wf_rmtree hsv.wf hrm, ⟨hsv.tidy.payload.congr (fun a _ => hk _ ?_), hsv.tidy.tag.congr (fun a _ => hk _ ?_)⟩,
          hsv.tag, ?_, hsv.utf, hsv.algs, hsv.every, ?_⟩
        · intro e; simp at e
        · intro e; simp at e
        · simp only
          rw [isdir_of_dget (hk _ (by decide))]
          exact hsv.nodir
        · intro p hp
          obtain ⟨c, hc⟩ := isfile_iff.1 hp
          simp only [hdg] at hc
          split at hc
          · cases hc
          · exact hsv.names p (isfile_iff.2 ⟨c, hc⟩)
      obtain ⟨b1, e1, s1, x1⟩ := saveBag_ready hE hF hsv1
      exact ⟨b1, by unfold removeTags; rw [hrm]; exact e1, s1, fun h => ⟨(x1 h).1, fun _ => (x1 h).2⟩⟩
  obtain ⟨b1, e1, s1, x1⟩ := h1
  have h2 : ∃ b2, (if us then updateSizes E b1 else .ok b1) = .ok b2 ∧ Saving E A b2 ∧
      ((us = true ∨ rm = true) → b.algorithms ≠ [] → TagSums E b2.tree) := by
    cases us with
    | false => exact ⟨b1, rfl, s1, fun h hb => (x1 hb).2 (h.resolve_left (by simp))⟩
    | true =>
      simp only [if_true]
      obtain ⟨b2, e2, s2, x2⟩ := saveBag_ready hE hF (b := { b1 with info := dset b1.info py!"Payload-Oxum" (.one (oxumText E.blen b1.tree)) })
        ⟨s1.wf, s1.tidy, s1.tag, s1.nodir, s1.utf, s1.algs, s1.every, s1.names⟩
      obtain ⟨b3, e3, s3, x3⟩ := saveBag_ready hE hF (b := { b2 with info := dset b2.info py!"Bag-Size" (.one (E.sizeText b2.tree b2.info)) })
        ⟨s2.wf, s2.tidy, s2.tag, s2.nodir, s2.utf, s2.algs, s2.every, s2.names⟩
      exact ⟨b3, by unfold updateSizes; rw [e2]; exact e3, s3, fun _ hb => (x3 (x2 (x1 hb).1).1).2⟩
  obtain ⟨b2, e2, s2, x2⟩ := h2
  refine ⟨b2.tree, ?_, s2.wf, s2.tidy, x2⟩
  unfold finishRestore
  rw [hb]
  simp only [e1, e2]

end Verif
