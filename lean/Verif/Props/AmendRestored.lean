import Verif.Spec.AmendRestored
import Verif.Props.Amend
import Verif.Props.Restore
/-!
# Restoring what has been amended

C99: a bag restored from an amended aggregation has the contents of the aggregation before, with the files of the
amending bags and of the new head bag put over it.
-/

namespace Verif

open Spec

theorem overlay_append (a b : List Tree) (p : Path) : overlay (a ++ b) p = (overlay b p).or (overlay a p) := by
  induction a with
  | nil => simp [overlay]
  | cons t a ih => simp only [List.cons_append, overlay, ih, Option.or_assoc]

theorem available_sources {E : RestoreEnv} {bags : List (Str × Tree)} (h : Available E bags) :
    ∃ srcs : List RSource, Forall₂ (fun n s => E.find n = some s) (bags.map Prod.fst) srcs ∧
      srcs.map (fun s => s.tree) = bags.map Prod.snd ∧ (∀ s ∈ srcs, WfTree s.tree) ∧ ∀ s ∈ srcs, s.path ≠ E.base.bagpath := by
  induction bags with
  | nil => exact ⟨[], .nil, rfl, by simp, by simp⟩
  | cons nt bags ih =>
    obtain ⟨srcs, h1, h2, h3, h4⟩ := ih (fun x hx => h x (List.mem_cons_of_mem _ hx))
    obtain ⟨hw, s, e1, e2, e3⟩ := h nt List.mem_cons_self
    refine ⟨s :: srcs, .cons e1 h1, by simp [e2, h2], ?_, ?_⟩
    · intro x hx
      rcases List.mem_cons.1 hx with rfl | hx
      · rw [e2]; exact hw
      · exact h3 x hx
    · intro x hx
      rcases List.mem_cons.1 hx with rfl | hx
      · exact e3
      · exact h4 x hx

/-- What a restore gives, by the bags at hand. -/
theorem restored_overlay {E : RestoreEnv} (hE : EnvOk E) {H : RHead} (hH : WfTree H.tree) (hpath : H.path ≠ E.base.bagpath)
    {bags : List (Str × Tree)} (hav : Available E bags) {ms : List MemberInfo}
    (hm : iterMembers H.mode H.tree H.info = .ok ms) (hn : ms.map (·.name) = bags.map Prod.fst ++ [H.name])
    (hc : NoClash (bags.map Prod.snd ++ [H.tree])) {us rm : Bool} {out : Tree} (h : restore E H us rm [] = .ok out)
    {deleted : List Str} (hd : iterDeleted H.mode H.tree H.info = .ok deleted) {p : Path} (hp : ¬ Special p)
    (hx : ¬ Deleted deleted p) : out.read p = overlay (bags.map Prod.snd ++ [H.tree]) p := by
  obtain ⟨srcs, h1, h2, h3, h4⟩ := available_sources hav
  have hA : Aggregation E H srcs := ⟨⟨ms, bags.map Prod.fst, hm, .inl hn, h1⟩, hH, h3, h4⟩
  have e : memberTrees H srcs = bags.map Prod.snd ++ [H.tree] := by unfold memberTrees; rw [h2]
  have := C44_overlay hE hA (by rw [e]; exact hc) (.inl ⟨hpath, rfl⟩) h hd hp hx
  rw [e] at this
  exact this

/-- The member list of the new head bag, however it is read. -/
theorem new_members {E : SaveEnv} {keep : Bool} {old : Amendee} {me : NewHead} {version : Str} {bags : List Amending}
    {tree : Tree} {info : Info} {oms : List MemberInfo} {oes : List (Str × Str)} {u : Tree} {s' : HeadBag}
    (a : Amended E keep old me version bags tree info oms oes u s')
    (hw : Writable (oms ++ bags.map record ++ [headRecord me]))
    (hn : ((oms ++ bags.map record ++ [headRecord me]).map (·.name)).Nodup) (mode : TextMode) :
    iterMembers mode s'.tree s'.info = .ok (oms ++ bags.map record ++ [headRecord me]) := by
  obtain ⟨text, t1, t2⟩ := a.memberText
  rw [keepLast_of_nodup hn] at t1
  obtain ⟨text', r1, r2⟩ := C06_members_roundtrip mode _ (fun m hm => (hw m hm).1)
    (fun m hm => (hw m (List.mem_of_mem_head? hm)).2)
  rw [t1] at r1
  cases r1
  obtain ⟨t0, ei⟩ := a.newInfo
  have hdir : tagDir s'.info = tagDir info := by
    rw [ei, tagDir_updateInfo, tagDir_initInfo]
  rw [iterMembers_03 a.infoOk, hdir, t2]
  exact r2

/-- Amending leaves the rest of the new head bag as it was. -/
theorem amended_read {E : SaveEnv} {keep : Bool} {old : Amendee} {me : NewHead} {version : Str} {bags : List Amending}
    {tree : Tree} {info : Info} {oms : List MemberInfo} {oes : List (Str × Str)} {u : Tree} {s' : HeadBag}
    (a : Amended E keep old me version bags tree info oms oes u s') {p : Path} (hp : ¬ Special p)
    (ht : ¬ comps (tagDir info) <+: p) : s'.tree.read p = tree.read p := by
  refine read_of_dget (a.frame p ?_ ?_ ?_ ?_ ?_)
  · rw [tagFile_eq _ comps_members]; rintro rfl; exact ht (List.prefix_append _ _)
  · rw [tagFile_eq _ comps_lookup]; rintro rfl; exact ht (List.prefix_append _ _)
  · rintro rfl; exact ht (List.prefix_refl _)
  · exact fun e => hp (.inl e)
  · rintro b rfl
    exact hp (.inr (.inr (.inr (.inl ⟨b, .inr rfl⟩))))

theorem overlay_last {ts : List Tree} {t t' : Tree} {p : Path} (h : t.read p = t'.read p) :
    overlay (ts ++ [t]) p = overlay (ts ++ [t']) p := by
  simp only [overlay_append, overlay, h]

/-- C99 for an amended head bag: outside the multibag tag files, a file that is deleted neither before nor after is
what restoring the old aggregation gives, unless one of the amending bags or the new head bag has it; then it is that
of the last of these.  Missing: that what was deleted stays so (`C99_negation_deleted`). -/
theorem C99_restored_partial (E : SaveEnv) (keep : Bool) (old : Amendee) (me : NewHead) (version : Str)
    (bags : List Amending) (tree : Tree) (info : Info) (s' : HeadBag) (o : Opened tree info)
    (hv : keep = true → verLt (profileVersion old.info) py!"0.3" = false)
    (h : amend E keep old me version bags (HeadBag.open tree info) = (.ok (), s'))
    (hh : py!"Multibag-Head-Version" ∈ dkeys old.info) (oms : List MemberInfo)
    (ho : iterMembers old.mode old.tree old.info = .ok oms)
    (hw : Writable (oms ++ bags.map record ++ [headRecord me]))
    (hn : ((oms ++ bags.map record ++ [headRecord me]).map (·.name)).Nodup)
    (hwn : WfTree tree) (hwo : WfTree old.tree) (hg : GoodPath (comps (tagDir info))) (ha : ∀ a ∈ E.algs, '/' ∉ a)
    (parts : List (Str × Tree)) (hparts : oms.map (·.name) = parts.map Prod.fst ++ [old.name])
    (hc : NoClash (parts.map Prod.snd ++ [old.tree] ++ bags.map (·.tree) ++ [s'.tree]))
    (R R' : RestoreEnv) (hR : EnvOk R) (hR' : EnvOk R')
    (hav : Available R parts)
    (hav' : Available R' (parts ++ [(old.name, old.tree)] ++ bags.map (fun b => (b.name, b.tree))))
    (path path' : Str) (hpath : path ≠ R.base.bagpath) (hpath' : path' ≠ R'.base.bagpath) (mode : TextMode)
    (us rm us' rm' : Bool) (before after : Tree)
    (hb : restore R (Amendee.restoreFrom old path) us rm [] = .ok before)
    (hf : restore R' (restoreFromNew me s' path' mode) us' rm' [] = .ok after)
    (gone gone' : List Str) (hgone : iterDeleted old.mode old.tree old.info = .ok gone)
    (hgone' : iterDeleted mode s'.tree s'.info = .ok gone')
    (p : Path) (hp : ¬ Special p) (ht : ¬ comps (tagDir info) <+: p) (hx : ¬ Deleted gone p) (hx' : ¬ Deleted gone' p) :
    after.read p = overlay (before :: bags.map (·.tree) ++ [tree]) p := by
  obtain ⟨oms', oes, u, a⟩ := amended o hv h
  have e := a.oldMembers
  unfold Amendee.members isHeadInfo at e
  rw [if_pos (dmem_iff.2 hh), ho] at e
  injection e with e
  subst e
  have hws : WfTree s'.tree := by
    obtain ⟨s, hup, _, hwf, _⟩ := a.last
    exact (updateInfo_ok hup).2.2.2.1 ha (hwf hg hwn)
  have r1 := restored_overlay hR (H := Amendee.restoreFrom old path) hwo hpath hav ho hparts (by
    intro t ht t' ht' q
    exact hc t (by simp only [List.append_assoc, List.mem_append] at ht ⊢; rcases ht with h | h; exact .inl h; exact .inr (.inl h))
      t' (by simp only [List.append_assoc, List.mem_append] at ht' ⊢; rcases ht' with h | h; exact .inl h; exact .inr (.inl h)) q) hb hgone hp hx
  have hb3 : (bags.map (fun b => (b.name, b.tree))).map Prod.snd = bags.map (·.tree) := by rw [List.map_map]; rfl
  have hb4 : (bags.map (fun b => (b.name, b.tree))).map Prod.fst = bags.map (·.name) := by rw [List.map_map]; rfl
  have hb5 : (bags.map record).map (·.name) = bags.map (·.name) := by rw [List.map_map]; rfl
  have r2 := restored_overlay hR' (H := restoreFromNew me s' path' mode) hws hpath' hav' (new_members a hw hn mode) (by
    simp only [List.map_append, hb4, hb5, hparts]
    rfl) (by
    simp only [List.map_append, List.map_cons, List.map_nil, hb3]
    exact hc) hf hgone' hp hx'
  rw [r2]
  simp only [List.map_append, hb3, List.map_cons, List.map_nil]
  change overlay (_ ++ [s'.tree]) p = _
  rw [overlay_last (amended_read a hp ht), List.append_assoc, overlay_append]
  change (overlay (bags.map (·.tree) ++ [tree]) p).or (overlay (parts.map Prod.snd ++ [old.tree]) p) = _
  rw [show overlay (parts.map Prod.snd ++ [old.tree]) p = before.read p from r1.symm]
  rfl

/-- C99 for an ordinary bag that is amended: the same, over its own contents. -/
theorem C99_single (E : SaveEnv) (keep : Bool) (old : Amendee) (me : NewHead) (version : Str)
    (bags : List Amending) (tree : Tree) (info : Info) (s' : HeadBag) (o : Opened tree info)
    (hv : keep = true → verLt (profileVersion old.info) py!"0.3" = false)
    (h : amend E keep old me version bags (HeadBag.open tree info) = (.ok (), s'))
    (hh : py!"Multibag-Head-Version" ∉ dkeys old.info)
    (hw : Writable (⟨old.name, none, none, []⟩ :: bags.map record ++ [headRecord me]))
    (hn : ((⟨old.name, none, none, []⟩ :: bags.map record ++ [headRecord me]).map (·.name)).Nodup)
    (hwn : WfTree tree) (hg : GoodPath (comps (tagDir info))) (ha : ∀ a ∈ E.algs, '/' ∉ a)
    (hc : NoClash (old.tree :: bags.map (·.tree) ++ [s'.tree]))
    (R : RestoreEnv) (hR : EnvOk R) (hav : Available R ((old.name, old.tree) :: bags.map (fun b => (b.name, b.tree))))
    (path : Str) (hpath : path ≠ R.base.bagpath) (mode : TextMode) (us rm : Bool) (after : Tree)
    (hf : restore R (restoreFromNew me s' path mode) us rm [] = .ok after)
    (gone : List Str) (hgone : iterDeleted mode s'.tree s'.info = .ok gone)
    (p : Path) (hp : ¬ Special p) (ht : ¬ comps (tagDir info) <+: p) (hx : ¬ Deleted gone p) :
    after.read p = overlay (old.tree :: bags.map (·.tree) ++ [tree]) p := by
  obtain ⟨oms', oes, u, a⟩ := amended o hv h
  have e := a.oldMembers
  unfold Amendee.members isHeadInfo at e
  rw [if_neg (fun hc => hh (dmem_iff.1 hc))] at e
  injection e with e
  subst e
  have hws : WfTree s'.tree := by
    obtain ⟨s, hup, _, hwf, _⟩ := a.last
    exact (updateInfo_ok hup).2.2.2.1 ha (hwf hg hwn)
  have hb3 : (bags.map (fun b => (b.name, b.tree))).map Prod.snd = bags.map (·.tree) := by rw [List.map_map]; rfl
  have hb4 : (bags.map (fun b => (b.name, b.tree))).map Prod.fst = bags.map (·.name) := by rw [List.map_map]; rfl
  have hb5 : (bags.map record).map (·.name) = bags.map (·.name) := by rw [List.map_map]; rfl
  have r2 := restored_overlay hR (H := restoreFromNew me s' path mode) hws hpath hav (new_members a hw hn mode) (by
    simp only [List.map_append, List.map_cons, hb4, hb5]
    rfl) (by rw [List.map_cons, hb3]; exact hc) hf hgone hp hx
  rw [r2]
  simp only [List.map_cons, hb3]
  exact overlay_last (amended_read a hp ht)

/-! ## A concrete case -/

namespace Sample

/-- The head bag of the sample aggregation, with its lookup table. -/
def hbFull : Tree :=
  hb ++ [([py!"multibag", py!"file-lookup.tsv"], .file py!"data/a\thb\ndata/b\tm1\n")]

/-- This bag, to be amended. -/
def hbOld : Amendee := ⟨py!"hb", hbFull, hbInfo, .codecs, false⟩

theorem wf_hbFull : WfTree hbFull := wf_of_check (by decide)

theorem restoreBefore : restore renv (Amendee.restoreFrom hbOld py!"/store/hb") true true [] = .ok restored := by rfl

/-- An amending bag that replaces `data/b`. -/
def bagMore : Amending :=
  { name := py!"x1",
    tree := [([py!"bagit.txt"], .file bagitText), ([py!"bag-info.txt"], .file py!"Payload-Oxum: 2.1\n"),
      ([py!"data"], .dir), ([py!"data", py!"b"], .file py!"b2"), ([py!"manifest-md5.txt"], .file py!"d2 data/b\n")] }

/-- The bag that becomes the new head: it adds a file. -/
def treeMore : Tree :=
  [([py!"bagit.txt"], .file bagitText), ([py!"bag-info.txt"], .file py!"Contact: me\n"),
   ([py!"data"], .dir), ([py!"data", py!"d"], .file py!"D"), ([py!"manifest-md5.txt"], .file py!"d1 data/d\n")]

theorem openedMore : Opened treeMore newInfo where
  tag := by intro l; simp [dget, newInfo]
  ver := by decide
  members := ⟨[], by decide⟩
  lookup := ⟨none, by decide⟩
  deleted := ⟨[], by decide⟩

/-- The new head bag after the amendment. -/
def bagAfter : HeadBag :=
  (amend saveEnv false hbOld newHead py!"3" [bagMore] (HeadBag.open treeMore newInfo)).2

theorem amendMore_runs : amend saveEnv false hbOld newHead py!"3" [bagMore] (HeadBag.open treeMore newInfo) =
    (.ok (), bagAfter) :=
  Prod.ext (show (amend saveEnv false hbOld newHead py!"3" [bagMore] (HeadBag.open treeMore newInfo)).1 = .ok () by
    decide +kernel) rfl

/-- Restoring to `/out` with all four bags at hand. -/
def renvMore : RestoreEnv :=
  { renv with
    find := fun n =>
      if n = py!"m1" then some ⟨py!"/store/m1", m1⟩
      else if n = py!"hb" then some ⟨py!"/store/hb", hbFull⟩
      else if n = py!"x1" then some ⟨py!"/store/x1", bagMore.tree⟩ else none }

theorem renvMore_ok : EnvOk renvMore := ⟨fun _ h => isWalk_walkOf h, by decide⟩

theorem restoreMore : ∃ after, restore renvMore (restoreFromNew newHead bagAfter py!"/store/n0" .codecs) true true [] = .ok after ∧
    (after.read [py!"data", py!"x", py!"d"] == some py!"gone") = true :=
  ok_of_check (by decide +kernel)

theorem availableOld : Available renv [(py!"m1", m1)] := by
  intro nt h
  rw [List.mem_singleton] at h
  subst h
  exact ⟨wf_m1, _, rfl, rfl, by decide⟩

theorem availableMore : Available renvMore [(py!"m1", m1), (py!"hb", hbFull), (py!"x1", bagMore.tree)] := by
  intro nt h
  rcases List.mem_cons.1 h with rfl | h
  · exact ⟨wf_m1, _, rfl, rfl, by decide⟩
  rcases List.mem_cons.1 h with rfl | h
  · exact ⟨wf_hbFull, _, rfl, rfl, by decide⟩
  rw [List.mem_singleton] at h
  subst h
  exact ⟨wf_of_check (by decide), _, rfl, rfl, by decide⟩

end Sample

theorem Sample.not_special_data (p : Path) : ¬ Special (py!"data" :: p) := by
  rintro (h | h | h | ⟨a, h | h⟩ | ⟨r, h⟩) <;> simp at h

theorem Sample.dirMore : comps (tagDir Sample.newInfo) = [py!"multibag"] := by decide

example : ∃ after, restore Sample.renvMore (restoreFromNew Sample.newHead Sample.bagAfter py!"/store/n0" .codecs) true true [] =
      .ok after ∧ after.read [py!"data", py!"a"] = some py!"new!" ∧ after.read [py!"data", py!"b"] = some py!"b2" ∧
      after.read [py!"data", py!"d"] = some py!"D" := by
  obtain ⟨after, hf, _⟩ := Sample.restoreMore
  have key := fun p hp ht hx hx' => C99_restored_partial Sample.saveEnv false Sample.hbOld Sample.newHead py!"3"
    [Sample.bagMore] Sample.treeMore Sample.newInfo Sample.bagAfter Sample.openedMore (by intro h; cases h)
    Sample.amendMore_runs (by decide) [⟨py!"m1", none, none, []⟩, ⟨py!"hb", none, none, []⟩] (by decide +kernel)
    (Sample.writable_of_check (by decide +kernel)) (by decide) (Sample.wf_of_check (by decide)) Sample.wf_hbFull
    (by rw [Sample.dirMore]; exact good_multibag) (by decide) [(py!"m1", Sample.m1)] (by decide)
    (Sample.clash_of_check (by decide +kernel))
    Sample.renv Sample.renvMore Sample.renv_ok Sample.renvMore_ok Sample.availableOld Sample.availableMore
    py!"/store/hb" py!"/store/n0" (by decide) (by decide) .codecs true true true true Sample.restored after
    Sample.restoreBefore hf [py!"data/x"] [] (by decide +kernel) (by decide +kernel) p hp ht hx hx'
  have keep : ∀ n : Str, joinPath [py!"data", n] ≠ py!"data/x" →
      after.read [py!"data", n] = overlay (Sample.restored :: [Sample.bagMore].map (·.tree) ++ [Sample.treeMore]) [py!"data", n] := by
    intro n hn
    refine key _ (Sample.not_special_data _) ?_ ?_ ?_
    · rw [Sample.dirMore]; rintro ⟨r, h⟩; simp at h
    · rintro ⟨q, h1, ⟨r, h2⟩, h3⟩
      rw [List.mem_singleton] at h3
      match q, h1 with
      | [a], _ => simp at h2; rw [h2.1] at h3; exact absurd h3 (by decide)
      | [a, b], _ => simp at h2; rw [h2.1, h2.2.1] at h3; exact hn h3
      | a :: b :: c :: q, _ => simp at h2
    · rintro ⟨q, _, _, h3⟩; simp at h3
  refine ⟨after, hf, ?_, ?_, ?_⟩
  · rw [keep _ (by decide)]; decide +kernel
  · rw [keep _ (by decide)]; decide +kernel
  · rw [keep _ (by decide)]; decide +kernel

/-- C99 is false of the code for a file that the old head bag declared deleted: it is not in the bag restored before
the amendment, no amending bag has it, and it is in the bag restored after it. -/
theorem C99_negation_deleted : ∃ (E : SaveEnv) (old : Amendee) (me : NewHead) (version : Str) (bags : List Amending)
    (tree : Tree) (info : Info) (s' : HeadBag) (R R' : RestoreEnv) (path path' : Str) (before after : Tree) (p : Path),
    Opened tree info ∧ amend E false old me version bags (HeadBag.open tree info) = (.ok (), s') ∧
    restore R (Amendee.restoreFrom old path) true true [] = .ok before ∧
    restore R' (restoreFromNew me s' path' .codecs) true true [] = .ok after ∧
    before.exists p = false ∧ (∀ b ∈ bags, b.tree.exists p = false) ∧ tree.exists p = false ∧
    after.isfile p = true := by
  obtain ⟨after, hf, hr⟩ := Sample.restoreMore
  refine ⟨_, _, _, _, _, _, _, _, _, _, _, _, _, after, [py!"data", py!"x", py!"d"], Sample.openedMore,
    Sample.amendMore_runs, Sample.restoreBefore, hf, by decide, by decide, by decide, ?_⟩
  rw [isfile_read, eq_of_beq hr]
  rfl

/-! An ordinary bag. -/

namespace Sample

/-- An ordinary bag, to be amended. -/
def m1Old : Amendee := ⟨py!"m1", m1, [], .codecs, false⟩

def singleAfter : HeadBag :=
  (amend saveEnv false m1Old newHead py!"2" [bagMore] (HeadBag.open treeMore newInfo)).2

theorem amendM1_runs : amend saveEnv false m1Old newHead py!"2" [bagMore] (HeadBag.open treeMore newInfo) =
    (.ok (), singleAfter) :=
  Prod.ext (show (amend saveEnv false m1Old newHead py!"2" [bagMore] (HeadBag.open treeMore newInfo)).1 = .ok () by
    decide +kernel) rfl

theorem restoreSingle : ∃ after, restore renvMore (restoreFromNew newHead singleAfter py!"/store/n0" .codecs) true true [] =
    .ok after ∧ true = true :=
  ok_of_check (f := fun _ => true) (by decide +kernel)

end Sample

example : ∃ after, restore Sample.renvMore (restoreFromNew Sample.newHead Sample.singleAfter py!"/store/n0" .codecs) true true [] =
      .ok after ∧ after.read [py!"data", py!"a"] = some py!"old" ∧ after.read [py!"data", py!"b"] = some py!"b2" ∧
      after.read [py!"data", py!"d"] = some py!"D" := by
  obtain ⟨after, hf, _⟩ := Sample.restoreSingle
  have key : ∀ n : Str, after.read [py!"data", n] = _ := fun n => C99_single Sample.saveEnv false Sample.m1Old Sample.newHead py!"2"
    [Sample.bagMore] Sample.treeMore Sample.newInfo Sample.singleAfter Sample.openedMore (by intro h; cases h)
    Sample.amendM1_runs (by decide) (Sample.writable_of_check (by decide +kernel)) (by decide) (Sample.wf_of_check (by decide))
    (by rw [Sample.dirMore]; exact good_multibag) (by decide)
    (Sample.clash_of_check (by decide +kernel)) Sample.renvMore Sample.renvMore_ok
    (fun nt h => Sample.availableMore nt (by
      simp only [Sample.m1Old, List.map_cons, List.map_nil, Sample.bagMore, List.mem_cons] at h ⊢
      rcases h with h | h | h
      · exact .inl h
      · exact .inr (.inr (.inl h))
      · exact .inr (.inr (.inr h)))) py!"/store/n0" (by decide) .codecs true true after hf [] (by decide +kernel)
    [py!"data", n] (Sample.not_special_data _) (by rw [Sample.dirMore]; rintro ⟨r, h⟩; simp at h)
    (by rintro ⟨q, _, _, h3⟩; simp at h3)
  refine ⟨after, hf, ?_, ?_, ?_⟩
  · rw [key]; decide +kernel
  · rw [key]; decide +kernel
  · rw [key]; decide +kernel

end Verif
