import Verif.Lemmas.BagSize
import Verif.Props.RestoreInfo
import Verif.Props.Restore
/-!
# The size that a bag states

C98: the Bag-Size that `update_info`, `convert` and `finalize` write agrees with the size of the bag on disk as they
leave it.
-/

namespace Verif

open Spec

theorem sizeAbout_of {rnd : Nat → Nat → Nat} (hr : Nearest rnd) {n a s slack : Nat} (h1 : a ≤ n + s) (h2 : n ≤ a + s)
    (h3 : 2001 * s ≤ 2000 * slack) : SizeAbout (formatBytes rnd n) a slack := by
  obtain ⟨w, hw, h4, h5⟩ := C92_close hr n
  exact ⟨w, hw, by omega, by omega⟩

theorem bagSize_not_in_headInfo (version : Option Str) (pv : Str) (info : Info) :
    dget (headInfo version pv info) py!"Bag-Size" = none := by
  unfold headInfo
  simp only
  rw [dget_eq_none_iff, dkeys_ddel]
  simp

/-- C98: what `update_info` writes as the size of the bag is the number of bytes of all files of the bag as it then
is, up to one part in two thousand and 12 bytes. -/
theorem C98_head {rnd : Nat → Nat → Nat} (hr : Nearest rnd) {blen : Str → Nat} (hb : ByteLength blen) {E : SaveEnv}
    (hs : FixedLength blen E.sum) (ha : ∀ a ∈ E.algs, '/' ∉ a) (hz : E.size = headBagSize rnd blen)
    {s s' : HeadBag} (hw : WfTree s.tree) {version : Option Str} {pv : Str}
    (h : s.updateInfo E version pv = (.ok (), s')) :
    s'.tree.read [py!"bag-info.txt"] = some (fieldsText (tagFields s'.info)) ∧
    ∃ v, fields s'.info py!"Bag-Size" = [v] ∧ SizeAbout v (totalBytes blen s'.tree) 12 := by
  refine ⟨(updateInfo_ok h).2.1, ?_⟩
  unfold HeadBag.updateInfo at h
  cases h1 : ({ s with info := headInfo version pv s.info } : HeadBag).saveInfo E with
  | mk r s1 =>
    rw [h1] at h
    cases r with
    | error e => simp only at h; injection h with h; cases h
    | ok u =>
      simp only at h
      obtain ⟨_, e1, _, _, w1⟩ := saveInfo_ok h1
      have hi1 : s1.info = headInfo version pv s.info := by rw [e1]
      have hw1 : WfTree s1.tree := by rw [e1]; exact w1 ha hw
      obtain ⟨_, e2, _⟩ := saveInfo_ok h
      have hi2 : s'.info = dset s1.info py!"Bag-Size" (.one (E.size s1.tree)) := by rw [e2]
      have step : ∀ {s s' : HeadBag}, s.saveInfo E = (.ok (), s') → ∃ t,
          s.tree.write [py!"bag-info.txt"] (fieldsText (tagFields s.info)) = .ok t ∧
          writeTagManifests E.sum E.algs t = .ok s'.tree := by
        intro s s' h
        unfold HeadBag.saveInfo at h
        split at h
        · injection h with h; cases h
        · rename_i t hw
          split at h
          · injection h with h; cases h
          · rename_i t' hm
            injection h with _ h
            exact ⟨t, hw, by rw [← h]; exact hm⟩
      obtain ⟨ta, wa, ma⟩ := step h1
      obtain ⟨tb, wb, mb⟩ := step h
      simp only at wa wb
      obtain ⟨tot, _, _⟩ := saved_twice hb hs (fun a h => h) (f := py!"bag-info.txt")
        (fun a e => bag_info_not_manifest (e ▸ (manPath_manifestFile a).2)) hw1.nodup wa ma wb mb
      have hch : ∀ c ∈ E.size s1.tree, c.toNat < 128 ∧ c ≠ '\n' ∧ c ≠ '\r' := by
        rw [hz]; exact formatBytes_chars _ _
      have hnew := info_bytes_new hb (info := headInfo version pv s.info) (bagSize_not_in_headInfo version pv s.info) hch
      rw [hi1, hnew] at tot
      refine ⟨E.size s1.tree, by rw [hi2, fields_dset, if_pos rfl]; rfl, ?_⟩
      rw [hz] at tot ⊢
      unfold headBagSize at tot ⊢
      simp only [filesSize_eq] at tot ⊢
      generalize hT : totalBytes blen s1.tree = T at tot ⊢
      obtain ⟨l1, l2⟩ := formatBytes_length hr (T + (py!"Bag-Size: " ++ natStr T).length)
      have hlen : (py!"Bag-Size: " ++ natStr T).length = 10 + (natStr T).length := by
        rw [List.length_append]; rfl
      rw [hlen] at tot l1 l2 ⊢
      have d1 : (natStr T).length ≤ (natStr (T + (10 + (natStr T).length))).length := digits_mono (by omega)
      have d2 : (natStr (T + (10 + (natStr T).length))).length ≤ (natStr T).length + 2 := by
        rw [digits_le (by omega)]
        have h1 := lt_digits T
        have h2 : (natStr T).length < 10 ^ (natStr T).length := Nat.lt_pow_self (by decide)
        have h3 : 10 ^ ((natStr T).length + 2) = 100 * 10 ^ (natStr T).length := by rw [Nat.pow_add]; omega
        have := digits_pos T
        omega
      exact sizeAbout_of hr (s := 11) (by omega) (by omega) (by omega)

/-- C98 for `convert`, which ends with `update_info`. -/
theorem C98_converted {rnd : Nat → Nat → Nat} (hr : Nearest rnd) {blen : Str → Nat} (hb : ByteLength blen) {E : SaveEnv}
    (hs : FixedLength blen E.sum) (hz : E.size = headBagSize rnd blen) {t : Tree} (hw : WfTree t) {info : Info}
    (c : Convertible E t info) {dir version : Str} {pid : Option Str} {s' : HeadBag}
    (h : (HeadBag.open t info).convert E dir version pid = (.ok (), s')) :
    s'.tree.read [py!"bag-info.txt"] = some (fieldsText (tagFields s'.info)) ∧
    ∃ v, fields s'.info py!"Bag-Size" = [v] ∧ SizeAbout v (totalBytes blen s'.tree) 12 := by
  obtain ⟨u, a⟩ := converted c.tag c.ver' h
  obtain ⟨s, hup, _, hwf, _⟩ := a.last
  exact C98_head hr hb hs c.algs hz (hwf c.algs c.dir.1 hw) hup

/-- C98 for an amendment, which ends with `update_info`. -/
theorem C98_amended {rnd : Nat → Nat → Nat} (hr : Nearest rnd) {blen : Str → Nat} (hb : ByteLength blen) {E : SaveEnv}
    (hs : FixedLength blen E.sum) (ha : ∀ a ∈ E.algs, '/' ∉ a) (hz : E.size = headBagSize rnd blen) {t : Tree} (hw : WfTree t)
    {info : Info} (o : Opened t info) (hg : GoodPath (comps (tagDir info))) {keep : Bool} {old : Amendee} {me : NewHead}
    {version : Str} {bags : List Amending} (hpv : keep = true → verLt (profileVersion old.info) py!"0.3" = false) {s' : HeadBag}
    (h : amend E keep old me version bags (HeadBag.open t info) = (.ok (), s')) :
    s'.tree.read [py!"bag-info.txt"] = some (fieldsText (tagFields s'.info)) ∧
    ∃ v, fields s'.info py!"Bag-Size" = [v] ∧ SizeAbout v (totalBytes blen s'.tree) 12 := by
  obtain ⟨oms', oes, u, a⟩ := amended o hpv h
  obtain ⟨s, hup, _, hwf, _⟩ := a.last
  exact C98_head hr hb hs ha hz (hwf hg hw) hup

/-! ## Restored bags -/

/-- Every manifest that would be loaded is for an algorithm of the bag. -/
def AlgsKnown (cfg : ReadCfg) (b : RBag) : Prop :=
  (∀ e ∈ manifestFiles cfg py!"manifest" b.tree, e.1 ∈ b.algorithms) ∧
  (tupLe [0, 97] b.version = true → ∀ e ∈ manifestFiles cfg py!"tagmanifest" b.tree, e.1 ∈ b.algorithms)

theorem loaded_algs {cfg : ReadCfg} {v : List Int} {enc : Str} {t : Tree} {algs : List Str} {es : Entries}
    (h : loadManifests cfg v enc t = .ok (algs, es)) (a : Str) : a ∈ algs ↔
      (∃ e ∈ manifestFiles cfg py!"manifest" t, e.1 = a) ∨
      (tupLe [0, 97] v = true ∧ ∃ e ∈ manifestFiles cfg py!"tagmanifest" t, e.1 = a) := by
  unfold loadManifests at h
  simp only at h
  split at h
  · cases h
  · cases h
    rw [List.mem_map]
    constructor
    · rintro ⟨e, he, rfl⟩
      rcases List.mem_append.1 he with he | he
      · exact .inl ⟨e, he, rfl⟩
      · split at he
        · next hv => exact .inr ⟨hv, e, he, rfl⟩
        · cases he
    · rintro (⟨e, he, rfl⟩ | ⟨hv, e, he, rfl⟩)
      · exact ⟨e, List.mem_append_left _ he, rfl⟩
      · exact ⟨e, List.mem_append_right _ (by rw [if_pos hv]; exact he), rfl⟩

theorem mem_manifestFiles {cfg : ReadCfg} {kind : Str} {t : Tree} {e : Str × Path} :
    e ∈ manifestFiles cfg kind t ↔ e.1 ∈ cfg.algs ∧ e.2 = manPath kind e.1 ∧ t.isfile (manPath kind e.1) = true := by
  unfold manifestFiles
  rw [List.mem_filter, List.mem_map]
  constructor
  · rintro ⟨⟨a, ha, rfl⟩, hf⟩
    exact ⟨ha, rfl, hf⟩
  · rintro ⟨ha, he, hf⟩
    refine ⟨⟨e.1, ha, ?_⟩, ?_⟩
    · rw [show e = (e.1, e.2) by rfl, he]; rfl
    · rw [he]; exact hf

theorem algsKnown_open {cfg : ReadCfg} {t : Tree} {b : RBag} (h : openBag cfg t = .ok b) : AlgsKnown cfg b := by
  obtain ⟨e, hl, _⟩ := openBag_parts h
  rw [← e] at hl
  exact ⟨fun x hx => (loaded_algs hl _).2 (.inl ⟨x, hx, rfl⟩), fun hv x hx => (loaded_algs hl _).2 (.inr ⟨hv, x, hx, rfl⟩)⟩

theorem saveBag_steps {E : RestoreEnv} {b b' : RBag} (h : saveBag E b = .ok b') : ∃ t algs es,
    b.tree.write [b.tagFile] (fieldsText (tagFields b.info)) = .ok t ∧ writeTagManifests E.sum b.algorithms t = .ok b'.tree ∧
    loadManifests E.base b.version b.encoding b'.tree = .ok (algs, es) ∧ b'.algorithms = b.algorithms ++ algs ∧
    b'.version = b.version := by
  unfold saveBag at h
  split at h
  · cases h
  · rename_i t hw
    split at h
    · cases h
    · rename_i t' hm
      split at h
      · cases h
      · rename_i algs es hl
        cases h
        exact ⟨t, algs, es, hw, hm, hl, rfl, rfl⟩

theorem tagFile_ne {b : RBag} (hb : TagName b.tagFile) (a : Str) :
    [b.tagFile] ≠ manPath py!"tagmanifest" a ∧ [b.tagFile] ≠ manPath py!"manifest" a := by
  unfold manPath
  rcases hb with h | h <;> rw [h] <;> exact ⟨by simp, by simp⟩

theorem algsKnown_save {E : RestoreEnv} {b b' : RBag} (ht : TagName b.tagFile) (hk : AlgsKnown E.base b)
    (h : saveBag E b = .ok b') : AlgsKnown E.base b' ∧ ∀ a ∈ b'.algorithms, a ∈ b.algorithms := by
  obtain ⟨t, algs, es, hw, hm, hl, ha, hv⟩ := saveBag_steps h
  obtain ⟨rfl, _⟩ := Tree.write_ok hw
  obtain ⟨g, _⟩ := writeTagManifests_ok hm
  have k1 : ∀ e ∈ manifestFiles E.base py!"manifest" b'.tree, e.1 ∈ b.algorithms := by
    intro e he
    obtain ⟨h1, h2, h3⟩ := mem_manifestFiles.1 he
    refine hk.1 e (mem_manifestFiles.2 ⟨h1, h2, ?_⟩)
    rw [← isfile_of_dget (t := b'.tree) (t' := b.tree)]
    · exact h3
    · rw [g _ (fun a _ e => by unfold manPath at e; simp at e), dget_dset, if_neg (tagFile_ne ht _).2]
  have k2 : tupLe [0, 97] b.version = true → ∀ e ∈ manifestFiles E.base py!"tagmanifest" b'.tree, e.1 ∈ b.algorithms := by
    intro hv e he
    obtain ⟨h1, h2, h3⟩ := mem_manifestFiles.1 he
    by_cases hin : e.1 ∈ b.algorithms
    · exact hin
    · refine hk.2 hv e (mem_manifestFiles.2 ⟨h1, h2, ?_⟩)
      rw [← isfile_of_dget (t := b'.tree) (t' := b.tree)]
      · exact h3
      · rw [g _ (fun a ha e' => hin (by rw [manPath_inj e']; exact ha)), dget_dset, if_neg (tagFile_ne ht _).1]
  have k3 : ∀ a ∈ algs, a ∈ b.algorithms := by
    intro a h
    rcases (loaded_algs hl a).1 h with ⟨e, he, rfl⟩ | ⟨hv, e, he, rfl⟩
    · exact k1 e he
    · exact k2 hv e he
  refine ⟨⟨fun e he => ?_, fun hv' e he => ?_⟩, ?_⟩
  · rw [ha]; exact List.mem_append_left _ (k1 e he)
  · rw [ha]; exact List.mem_append_left _ (k2 (by rw [← hv]; exact hv') e he)
  · intro a h
    rw [ha] at h
    rcases List.mem_append.1 h with h | h
    · exact h
    · exact k3 a h

theorem totalDirs_eq {dlen : Path → Nat} {t t' : Tree} (hn : (dkeys t).Nodup) (hk : dkeys t' = dkeys t)
    (hd : ∀ p, dget t' p = some .dir ↔ dget t p = some .dir) : totalDirs dlen t' = totalDirs dlen t := by
  have key : ∀ {t : Tree}, (dkeys t).Nodup → totalDirs dlen t =
      ((dkeys t).map (fun p => if dget t p = some .dir then dlen p else 0)).sum := by
    intro t hn
    unfold totalDirs dkeys
    rw [List.map_map]
    congr 1
    apply List.map_congr_left
    intro e he
    obtain ⟨p, n⟩ := e
    have : dget t p = some n := dget_of_mem hn he
    cases n <;> simp [this]
  rw [key hn, key (by rw [hk]; exact hn), hk]
  apply sum_map_eq
  intro p _
  simp only [hd p]

/-- The Bag-Size that `update_bag_size` and the two saves around it leave. -/
theorem updateSizes_size {rnd : Nat → Nat → Nat} (hr : Nearest rnd) {dlen : Path → Nat} {E : RestoreEnv}
    (hb : ByteLength E.blen) (hs : FixedLength E.blen E.sum) (hz : E.sizeText = bagSizeText rnd E.blen dlen)
    (ha : ∀ a ∈ E.base.algs, '/' ∉ a) {b b' : RBag} (hok : SaveOk E b) (hk : AlgsKnown E.base b) (hw : WfTree b.tree)
    (hni : (dkeys b.info).Nodup)
    (hold : ∀ v, dget b.info py!"Bag-Size" = some v → ∃ old, v = .one old ∧ ∀ c ∈ old, c.toNat < 128 ∧ c ≠ '\n' ∧ c ≠ '\r')
    (h : updateSizes E b = .ok b') :
    ∃ v, fields b'.info py!"Bag-Size" = [v] ∧
      SizeAbout v (totalBytes E.blen b'.tree + totalDirs dlen b'.tree) (24 + 2 * v.length) := by
  unfold updateSizes at h
  split at h
  · cases h
  · rename_i b1 h1
    obtain ⟨s1, s2, s3, s4, s5, s6, s7⟩ := saveBag_spec h1 ⟨hok.tag, hok.algs⟩
    simp only at s2 s3 s4 s5 s6 s7
    obtain ⟨u1, u2, u3, u4, u5, u6, u7⟩ := saveBag_spec h ⟨s1.tag, s1.algs⟩
    simp only at u2 u3 u4 u5 u6 u7
    obtain ⟨_, hsub⟩ := algsKnown_save (b := { b with info := dset b.info py!"Payload-Oxum" (.one (oxumText E.blen b.tree)) })
      hok.tag ⟨hk.1, hk.2⟩ h1
    obtain ⟨ta, _, _, wa, ma, _⟩ := saveBag_steps h1
    obtain ⟨tb, _, _, wb, mb, _⟩ := saveBag_steps h
    simp only at wa ma wb mb hsub
    have hw1 : WfTree b1.tree := s6 ha hw
    rw [s2] at wb
    obtain ⟨tot, keys, dirs⟩ := saved_twice hb hs hsub (fun a => (tagFile_ne hok.tag a).1) hw1.nodup wa ma wb mb
    have hdirs : totalDirs dlen b'.tree = totalDirs dlen b1.tree := totalDirs_eq hw1.nodup keys dirs
    have hg : dget b1.info py!"Bag-Size" = dget b.info py!"Bag-Size" := by
      rw [s3, dget_dset, if_neg (by decide)]
    have hni1 : (dkeys b1.info).Nodup := by rw [s3]; exact nodup_dset hni _ _
    have hch : ∀ c ∈ E.sizeText b1.tree b1.info, c.toNat < 128 ∧ c ≠ '\n' ∧ c ≠ '\r' := by
      rw [hz]; exact formatBytes_chars _ _
    refine ⟨E.sizeText b1.tree b1.info, by rw [u3, fields_dset, if_pos rfl]; rfl, ?_⟩
    rw [← s3] at tot
    rw [hdirs]
    cases hbs : dget b1.info py!"Bag-Size" with
    | none =>
      rw [info_bytes_new hb hbs hch] at tot
      rw [hz] at tot ⊢
      unfold bagSizeText calcBagSize at tot ⊢
      simp only [hbs, filesSize_eq, dirsSize_eq] at tot ⊢
      exact sizeAbout_of hr (s := 11 + (formatBytes rnd (totalBytes E.blen b1.tree + totalDirs dlen b1.tree)).length)
        (by omega) (by omega) (by omega)
    | some v =>
      obtain ⟨old, rfl, ho⟩ := hold v (by rw [← hg]; exact hbs)
      obtain ⟨i1, i2⟩ := info_bytes_old hb hni1 hbs ho hch
      have hle : E.blen (fieldsText (tagFields b1.info)) ≤ totalBytes E.blen b1.tree := by
        have d1 : dget b1.tree [b.tagFile] = some (.file (fieldsText (tagFields b1.info))) := by
          obtain ⟨rfl, _⟩ := Tree.write_ok wa
          rw [(writeTagManifests_ok ma).1 _ (fun a _ => (tagFile_ne hok.tag a).1), dget_dset, if_pos rfl, s3]
        rw [total_keys E.blen hw1.nodup]
        have : at? E.blen b1.tree [b.tagFile] = E.blen (fieldsText (tagFields b1.info)) := by unfold at?; rw [d1]; rfl
        rw [← this]
        have h3 : ∀ (l : List Path) (f : Path → Nat) (x : Path), x ∈ l → f x ≤ (l.map f).sum := by
          intro l f x hx
          induction l with
          | nil => cases hx
          | cons a l ih =>
            simp only [List.map_cons, List.sum_cons]
            rcases List.mem_cons.1 hx with rfl | hx
            · omega
            · have := ih hx; omega
        exact h3 _ _ _ (mem_dkeys_iff.2 ⟨_, d1⟩)
      rw [hz] at tot i1 ⊢
      unfold bagSizeText calcBagSize at tot i1 ⊢
      simp only [hbs, filesSize_eq, dirsSize_eq, InfoVal.len] at tot i1 ⊢
      generalize hm : totalBytes E.blen b1.tree + totalDirs dlen b1.tree - old.length = m at tot i1 ⊢
      obtain ⟨a1, a2⟩ := formatBytes_length hr m
      obtain ⟨b1', b2'⟩ := formatBytes_length hr (m + (formatBytes rnd m).length)
      have d1 : (natStr m).length ≤ (natStr (m + (formatBytes rnd m).length)).length := digits_mono (by omega)
      have d2 : (natStr (m + (formatBytes rnd m).length)).length ≤ (natStr m).length + 2 := by
        rw [digits_le (by omega)]
        have h1 := lt_digits m
        have h2 : (natStr m).length < 10 ^ (natStr m).length := Nat.lt_pow_self (by decide)
        have h3 : 10 ^ ((natStr m).length + 2) = 100 * 10 ^ (natStr m).length := by rw [Nat.pow_add]; omega
        have := digits_pos m
        omega
      exact sizeAbout_of hr (s := 20) (by omega) (by omega) (by omega)

/-- The bag as it is opened for the last part of a restore. -/
theorem restored_opened {E : RestoreEnv} (hE : EnvOk E) {H : RHead} {srcs : List RSource} (hA : Aggregation E H srcs)
    {fs : List (Str × Str)} (hfs : CleanTags fs) (hagg : H.tree.read [py!"multibag", py!"aggregation-info.txt"] = some (fieldsText fs))
    {us rm : Bool} {d out : Tree} (hd : WfTree d) (h : restore E H us rm d = .ok out) {b : RBag}
    (hb : openBag E.base out = .ok b) (htag : b.tagFile = py!"bag-info.txt") :
    ∃ d3 bd, finishRestore E us rm d3 = .ok out ∧ WfTree d3 ∧ openBag E.base d3 = .ok bd ∧ bd.info = loadTags fs ∧
      bd.tagFile = py!"bag-info.txt" := by
  obtain ⟨ms, h1, h2⟩ := aggregation_parts hA
  obtain ⟨deleted, ms', d1, d2, d3, e1, e2, e3, e4, e5, e6⟩ := restore_parts h
  rw [h1] at e2
  cases e2
  obtain ⟨d0, i1, i2, hl, i3⟩ := restore_list h2 e3 e4
  have hnil : [] ∉ pySet deleted := by
    rw [mem_pySet]; exact nil_notMem_deleted e1
  have hsrc : ∀ s ∈ sourcesOf E H srcs.reverse, WfTree s.tree ∧ s.path ≠ E.base.bagpath := by
    intro s hx
    unfold sourcesOf at hx
    split at hx
    · rw [List.mem_reverse] at hx
      exact ⟨hA.wf s hx, hA.outside s hx⟩
    · rename_i hne
      rcases List.mem_cons.1 hx with rfl | hx
      · exact ⟨hA.head, hne⟩
      · rw [List.mem_reverse] at hx
        exact ⟨hA.wf s hx, hA.outside s hx⟩
  have b0 := i3 _ hagg
  rw [copiedText_clean hfs] at b0
  have hbi : ¬ ManifestFile [py!"bag-info.txt"] := by rintro ⟨a, h | h⟩ <;> simp at h
  have b2 := (restoreList_read hE hnil hsrc hl (by decide) hbi).1 (by rw [b0]; simp)
  rw [b0] at b2
  have b3 : d3.read [py!"bag-info.txt"] = some (fieldsText fs) := by
    rw [Tree.read, (fetchStep_frame e5).1 _ (by decide), b2]
  obtain ⟨f1, _, _, f4, _, bd, hbd, info', hfin, hread⟩ := finishRestore_spec e6
  -- the version is the same before and after the last part
  have hbt : dget out [py!"bagit.txt"] = dget d3 [py!"bagit.txt"] := f1 _ (by
    rintro (h | h | h | ⟨a, h | h⟩ | ⟨r, h⟩) <;> simp at h)
  obtain ⟨_, _, t1, t2, tags, v, t3, t4, t5, _⟩ := openBag_parts hb
  obtain ⟨_, _, u1, u2, tags', v', u3, u4, u5, _⟩ := openBag_parts hbd
  have htl : loadTagFile true out [py!"bagit.txt"] = loadTagFile true d3 [py!"bagit.txt"] := by
    unfold loadTagFile
    rw [read_of_dget hbt]
  rw [htl, u3] at t3
  cases t3
  rw [u4] at t4
  cases t4
  rw [u5] at t5
  have hver : bd.version = b.version := Option.some.inj t5
  have htf : bd.tagFile = py!"bag-info.txt" := by
    rw [hver, t1] at u1
    rw [← htag]
    exact (Option.some.inj u1).symm
  rw [htf] at u2
  have hex : d3.exists [py!"bag-info.txt"] = true := by
    rw [exists_iff (by decide)]
    intro hn
    rw [Tree.read, hn] at b3; cases b3
  rw [if_pos hex] at u2
  have hload : loadTagFile false d3 [py!"bag-info.txt"] = .ok (loadTags fs) := by
    unfold loadTagFile
    rw [b3]
    simp only [Bool.false_eq_true, if_false]
    rw [parseTags_fieldsText .universal fs (fun f hf => (hfs f hf).1)]
    intro f hf
    exact (hfs f (List.mem_of_mem_head? hf)).2
  rw [hload] at u2
  refine ⟨d3, bd, e6, ?_, hbd, (Except.ok.inj u2).symm, htf⟩
  exact (fetchStep_frame e5).2 (wf_restoreList hE hnil (fun s hx => (hsrc s hx).1) (i2 hd) hl)

theorem dget_foldl_ddel {ks : List Str} {info : Info} {k : Str} {v : InfoVal} (h : dget (ks.foldl ddel info) k = some v) :
    dget info k = some v := by
  induction ks generalizing info with
  | nil => exact h
  | cons a ks ih =>
    have := ih h
    rw [dget_ddel] at this
    split at this
    · cases this
    · exact this

/-- The Bag-Size that the last part of a restore leaves. -/
theorem finish_size {rnd : Nat → Nat → Nat} (hr : Nearest rnd) {dlen : Path → Nat} {E : RestoreEnv}
    (hb : ByteLength E.blen) (hs : FixedLength E.blen E.sum) (hz : E.sizeText = bagSizeText rnd E.blen dlen)
    (ha : ∀ a ∈ E.base.algs, '/' ∉ a) {rm : Bool} {d out : Tree} (hw : WfTree d) {b : RBag} (hbd : openBag E.base d = .ok b)
    (hold : ∀ v, dget b.info py!"Bag-Size" = some v → ∃ old, v = .one old ∧ ∀ c ∈ old, c.toNat < 128 ∧ c ≠ '\n' ∧ c ≠ '\r')
    (h : finishRestore E true rm d = .ok out) :
    ∃ info', out.read [b.tagFile] = some (fieldsText (tagFields info')) ∧
    ∃ v, fields info' py!"Bag-Size" = [v] ∧
      SizeAbout v (totalBytes E.blen out + totalDirs dlen out) (24 + 2 * v.length) := by
  unfold finishRestore at h
  rw [hbd] at h
  simp only at h
  obtain ⟨hbt, hbl, htf, _⟩ := openBag_parts hbd
  have hb0 : SaveOk E b := ⟨tagFileName_cases htf, algorithms_sub hbl⟩
  have hk0 := algsKnown_open hbd
  have hn0 := nodup_openBag hbd
  have hw0 : WfTree b.tree := by rw [hbt]; exact hw
  split at h
  · cases h
  · rename_i b1 h1
    have key : SaveOk E b1 ∧ b1.tagFile = b.tagFile ∧ AlgsKnown E.base b1 ∧ WfTree b1.tree ∧ (dkeys b1.info).Nodup ∧
        ∀ v, dget b1.info py!"Bag-Size" = some v → dget b.info py!"Bag-Size" = some v := by
      by_cases hrm : rm = true
      · rw [if_pos hrm] at h1
        unfold removeTags at h1
        split at h1
        · cases h1
        · rename_i t ht
          obtain ⟨s1, s2, s3, _, _, s6, _⟩ := saveBag_spec h1 ⟨hb0.tag, hb0.algs⟩
          simp only at s2 s3 s6
          have hdg := rmtree_dget ht
          have hk : AlgsKnown E.base { b with tree := t, info := multibagKeys.foldl ddel b.info } := by
            have sub : ∀ kind, ∀ e ∈ manifestFiles E.base kind t, e ∈ manifestFiles E.base kind b.tree := by
              intro kind e he
              obtain ⟨a1, a2, a3⟩ := mem_manifestFiles.1 he
              refine mem_manifestFiles.2 ⟨a1, a2, ?_⟩
              obtain ⟨c, hc⟩ := isfile_iff.1 a3
              refine isfile_iff.2 ⟨c, ?_⟩
              rw [hdg] at hc
              split at hc
              · cases hc
              · exact hc
            exact ⟨fun e he => hk0.1 e (sub _ e he), fun hv e he => hk0.2 hv e (sub _ e he)⟩
          refine ⟨s1, s2, (algsKnown_save (b := { b with tree := t, info := multibagKeys.foldl ddel b.info }) hb0.tag hk h1).1,
            s6 ha (wf_rmtree hw0 ht), by rw [s3]; exact nodup_foldl_ddel _ hn0, ?_⟩
          intro v hv
          rw [s3] at hv
          exact dget_foldl_ddel hv
      · rw [if_neg hrm] at h1
        cases h1
        exact ⟨hb0, rfl, hk0, hw0, hn0, fun _ h => h⟩
    obtain ⟨k1, k2, k3, k4, k5, k6⟩ := key
    simp only [if_true] at h
    split at h
    · cases h
    · rename_i b2 h2
      cases h
      obtain ⟨v, hv, hab⟩ := updateSizes_size hr hb hs hz ha k1 k3 k4 k5 (fun v hv => hold v (k6 v hv)) h2
      refine ⟨b2.info, ?_, v, hv, hab⟩
      unfold updateSizes at h2
      split at h2
      · cases h2
      · rename_i b3 h3
        obtain ⟨s1, s2, _⟩ := saveBag_spec h3 ⟨k1.tag, k1.algs⟩
        obtain ⟨_, _, u3, _, u5, _⟩ := saveBag_spec h2 ⟨s1.tag, s1.algs⟩
        simp only at s2 u3 u5
        rw [← k2, ← s2, u3]
        exact u5

/-- C98 for a restored bag, with what is different there: the sizes that the filesystem gives for directories are
counted too.  Missing: that the size stated is that of the files (`C98_negation_restored`). -/
theorem C98_restored_partial {rnd : Nat → Nat → Nat} (hr : Nearest rnd) {dlen : Path → Nat} {E : RestoreEnv} (hE : EnvOk E)
    (hb : ByteLength E.blen) (hs : FixedLength E.blen E.sum) (hz : E.sizeText = bagSizeText rnd E.blen dlen)
    {H : RHead} {srcs : List RSource} (hA : Aggregation E H srcs) {fs : List (Str × Str)} (hfs : CleanTags fs)
    (hagg : H.tree.read [py!"multibag", py!"aggregation-info.txt"] = some (fieldsText fs))
    (hold : valuesOf fs py!"Bag-Size" = [] ∨ ∃ old, valuesOf fs py!"Bag-Size" = [old] ∧ ∀ c ∈ old, c.toNat < 128)
    {rm : Bool} {d out : Tree} (hd : WfTree d) (h : restore E H true rm d = .ok out) {b : RBag}
    (hbo : openBag E.base out = .ok b) (htag : b.tagFile = py!"bag-info.txt") :
    ∃ info', out.read [py!"bag-info.txt"] = some (fieldsText (tagFields info')) ∧
    ∃ v, fields info' py!"Bag-Size" = [v] ∧
      SizeAbout v (totalBytes E.blen out + totalDirs dlen out) (24 + 2 * v.length) := by
  obtain ⟨d3, bd, hf, hw, hbd, hi, ht⟩ := restored_opened hE hA hfs hagg hd h hbo htag
  have := finish_size hr hb hs hz hE.algs hw hbd (by
    intro v hv
    rw [hi] at hv
    have hfv : fields (loadTags fs) py!"Bag-Size" = v.values := by unfold fields; rw [hv]
    rw [fields_loadTags] at hfv
    have hl := loaded_loadTags fs _ _ hv
    cases v with
    | many l =>
      simp only [InfoVal.values] at hfv hl
      rcases hold with e | ⟨old, e, _⟩ <;> rw [e] at hfv <;> rw [← hfv] at hl <;> simp at hl
    | one x =>
      simp only [InfoVal.values] at hfv
      rcases hold with e | ⟨old, e, ho⟩
      · rw [e] at hfv; cases hfv
      · rw [e] at hfv
        obtain rfl : old = x := by simpa using hfv
        refine ⟨old, rfl, fun c hc => ⟨ho c hc, ?_⟩⟩
        have hm : old ∈ valuesOf fs py!"Bag-Size" := by rw [e]; exact List.mem_singleton_self _
        unfold valuesOf at hm
        obtain ⟨f, hf, rfl⟩ := List.mem_map.1 hm
        have := (hfs f (List.mem_filter.1 hf).1).1.nobreak c hc
        constructor <;> (rintro rfl; exact absurd this (by decide))) hf
  rw [ht] at this
  exact this

/-! ## Samples -/

namespace Sample

/-- Checksums of four characters, and sizes as they are computed. -/
def sizeEnv : SaveEnv where
  algs := [py!"md5"]
  sum _ _ := py!"0123"
  size := headBagSize rnd utf8Bytes

/-- A bag with a name outside the ASCII range in it. -/
def sizeTree : Tree :=
  [([py!"bagit.txt"], .file py!"BagIt-Version: 0.97\nTag-File-Character-Encoding: UTF-8\n"),
   ([py!"bag-info.txt"], .file py!"Contact: Zoé\nBag-Size: 1 GB\n"),
   ([py!"manifest-md5.txt"], .file py!"0123 data/a\n"),
   ([py!"data"], .dir), ([py!"data", py!"a"], .file py!"äöü")]

def sizeInfo : Info := [(py!"Contact", .one py!"Zoé"), (py!"Bag-Size", .one py!"1 GB")]

def sized : HeadBag := ((HeadBag.open sizeTree sizeInfo).updateInfo sizeEnv (some py!"1") CURRENT_VERSION).2

end Sample

namespace Sample

/-- Restoring where the filesystem gives 4096 bytes as the size of a directory. -/
def sizeRenv : RestoreEnv :=
  { renv with sum := fun _ _ => py!"0123", blen := utf8Bytes, sizeText := bagSizeText rnd utf8Bytes (fun _ => 4096) }

end Sample
/-- The hypotheses of `C98_head` are met; the sizes are there. -/
example : FixedLength utf8Bytes Sample.sizeEnv.sum ∧ (∀ a ∈ Sample.sizeEnv.algs, '/' ∉ a) ∧ WfTree Sample.sizeTree ∧
    (HeadBag.open Sample.sizeTree Sample.sizeInfo).updateInfo Sample.sizeEnv (some py!"1") CURRENT_VERSION = (.ok (), Sample.sized) ∧
    fields Sample.sized.info py!"Bag-Size" = [py!"491 B"] ∧ totalBytes utf8Bytes Sample.sized.tree = 494 :=
  ⟨fun _ _ _ => rfl, by decide, Sample.wf_of_check (by decide), by decide +kernel, by decide +kernel, by decide +kernel⟩

/-- The hypotheses of `C98_converted` are met. -/
example : Convertible Sample.sizeEnv Sample.newTree Sample.newInfo ∧ WfTree Sample.newTree ∧
    (let r := (HeadBag.open Sample.newTree Sample.newInfo).convert Sample.sizeEnv py!"/bags/n0" py!"1.0" (some py!"ark:/9")
     r.1 = .ok () ∧ fields r.2.info py!"Bag-Size" = [py!"566 B"] ∧ totalBytes utf8Bytes r.2.tree = 569) := by
  refine ⟨?_, Sample.wf_newTree, by decide +kernel, by decide +kernel, by decide +kernel⟩
  have c := Sample.convertible
  exact ⟨c.wf, by decide, c.tag, c.dir, c.ver, c.files⟩

/-- The hypotheses of `C98_amended` are met. -/
example : Opened Sample.newTree Sample.newInfo ∧ GoodPath (comps (tagDir Sample.newInfo)) ∧
    (let r := amend Sample.sizeEnv false Sample.oldHead Sample.newHead py!"2.0" [Sample.extra] (HeadBag.open Sample.newTree Sample.newInfo)
     r.1 = .ok () ∧ fields r.2.info py!"Bag-Size" = [py!"662 B"] ∧ totalBytes utf8Bytes r.2.tree = 665) :=
  ⟨Sample.newOpened, Sample.ordinary.dir.1, by decide +kernel, by decide +kernel, by decide +kernel⟩

/-- C98 is false of restored bags: one with 190 bytes in it states a size of 4.267 kB, since the size that the
filesystem gives for the directory `data` is added. -/
theorem C98_negation_restored : ∃ (E : RestoreEnv) (H : RHead) (srcs : List RSource) (out : Tree) (info' : Info) (w : Nat),
    EnvOk E ∧ ByteLength E.blen ∧ FixedLength E.blen E.sum ∧
    E.sizeText = bagSizeText Sample.rnd E.blen (fun _ => 4096) ∧ Aggregation E H srcs ∧ H.path ≠ E.base.bagpath ∧
    restore E H true true [] = .ok out ∧ out.read [py!"bag-info.txt"] = some (fieldsText (tagFields info')) ∧
    fields info' py!"Bag-Size" = [py!"4.267 kB"] ∧ sizeThousandths py!"4.267 kB" = some w ∧
    w > 20 * (1000 * totalBytes E.blen out) := by
  have h : ∃ out, restore Sample.sizeRenv Sample.head true true [] = .ok out ∧
      (decide (out.read [py!"bag-info.txt"] = some (fieldsText (tagFields
        [(py!"Contact-Name", .one py!"Jo"), (py!"Payload-Oxum", .one py!"6.2"), (py!"Bag-Size", .one py!"4.267 kB")])) ∧
        4267000 > 20 * (1000 * totalBytes utf8Bytes out))) = true :=
    Sample.ok_of_check (by decide +kernel)
  obtain ⟨out, h1, h2⟩ := h
  have h2 := of_decide_eq_true h2
  refine ⟨Sample.sizeRenv, Sample.head, [⟨py!"/store/m1", Sample.m1⟩], out, _, 4267000, ⟨fun _ h => isWalk_walkOf h, by decide⟩, utf8_byteLength,
    fun _ _ _ => rfl, rfl, ?_, by decide, h1, h2.1, by decide, by decide +kernel, h2.2⟩
  exact ⟨Sample.aggregation.members, Sample.aggregation.head, Sample.aggregation.wf, Sample.aggregation.outside⟩

/-- The hypotheses of `C98_restored_partial` are met by the same bag. -/
example : EnvOk Sample.sizeRenv ∧ ByteLength Sample.sizeRenv.blen ∧ FixedLength Sample.sizeRenv.blen Sample.sizeRenv.sum ∧
    Aggregation Sample.sizeRenv Sample.head [⟨py!"/store/m1", Sample.m1⟩] ∧
    Sample.head.tree.read [py!"multibag", py!"aggregation-info.txt"] =
      some (fieldsText [(py!"Contact-Name", py!"Jo"), (py!"Multibag-Version", py!"0.4")]) ∧
    valuesOf [(py!"Contact-Name", py!"Jo"), (py!"Multibag-Version", py!"0.4")] py!"Bag-Size" = [] ∧
    ∃ out, restore Sample.sizeRenv Sample.head true true [] = .ok out ∧ totalBytes utf8Bytes out = 190 ∧
      totalDirs (fun _ => 4096) out = 4096 ∧ ∃ b, openBag Sample.sizeRenv.base out = .ok b ∧ b.tagFile = py!"bag-info.txt" := by
  refine ⟨⟨fun _ h => isWalk_walkOf h, by decide⟩, utf8_byteLength, fun _ _ _ => rfl,
    ⟨Sample.aggregation.members, Sample.aggregation.head, Sample.aggregation.wf, Sample.aggregation.outside⟩, rfl, by decide, ?_⟩
  have h : ∃ out, restore Sample.sizeRenv Sample.head true true [] = .ok out ∧
      (decide (totalBytes utf8Bytes out = 190 ∧ totalDirs (fun _ => 4096) out = 4096) &&
       (match openBag Sample.sizeRenv.base out with | .ok b => decide (b.tagFile = py!"bag-info.txt") | .error _ => false)) = true :=
    Sample.ok_of_check (by decide +kernel)
  obtain ⟨out, h1, h2⟩ := h
  rw [Bool.and_eq_true] at h2
  obtain ⟨h3, h4⟩ := h2
  have h3 := of_decide_eq_true h3
  cases hb : openBag Sample.sizeRenv.base out with
  | error e => rw [hb] at h4; cases h4
  | ok b => rw [hb] at h4; exact ⟨out, h1, h3.1, h3.2, b, hb, of_decide_eq_true h4⟩

end Verif
