import Verif.Lemmas.RestoreDone
/-!
# Restoring succeeds: C83
-/

namespace Verif

open Spec

/-- The parts of a restore that succeeds. -/
theorem restore_ready {E : RestoreEnv} (hE : EnvOk E) (hF : EnvFits E) {H : RHead} {srcs : List RSource}
    (hA : Aggregation E H srcs) (hc : NoClash (memberTrees H srcs)) {A : Str → Prop}
    (hs : ∀ s ∈ srcs ++ [⟨H.path, H.tree⟩], Fits E A s)
    {deleted : List Str} (hd : iterDeleted H.mode H.tree H.info = .ok deleted)
    (hkeep : ∀ p, (p = [py!"bagit.txt"] ∨ p = [py!"multibag"] ∨ ManifestFile p) → ¬ Deleted deleted p)
    (hinfo : ∀ c, H.tree.read aggregationInfo = some c → ∃ l, parseTags .universal (copiedText H.mode c) = .ok l)
    {us rm : Bool} (hmb : rm = true → H.tree.isdir [py!"multibag"] = true) {d : Tree} (hst : StartsFrom E H d) :
    ∃ out d3 b, restore E H us rm d = .ok out ∧ WfTree out ∧ Tidy (AtDest E) E.base.algs A out ∧
      Ready E A (memberTrees H srcs) d3 ∧ openBag E.base d3 = .ok b ∧ b.tagFile = py!"bag-info.txt" ∧
      dget d3 [py!"bagit.txt"] = dget H.tree [py!"bagit.txt"] ∧ finishRestore E us rm d3 = .ok out ∧
      ((us = true ∨ rm = true) → b.algorithms ≠ [] → TagSums E out) := by
  have hin : H.tree ∈ memberTrees H srcs := by unfold memberTrees; simp
  have hins : ∀ s ∈ srcs, s.tree ∈ memberTrees H srcs := fun s hx =>
    List.mem_append_left _ (List.mem_map.2 ⟨s, hx, rfl⟩)
  have hH : Fits E A ⟨H.path, H.tree⟩ := hs _ (by simp)
  have hsrc : ∀ s ∈ srcs, Fits E A s := fun s hx => hs s (List.mem_append_left _ hx)
  have hmem : ∀ t ∈ memberTrees H srcs, ∃ s, Fits E A s ∧ s.tree = t ∧ WfTree t := by
    intro t ht
    unfold memberTrees at ht
    rcases List.mem_append.1 ht with ht | ht
    · obtain ⟨s, hx, rfl⟩ := List.mem_map.1 ht
      exact ⟨s, hsrc s hx, rfl, hA.wf s hx⟩
    · rw [List.mem_singleton] at ht
      subst ht
      exact ⟨_, hH, rfl, hA.head⟩
  have hts : ∀ t ∈ memberTrees H srcs, Tidy (AtDest E) E.base.algs A t ∧ TagInfoOk t ∧ WfTree t := by
    intro t ht
    obtain ⟨s, h1, rfl, h2⟩ := hmem t ht
    exact ⟨h1.tidy, h1.info, h2⟩
  have hn : ∀ t ∈ memberTrees H srcs, ∀ p, t.isfile p = true → p.head? ≠ some py!"data" →
      PlainPath (joinPath p) ∧ AtDest E (joinPath p) := by
    intro t ht
    obtain ⟨s, h1, rfl, _⟩ := hmem t ht
    exact h1.names
  have hnil : [] ∉ pySet deleted := by
    rw [mem_pySet]; exact nil_notMem_deleted hd
  have hk' : ∀ p, (p = [py!"bagit.txt"] ∨ ManifestFile p) → ¬ Deleted (pySet deleted) p := by
    intro p hp
    rw [deleted_pySet]
    exact hkeep p (hp.elim .inl (fun h => .inr (.inr h)))
  obtain ⟨ms, hms, hf⟩ := aggregation_parts hA
  obtain ⟨hb, hopen, htag⟩ := hH.opens
  obtain ⟨d1, e1, r1, b1⟩ := startRestore_ready hE hF hc hts hnil hk' hH hin hinfo hst
  obtain ⟨d2, e2, r2, b2⟩ := restoreList_ready hE hF hc hts hnil hk' (cfg := { E.base with bagpath := H.path }) rfl hopen htag
    (srcs := srcs.reverse) (fun s hx => ⟨hsrc s (List.mem_reverse.1 hx), hins s (List.mem_reverse.1 hx), hA.outside s (List.mem_reverse.1 hx)⟩) r1 b1
  have e2' := e2
  rw [← restoreMembers_eq hf] at e2
  obtain ⟨d3, e3, r3⟩ := restoreFetch_ready hE hc hf
    (fun s hx => ⟨hsrc s (List.mem_reverse.1 hx), hins s (List.mem_reverse.1 hx)⟩) r2
  have hfr := (fetchStep_frame e3).1
  have b3 : dget d3 [py!"bagit.txt"] = dget H.tree [py!"bagit.txt"] := by rw [hfr _ (by decide), b2]
  obtain ⟨b, hob, htb, hub⟩ := r3.opens hF (cfg := { E.base with bagpath := H.path }) rfl hopen htag b3
  have hmb3 : rm = true → d3.isdir [py!"multibag"] = true := by
    intro hrm
    rcases isdir_iff.1 (hmb hrm) with e | e
    · cases e
    rw [isdir_iff]; right
    rw [hfr _ (by decide)]
    obtain ⟨d0, i1, _, hl, _⟩ := restore_list hf e1 e2
    have hss : ∀ s ∈ sourcesOf E H srcs.reverse, WfTree s.tree ∧ s.path ≠ E.base.bagpath := by
      unfold sourcesOf
      intro s hx
      split at hx
      · exact ⟨hA.wf s (List.mem_reverse.1 hx), hA.outside s (List.mem_reverse.1 hx)⟩
      · rename_i hne
        rcases List.mem_cons.1 hx with rfl | hx
        · exact ⟨hA.head, hne⟩
        · exact ⟨hA.wf s (List.mem_reverse.1 hx), hA.outside s (List.mem_reverse.1 hx)⟩
    obtain ⟨k1, _, k3⟩ := restoreList_read hE hnil hss hl (p := [py!"multibag"]) (by decide) (by
      rintro ⟨a, h | h⟩ <;> simp at h)
    rw [i1 _ (by decide)] at k1 k3
    rcases hst with ⟨hne, rfl⟩ | ⟨_, rfl⟩
    · rw [k3 rfl (by rw [deleted_pySet]; exact hkeep _ (.inr (.inl rfl)))]
      unfold sourcesOf
      rw [if_neg hne]
      simp only [firstAt, e, Option.some_or]
    · rw [k1 (by rw [e]; simp), e]
  obtain ⟨out, e4, w4, t4, x4⟩ := finishRestore_ready hE hF r3 hn hob htb hub (us := us) hmb3
  refine ⟨out, d3, b, ?_, w4, t4, r3, hob, htb, b3, e4, x4⟩
  unfold restore
  simp only [hd, hms, e1, e2, e3, e4]

/-- C83: restoring succeeds.  The member bags can be found and opened, no path is a file in one and a directory
in another, their manifests are tidy for the same checksum algorithms, and the names of tag files can be written
into a manifest; the list of deleted files names no tag file of BagIt; the metadata of the aggregation can be
read; and the directory of multibag tag files is where it is expected, if it is to be removed.  Then the bag is
restored without an exception, into a new directory or in place.  (A directory of multibag
tag files of another name is the subject of C52, see `C52_fitting_negation`.) -/
theorem C83_restore_succeeds {E : RestoreEnv} (hE : EnvOk E) (hF : EnvFits E) {H : RHead} {srcs : List RSource}
    (hA : Aggregation E H srcs) (hc : NoClash (memberTrees H srcs)) {A : Str → Prop}
    (hs : ∀ s ∈ srcs ++ [⟨H.path, H.tree⟩], Fits E A s)
    {deleted : List Str} (hd : iterDeleted H.mode H.tree H.info = .ok deleted)
    (hkeep : ∀ p, (p = [py!"bagit.txt"] ∨ p = [py!"multibag"] ∨ ManifestFile p) → ¬ Deleted deleted p)
    (hinfo : ∀ c, H.tree.read aggregationInfo = some c → ∃ l, parseTags .universal (copiedText H.mode c) = .ok l)
    {us rm : Bool} (hmb : rm = true → H.tree.isdir [py!"multibag"] = true) {d : Tree} (hst : StartsFrom E H d) :
    ∃ out, restore E H us rm d = .ok out := by
  obtain ⟨out, _, _, h, _⟩ := restore_ready hE hF hA hc hs hd hkeep hinfo hmb hst
  exact ⟨out, h⟩

namespace Sample

theorem tidy_of_lines {t : Tree} {safe : Str → Prop} {es : List (Str × Str)}
    (h1 : dget t (manPath py!"manifest" py!"md5") = some (.file (es.map (fun ph => hashLine ph.2 ph.1)).flatten))
    (h2 : dget t (manPath py!"manifest" py!"sha256") = none)
    (h3 : ∀ a ∈ renv.base.algs, dget t (manPath py!"tagmanifest" a) = none)
    (h4 : ∀ e ∈ es, isPayload e.1 = true ∧ PlainLine e.2 e.1 ∧ safe e.1)
    (h5 : (dkeys es).Nodup) : Tidy safe renv.base.algs (· = py!"md5") t := by
  have hno : ∀ kind a, dget t (manPath kind a) = none → t.read (manPath kind a) = none := by
    intro kind a e
    rw [Tree.read, e]
  constructor
  · refine tidyKind_written (fun _ => es) ?_ ?_ ?_ ?_ ?_
    · rintro a _ rfl
      exact h1
    · intro a ha hn
      have : a = py!"md5" ∨ a = py!"sha256" := by revert a; decide
      rcases this with rfl | rfl
      · exact absurd rfl hn
      · exact h2
    · exact fun _ _ _ => h4
    · exact fun _ _ _ => h5
    · exact fun _ _ _ _ _ _ p h => h
  · have hr : ∀ a ∈ renv.base.algs, t.read [py!"tagmanifest" ++ '-' :: a ++ py!".txt"] = none := fun a ha => hno _ a (h3 a ha)
    have hf : ∀ a ∈ renv.base.algs, ¬ t.isfile [py!"tagmanifest" ++ '-' :: a ++ py!".txt"] = true := by
      intro a ha hf
      obtain ⟨c, hc⟩ := isfile_iff.1 hf
      have := h3 a ha
      unfold manPath at this
      rw [this] at hc; cases hc
    refine ⟨?_, fun a ha h => absurd h (hf a ha), fun a ha _ _ h => absurd h (hf a ha), ?_, ?_, ?_⟩
    · intro a ha
      rw [Bool.eq_false_iff]
      intro hd
      rcases isdir_iff.1 hd with e | e
      · cases e
      · have := h3 a ha
        unfold manPath at this
        rw [this] at e; cases e
    · rintro a ha p h ⟨text, line, e, _⟩
      rw [hr a ha] at e; cases e
    · intro a ha text e
      rw [hr a ha] at e; cases e
    · rintro a ha _ _ _ p h ⟨text, line, e, _⟩
      rw [hr a ha] at e; cases e

theorem names_of_check {t : Tree}
    (h : ∀ e ∈ t, e.1.head? = some py!"data" ∨ e.2 = .dir ∨
      ((∀ c ∈ joinPath e.1, isSpace c = false ∧ isNl c = false ∧ c ≠ '*' ∧ c ≠ '%') ∧
        isDangerous renv.base.env renv.base.bagpath (joinPath e.1) = false)) (hw : WfTree t) :
    ∀ p, t.isfile p = true → p.head? ≠ some py!"data" → PlainPath (joinPath p) ∧ AtDest renv (joinPath p) := by
  intro p hf hd
  obtain ⟨c, hc⟩ := isfile_iff.1 hf
  have hm := mem_of_dget hc
  rcases h _ hm with e | e | ⟨e1, e2⟩
  · exact absurd e hd
  · cases e
  · refine ⟨⟨⟨p, hw.good _ (mem_dkeys_iff.2 ⟨_, hc⟩), rfl⟩, ?_, fun x hx => (e1 x hx).2.1, ?_, fun hx => (e1 _ hx).2.2.2 rfl⟩, e2⟩
    · exact ⟨fun x hx => (e1 x (List.mem_of_mem_head? hx)).1, fun x hx => (e1 x (List.mem_of_getLast? hx)).1⟩
    · intro hx
      exact (e1 _ (List.mem_of_mem_head? hx)).2.2.1 rfl

theorem hex_sum : HexDigest Sample.sum := by
  intro a c
  refine ⟨by simp [Sample.sum], fun x hx => ?_⟩
  unfold Sample.sum at hx
  rcases List.mem_cons.1 hx with rfl | hx
  · decide
  · have hd := isDigit_natStr hx
    have hn : ∀ n : Fin 128, (Char.ofNat n).isDigit = true → Char.ofNat n ∈ py!"0123456789abcdef" := by decide
    have hb : x.toNat < 128 := by
      simp only [Char.isDigit, ge_iff_le, Bool.and_eq_true, decide_eq_true_eq] at hd
      have : x.val.toNat ≤ 57 := hd.2
      show x.val.toNat < 128
      omega
    have := hn ⟨x.toNat, hb⟩
    simp only [Char.ofNat_toNat] at this
    exact this hd

theorem renv_fits : EnvFits renv where
  utf := renv_utf
  algs := by decide
  sums := hex_sum
  info := by unfold AtDest; decide +kernel
  manifests := by
    intro a ha
    have : a = py!"md5" ∨ a = py!"sha256" := by revert a; decide
    rcases this with rfl | rfl
    · exact ⟨(plain_line_of_check (h := py!"a") (q := [py!"manifest-md5.txt"]) (by decide)).path, by unfold AtDest; decide +kernel⟩
    · exact ⟨(plain_line_of_check (h := py!"a") (q := [py!"manifest-sha256.txt"]) (by decide)).path, by unfold AtDest; decide +kernel⟩

theorem fits_m1 : Fits renv (· = py!"md5") ⟨py!"/store/m1", m1⟩ where
  opens := by
    obtain ⟨b, h1, h2⟩ := ok_of_check (r := openBag { renv.base with bagpath := py!"/store/m1" } m1)
      (f := fun b => decide (b.tagFile = py!"bag-info.txt")) (by decide +kernel)
    exact ⟨b, h1, by simpa using h2⟩
  tidy := by
    refine tidy_of_lines (es := m1Lines) rfl rfl (by decide) ?_ (by decide)
    intro e he
    have : e = (py!"data/a", py!"d3") ∨ e = (py!"data/b", py!"d2") ∨ e = (py!"data/x/d", py!"d4") := by
      simpa [m1Lines] using he
    rcases this with rfl | rfl | rfl
    · exact ⟨rfl, plain_line_of_check (q := [py!"data", py!"a"]) (by decide), by unfold AtDest; decide +kernel⟩
    · exact ⟨rfl, plain_line_of_check (q := [py!"data", py!"b"]) (by decide), by unfold AtDest; decide +kernel⟩
    · exact ⟨rfl, plain_line_of_check (q := [py!"data", py!"x", py!"d"]) (by decide), by unfold AtDest; decide +kernel⟩
  names := names_of_check (by decide +kernel) wf_m1

theorem fits_hb : Fits renv (· = py!"md5") ⟨head.path, head.tree⟩ where
  opens := by
    obtain ⟨b, h1, h2⟩ := ok_of_check (r := openBag { renv.base with bagpath := py!"/store/hb" } hb)
      (f := fun b => decide (b.tagFile = py!"bag-info.txt")) (by decide +kernel)
    exact ⟨b, h1, by simpa using h2⟩
  tidy := by
    refine tidy_of_lines (es := hbLines) rfl rfl (by decide) ?_ (by decide)
    intro e he
    have : e = (py!"data/a", py!"d4") := by simpa [hbLines] using he
    subst this
    exact ⟨rfl, plain_line_of_check (q := [py!"data", py!"a"]) (by decide), by unfold AtDest; decide +kernel⟩
  names := names_of_check (by decide +kernel) wf_hb

end Sample

/-- The sample meets the hypotheses of `C83_restore_succeeds`, whatever is asked for. -/
example (us rm : Bool) : ∃ out, restore Sample.renv Sample.head us rm [] = .ok out := by
  refine C83_restore_succeeds Sample.renv_ok Sample.renv_fits Sample.aggregation Sample.clash_sample (A := (· = py!"md5")) ?_
    (deleted := [py!"data/x"]) rfl ?_ ?_ (fun _ => rfl) (.inl ⟨by decide, rfl⟩)
  · intro s hs
    simp only [List.cons_append, List.nil_append, List.mem_cons, List.not_mem_nil, or_false] at hs
    rcases hs with rfl | rfl
    · exact Sample.fits_m1
    · exact Sample.fits_hb
  · rintro p hp ⟨q, h1, h2, h3⟩
    have hx : ∃ x, p = [x] ∧ x.head? ≠ some 'd' := by
      rcases hp with rfl | rfl | ⟨a, rfl | rfl⟩ <;> exact ⟨_, rfl, by simp⟩
    obtain ⟨x, rfl, hx⟩ := hx
    cases q with
    | nil => exact h1 rfl
    | cons y q =>
      obtain ⟨rfl, h2'⟩ := List.cons_prefix_cons.1 h2
      rw [List.prefix_nil.1 h2', show joinPath [y] = y from rfl, List.mem_singleton] at h3
      subst h3
      exact hx rfl
  · intro c hc
    have : c = py!"Contact-Name: Jo\nMultibag-Version: 0.4\n" := by
      have : Sample.head.tree.read aggregationInfo = some py!"Contact-Name: Jo\nMultibag-Version: 0.4\n" := rfl
      rw [this] at hc; exact (Option.some.inj hc).symm
    subst this
    exact ⟨_, rfl⟩

namespace Sample

/-- The sample head bag with its multibag tag files in a directory of another name. -/
def elsewhere : Tree :=
  [([py!"bagit.txt"], .file bagitText),
   ([py!"bag-info.txt"], .file py!"Multibag-Version: 0.4\nMultibag-Head-Version: 2\nMultibag-Tag-Directory: mbag\n"),
   ([py!"data"], .dir), ([py!"data", py!"a"], .file py!"new!"),
   ([py!"manifest-md5.txt"], .file py!"d4 data/a\n"),
   ([py!"mbag"], .dir), ([py!"mbag", py!"member-bags.tsv"], .file py!"m1\nhb\n")]

def elsewhereHead : RHead :=
  { head with tree := elsewhere, info := hbInfo ++ [(py!"Multibag-Tag-Directory", .one py!"mbag")] }

end Sample

/-- C52 is false of the code, even for member bags that fit: where the head bag names another directory for the multibag tag files, the files of
all member bags are put in place, and then restoring fails because the directory `multibag` cannot be removed. -/
theorem C52_fitting_negation : ∃ (E : RestoreEnv) (H : RHead) (srcs : List RSource),
    EnvOk E ∧ EnvFits E ∧ Aggregation E H srcs ∧ NoClash (memberTrees H srcs) ∧
    (∀ s ∈ srcs ++ [⟨H.path, H.tree⟩], Fits E (· = py!"md5") s) ∧
    (∃ b, openBag { E.base with bagpath := H.path } H.tree = .ok b ∧ b.info = H.info) ∧
    H.tree.isdir [py!"mbag"] = true ∧ dget H.info py!"Multibag-Tag-Directory" = some (.one py!"mbag") ∧
    iterDeleted H.mode H.tree H.info = .ok [] ∧ StartsFrom E H [] ∧
    (∀ us, restore E H us true [] = .error .osError) ∧ ∀ us, ∃ out, restore E H us false [] = .ok out := by
  have hw : WfTree Sample.elsewhere := Sample.wf_of_check (by decide)
  have hA : Aggregation Sample.renv Sample.elsewhereHead [⟨py!"/store/m1", Sample.m1⟩] := by
    refine ⟨⟨_, [py!"m1"], rfl, .inl rfl, .cons rfl .nil⟩, hw, ?_, by decide⟩
    intro s hs
    rw [List.mem_singleton] at hs
    subst hs
    exact Sample.wf_m1
  refine ⟨Sample.renv, Sample.elsewhereHead, [⟨py!"/store/m1", Sample.m1⟩], Sample.renv_ok, Sample.renv_fits, hA,
    Sample.clash_of_check (by decide), ?_, ?_, rfl, rfl, rfl, .inl ⟨by decide, rfl⟩, ?_, ?_⟩
  · intro s hs
    simp only [List.cons_append, List.nil_append, List.mem_cons, List.not_mem_nil, or_false] at hs
    rcases hs with rfl | rfl
    · exact Sample.fits_m1
    refine ⟨?_, ?_, Sample.names_of_check (by decide +kernel) hw⟩
    · obtain ⟨b, h1, h2⟩ := Sample.ok_of_check (r := openBag { Sample.renv.base with bagpath := py!"/store/hb" } Sample.elsewhere)
        (f := fun b => decide (b.tagFile = py!"bag-info.txt")) (by decide +kernel)
      exact ⟨b, h1, by simpa using h2⟩
    · refine Sample.tidy_of_lines (es := Sample.hbLines) rfl rfl (by decide) ?_ (by decide)
      intro e he
      have : e = (py!"data/a", py!"d4") := by simpa [Sample.hbLines] using he
      subst this
      exact ⟨rfl, Sample.plain_line_of_check (q := [py!"data", py!"a"]) (by decide), by unfold AtDest; decide +kernel⟩
  · obtain ⟨b, h1, h2⟩ := Sample.ok_of_check (r := openBag { Sample.renv.base with bagpath := py!"/store/hb" } Sample.elsewhere)
      (f := fun b => decide (b.info = Sample.elsewhereHead.info)) (by decide +kernel)
    exact ⟨b, h1, by simpa using h2⟩
  · intro us
    cases us <;> rfl
  · intro us
    have : ∃ out, restore Sample.renv Sample.elsewhereHead us false [] = .ok out ∧ (fun _ => true) out = true :=
      Sample.ok_of_check (by cases us <;> decide +kernel)
    obtain ⟨out, h, _⟩ := this
    exact ⟨out, h⟩

end Verif
