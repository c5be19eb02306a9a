import Verif.Props.RestoreOk
import Verif.Props.SplitValid
import Verif.Props.RestoreInfo
/-!
# The checksums of a restored bag are right
-/

namespace Verif

open Spec

/-- What the end of a restore leaves alone. -/
theorem finishRestore_frame {E : RestoreEnv} {us rm : Bool} {d out : Tree} (h : finishRestore E us rm d = .ok out)
    {p : Path} (h1 : p ≠ [py!"bag-info.txt"]) (h2 : p ≠ [py!"package-info.txt"]) (h3 : ∀ a, p ≠ manPath py!"tagmanifest" a)
    (h4 : ¬ [py!"multibag"] <+: p) : dget out p = dget d p := by
  unfold finishRestore at h
  cases hb : openBag E.base d with
  | error e => rw [hb] at h; cases h
  | ok b =>
    rw [hb] at h
    simp only at h
    obtain ⟨hbt, hbl, htf, _⟩ := openBag_parts hb
    have hb0 : SaveOk E b := ⟨tagFileName_cases htf, algorithms_sub hbl⟩
    have hns : ∀ b : RBag, TagName b.tagFile → ¬ Saved b p := by
      rintro b hbt (e | ⟨a, e⟩)
      · rcases hbt with h | h <;> rw [h] at e
        · exact h1 e
        · exact h2 e
      · exact h3 a e
    cases e1 : (if rm = true then removeTags E b else .ok b) with
    | error e => rw [e1] at h; cases h
    | ok b1 =>
      rw [e1] at h
      simp only at h
      have r1 : SaveOk E b1 ∧ dget b1.tree p = dget d p := by
        by_cases hr : rm = true
        · rw [if_pos hr] at e1
          unfold removeTags at e1
          cases ht : b.tree.rmtree [py!"multibag"] with
          | error e => rw [ht] at e1; cases e1
          | ok t =>
            rw [ht] at e1
            simp only at e1
            have hs : SaveOk E { b with tree := t, info := multibagKeys.foldl ddel b.info } := ⟨hb0.tag, hb0.algs⟩
            obtain ⟨s1, _, _, s4, _⟩ := saveBag_spec e1 hs
            refine ⟨s1, ?_⟩
            rw [s4 p (hns _ hs.tag), rmtree_dget ht, if_neg (fun hx => h4 (List.isPrefixOf_iff_prefix.1 hx)), hbt]
        · rw [if_neg hr] at e1
          cases e1
          exact ⟨hb0, by rw [hbt]⟩
      obtain ⟨k1, k2⟩ := r1
      cases e2 : (if us = true then updateSizes E b1 else .ok b1) with
      | error e => rw [e2] at h; cases h
      | ok b2 =>
        rw [e2] at h
        cases h
        rw [← k2]
        by_cases hu : us = true
        · rw [if_pos hu] at e2
          unfold updateSizes at e2
          cases e3 : saveBag E { b1 with info := dset b1.info py!"Payload-Oxum" (.one (oxumText E.blen b1.tree)) } with
          | error e => rw [e3] at e2; cases e2
          | ok b3 =>
            rw [e3] at e2
            simp only at e2
            obtain ⟨s1, _, _, s4, _⟩ := saveBag_spec e3 ⟨k1.tag, k1.algs⟩
            obtain ⟨_, _, _, u4, _⟩ := saveBag_spec e2 ⟨s1.tag, s1.algs⟩
            rw [u4 p (hns _ s1.tag), s4 p (hns _ k1.tag)]
        · rw [if_neg hu] at e2
          cases e2
          rfl

/-- What saving a bag leaves alone. -/
theorem saveBag_frame {E : RestoreEnv} {b b' : RBag} (h : saveBag E b = .ok b') (hb : ∀ a ∈ b.algorithms, a ∈ E.base.algs)
    {p : Path} (h1 : p ≠ [b.tagFile]) (h2 : ∀ a ∈ E.base.algs, p ≠ manPath py!"tagmanifest" a) :
    dget b'.tree p = dget b.tree p := by
  unfold saveBag at h
  cases hw : b.tree.write [b.tagFile] (fieldsText (tagFields b.info)) with
  | error e => rw [hw] at h; cases h
  | ok t =>
    rw [hw] at h
    simp only at h
    cases ht : writeTagManifests E.sum b.algorithms t with
    | error e => rw [ht] at h; cases h
    | ok t' =>
      rw [ht] at h
      simp only at h
      cases hl : loadManifests E.base b.version b.encoding t' with
      | error e => rw [hl] at h; cases h
      | ok r =>
        rw [hl] at h
        cases h
        simp only
        rw [(writeTagManifests_ok ht).1 p (fun a ha => h2 a (hb a ha))]
        unfold Tree.write at hw
        split at hw
        · cases hw
        · cases hw
          rw [dget_dset, if_neg (fun e => h1 e.symm)]

/-- What the end of a restore leaves alone, if the metadata file is `bag-info.txt`. -/
theorem finishRestore_only {E : RestoreEnv} {us rm : Bool} {d out : Tree} (h : finishRestore E us rm d = .ok out)
    {b : RBag} (hb : openBag E.base d = .ok b) (htag : b.tagFile = py!"bag-info.txt")
    {p : Path} (h1 : p ≠ [py!"bag-info.txt"]) (h3 : ∀ a ∈ E.base.algs, p ≠ manPath py!"tagmanifest" a)
    (h4 : ¬ [py!"multibag"] <+: p) : dget out p = dget d p := by
  unfold finishRestore at h
  rw [hb] at h
  simp only at h
  obtain ⟨hbt, hbl, htf, _⟩ := openBag_parts hb
  have hb0 : SaveOk E b := ⟨tagFileName_cases htf, algorithms_sub hbl⟩
  cases e1 : (if rm = true then removeTags E b else .ok b) with
  | error e => rw [e1] at h; cases h
  | ok b1 =>
    rw [e1] at h
    simp only at h
    have r1 : SaveOk E b1 ∧ b1.tagFile = py!"bag-info.txt" ∧ dget b1.tree p = dget d p := by
      by_cases hr : rm = true
      · rw [if_pos hr] at e1
        unfold removeTags at e1
        cases ht : b.tree.rmtree [py!"multibag"] with
        | error e => rw [ht] at e1; cases e1
        | ok t =>
          rw [ht] at e1
          simp only at e1
          have hs : SaveOk E { b with tree := t, info := multibagKeys.foldl ddel b.info } := ⟨hb0.tag, hb0.algs⟩
          obtain ⟨s1, s2, _⟩ := saveBag_spec e1 hs
          refine ⟨s1, s2.trans htag, ?_⟩
          rw [saveBag_frame e1 hs.algs (by simpa [htag] using h1) h3]
          simp only
          rw [rmtree_dget ht, if_neg (fun hx => h4 (List.isPrefixOf_iff_prefix.1 hx)), hbt]
      · rw [if_neg hr] at e1
        cases e1
        exact ⟨hb0, htag, by rw [hbt]⟩
    obtain ⟨k1, kt, k2⟩ := r1
    cases e2 : (if us = true then updateSizes E b1 else .ok b1) with
    | error e => rw [e2] at h; cases h
    | ok b2 =>
      rw [e2] at h
      cases h
      rw [← k2]
      by_cases hu : us = true
      · rw [if_pos hu] at e2
        unfold updateSizes at e2
        cases e3 : saveBag E { b1 with info := dset b1.info py!"Payload-Oxum" (.one (oxumText E.blen b1.tree)) } with
        | error e => rw [e3] at e2; cases e2
        | ok b3 =>
          rw [e3] at e2
          simp only at e2
          obtain ⟨s1, s2, _⟩ := saveBag_spec e3 ⟨k1.tag, k1.algs⟩
          rw [saveBag_frame e2 s1.algs (by simpa [s2, kt] using h1) h3, saveBag_frame e3 k1.algs (by simpa [kt] using h1) h3]
      · rw [if_neg hu] at e2
        cases e2
        rfl

/-- Without removing them, the end of a restore leaves the multibag tag files alone. -/
theorem finishRestore_below {E : RestoreEnv} {us rm : Bool} {d out : Tree} (h : finishRestore E us rm d = .ok out)
    {p : Path} (hp : [py!"multibag"] <+: p) (hrm : rm = false) : dget out p = dget d p := by
  subst hrm
  have hns : ∀ b : RBag, TagName b.tagFile → ¬ Saved b p := by
    obtain ⟨x, rfl⟩ := hp
    rintro b hbt (e | ⟨a, e⟩)
    · rcases hbt with h | h <;> rw [h] at e <;> simp at e
    · unfold manPath at e; simp at e
  unfold finishRestore at h
  cases hb : openBag E.base d with
  | error e => rw [hb] at h; cases h
  | ok b =>
    rw [hb] at h
    simp only [Bool.false_eq_true, if_false] at h
    obtain ⟨hbt, hbl, htf, _⟩ := openBag_parts hb
    have k1 : SaveOk E b := ⟨tagFileName_cases htf, algorithms_sub hbl⟩
    cases e2 : (if us = true then updateSizes E b else .ok b) with
    | error e => rw [e2] at h; cases h
    | ok b2 =>
      rw [e2] at h
      cases h
      rw [← hbt]
      by_cases hu : us = true
      · rw [if_pos hu] at e2
        unfold updateSizes at e2
        cases e3 : saveBag E { b with info := dset b.info py!"Payload-Oxum" (.one (oxumText E.blen b.tree)) } with
        | error e => rw [e3] at e2; cases e2
        | ok b3 =>
          rw [e3] at e2
          simp only at e2
          obtain ⟨s1, _, _, s4, _⟩ := saveBag_spec e3 ⟨k1.tag, k1.algs⟩
          obtain ⟨_, _, _, u4, _⟩ := saveBag_spec e2 ⟨s1.tag, s1.algs⟩
          rw [u4 p (hns _ s1.tag), s4 p (hns _ k1.tag)]
      · rw [if_neg hu] at e2
        cases e2
        rfl

/-- Writing manifests removes no file. -/
theorem writeManifests_keeps {m : ByAlg} {d d' : Tree} (h : writeManifests d m = .ok d') {p : Path}
    (hp : d.isfile p = true) : d'.isfile p = true := by
  have hw : ∀ {t t' : Tree} {q : Path} {c : Str}, t.write q c = .ok t' → t.isfile p = true → t'.isfile p = true := by
    intro t t' q c h hf
    obtain ⟨c', hc'⟩ := isfile_iff.1 hf
    rw [isfile_iff, write_ok h, dget_dset]
    by_cases e : q = p
    · rw [if_pos e]; exact ⟨c, rfl⟩
    · rw [if_neg e]; exact ⟨c', hc'⟩
  have hw1 : ∀ {t t' : Tree} {kind alg : Str} {es : List (Str × Str)}, writeManifest t kind alg es = .ok t' → t.isfile p = true → t'.isfile p = true := by
    intro t t' kind alg es h hf
    unfold writeManifest at h
    split at h
    · cases h; exact hf
    · exact hw h hf
  induction m generalizing d with
  | nil => cases h; exact hp
  | cons e m ih =>
    obtain ⟨alg, ps⟩ := e
    simp only [writeManifests] at h
    cases h1 : writeManifest d py!"manifest" alg (ps.filter (fun ph => startsWith py!"data/" ph.1)) with
    | error e => rw [h1] at h; cases h
    | ok d1 =>
      rw [h1] at h
      simp only at h
      cases h2 : writeManifest d1 py!"tagmanifest" alg (ps.filter (fun ph => !startsWith py!"data/" ph.1)) with
      | error e => rw [h2] at h; cases h
      | ok d2 =>
        rw [h2] at h
        exact ih h (hw1 h2 (hw1 h1 hp))

/-- The payload manifests list files of the bag, with the checksums that these have. -/
def Right (E : RestoreEnv) (t : Tree) : Prop :=
  ∀ a ∈ E.base.algs, ∀ p v, Recorded py!"manifest" t a p v → ∃ c, t.read (comps p) = some c ∧ lower v = E.sum a c

/-- Copying one source keeps the checksums right. -/
theorem restoreFrom_right {E : RestoreEnv} (hE : EnvOk E) (hF : EnvFits E) {A : Str → Prop} {ts : List Tree}
    (hc : NoClash ts) (hts : ∀ t ∈ ts, Tidy (AtDest E) E.base.algs A t ∧ TagInfoOk t ∧ WfTree t)
    {src : RSource} (hin : src.tree ∈ ts) (hp : src.path ≠ E.base.bagpath)
    {skip : List Str} (he : [] ∉ skip) (hkeep : ∀ p, ManifestFile p → ¬ Deleted skip p)
    (hsS : Sums E.base.algs A src.tree) (hsR : Right E src.tree)
    {d d' : Tree} (hd : Ready E A ts d) (hdS : Sums E.base.algs A d) (hdR : Right E d)
    (hdel : ∀ a ∈ E.base.algs, dget d (manPath py!"manifest" a) = none → src.tree.isfile (manPath py!"manifest" a) = true →
      ∀ p, GoodPath p → isPayload (joinPath p) = true → src.tree.isfile p = true → ¬ Deleted skip p)
    (h : restoreFrom E src skip false d = .ok d') :
    Right E d' ∧ ∀ a ∈ E.base.algs, d.isfile (manPath py!"manifest" a) = true ∨ src.tree.isfile (manPath py!"manifest" a) = true →
      d'.isfile (manPath py!"manifest" a) = true := by
  have hw := (hts _ hin).2.2
  have hwalk := hE.walk _ hw
  have hacts := actsOf_ok hw hwalk he
  have hcl := hd.noclash hc hts hin
  obtain ⟨sb, s, hb, hr, hu⟩ := restoreFrom_parts h hp
  have hcop : ∀ p, p ≠ [] → (dget d p ≠ none → dget s.dest p = dget d p) ∧
      (dget d p = none → Deleted skip p → dget s.dest p = none) ∧
      (dget d p = none → ¬ Deleted skip p → dget s.dest p = dget src.tree p) := by
    intro p hne
    rw [runActs_ok hacts hr hne]
    exact actEffect_copied hw hwalk he hne _
  have hmne : ∀ a, manPath py!"manifest" a ≠ [] := fun a => by simp [manPath]
  have hoc : Orderly E.base.algs s.dest := by
    have hman : ∀ kind a, (kind = py!"manifest" ∨ kind = py!"tagmanifest") →
        s.dest.read (manPath kind a) = d.read (manPath kind a) ∨ s.dest.read (manPath kind a) = src.tree.read (manPath kind a) := by
      intro kind a hk
      have hne : manPath kind a ≠ [] := by simp [manPath]
      have hm : ManifestFile (manPath kind a) := by
        rcases hk with rfl | rfl
        · exact (manPath_manifestFile a).1
        · exact (manPath_manifestFile a).2
      by_cases hx : dget d (manPath kind a) = none
      · exact .inr (read_of_dget ((hcop _ hne).2.2 hx (hkeep _ hm)))
      · exact .inl (read_of_dget ((hcop _ hne).1 hx))
    constructor
    · intro a haa p h' hrec
      rcases hman _ a (.inl rfl) with e | e
      · exact hdS.orderly.payload a haa p h' ((recorded_of_read e).1 hrec)
      · exact hsS.orderly.payload a haa p h' ((recorded_of_read e).1 hrec)
    · intro a haa p h' hrec
      rcases hman _ a (.inr rfl) with e | e
      · exact hdS.orderly.tag a haa p h' ((recorded_of_read e).1 hrec)
      · exact hsS.orderly.tag a haa p h' ((recorded_of_read e).1 hrec)
  have hmid : Right E s.dest := by
    intro a ha p v hrec
    by_cases hx : dget d (manPath py!"manifest" a) = none
    · have e := (hcop _ (hmne a)).2.2 hx (hkeep _ (manPath_manifestFile a).1)
      have hrs := (recorded_of_read (read_of_dget e)).1 hrec
      obtain ⟨c, hc1, hc2⟩ := hsR a ha p v hrs
      obtain ⟨hpay, hpl⟩ := hsS.orderly.payload a ha p v hrs
      obtain ⟨q, hg, rfl⟩ := hpl.path.path
      have hcq : comps (joinPath q) = q := comps_joinPath hg
      change src.tree.read (comps (joinPath q)) = some c at hc1
      rw [hcq] at hc1
      refine ⟨c, ?_, hc2⟩
      change s.dest.read (comps (joinPath q)) = some c
      rw [hcq]
      have hfile := isfile_of_read hc1
      have hmf : src.tree.isfile (manPath py!"manifest" a) = true := by
        obtain ⟨text, line, h1, _⟩ := hrs
        exact isfile_of_read h1
      have hA : A a := Classical.byContradiction (fun hn => hsS.only a ha hn _ _ hrs)
      have hno : dget d q = none := by
        cases hq : dget d q with
        | none => rfl
        | some n =>
          cases n with
          | dir => exact absurd ⟨hfile, isdir_iff.2 (.inr hq)⟩ (hcl src.tree (by simp) d (by simp) q)
          | file c' =>
            obtain ⟨v', hv'⟩ := hdS.listed q hg hpay (isfile_iff.2 ⟨_, hq⟩) a ha hA
            exact absurd hx (isfile_of_recorded hv')
      rw [read_of_dget ((hcop q hg.1).2.2 hno (hdel a ha hx hmf q hg hpay hfile)), hc1]
    · have e := (hcop _ (hmne a)).1 hx
      obtain ⟨c, hc1, hc2⟩ := hdR a ha p v ((recorded_of_read (read_of_dget e)).1 hrec)
      refine ⟨c, ?_, hc2⟩
      have hf := isfile_of_read hc1
      have hne := (file_ne_nil hd.wf hf).1
      obtain ⟨c', hc'⟩ := isfile_iff.1 hf
      rw [read_of_dget ((hcop _ hne).1 (by rw [hc']; simp)), hc1]
  have hfm : ∀ a ∈ E.base.algs, d.isfile (manPath py!"manifest" a) = true ∨ src.tree.isfile (manPath py!"manifest" a) = true →
      s.dest.isfile (manPath py!"manifest" a) = true := by
    intro a ha hx
    by_cases hn : dget d (manPath py!"manifest" a) = none
    · rw [isfile_of_dget ((hcop _ (hmne a)).2.2 hn (hkeep _ (manPath_manifestFile a).1))]
      refine hx.resolve_left (fun hf => ?_)
      obtain ⟨c, hcc⟩ := isfile_iff.1 hf
      rw [hn] at hcc; cases hcc
    · rw [isfile_of_dget ((hcop _ (hmne a)).1 hn)]
      cases hq : dget d (manPath py!"manifest" a) with
      | none => exact absurd hq hn
      | some n =>
        cases n with
        | file c => exact isfile_iff.2 ⟨c, hq⟩
        | dir =>
          have := hd.tidy.payload.nodir a ha
          have h2 : d.isdir (manPath py!"manifest" a) = true := isdir_iff.2 (.inr hq)
          unfold manPath at h2
          rw [h2] at this; cases this
  rcases hu with ⟨hu0, rfl⟩ | ⟨hu0, hu⟩
  · exact ⟨hmid, hfm⟩
  · obtain ⟨_, hl, _, _, _, _, _, _, _, _, henc⟩ := openBag_parts hb
    have henc : startsWith py!"UTF" sb.encoding = true := hF.utf _ henc
    have hsl : ∀ {p a c}, isPayload p = true → (sb.entries.look p a = some c ↔ a ∈ E.base.algs ∧ Recorded py!"manifest" src.tree a p c) :=
      fun {p a c} hpay => Orderly.look (cfg := { E.base with bagpath := src.path }) hsS.orderly hb henc hpay
    cases hbd : openBag E.base s.dest with
    | error e => unfold updateManifests at hu; rw [hbd] at hu; cases hu
    | ok b =>
      obtain ⟨_, _, _, _, _, _, _, _, _, _, henc2⟩ := openBag_parts hbd
      have henc2 : startsWith py!"UTF" b.encoding = true := hF.utf _ henc2
      have hes : ∀ e ∈ sb.entries, (dkeys e.2).Nodup := fun e he => ((entries_inv hl).2 e he).2
      obtain ⟨r1, r2⟩ := updateManifests_recorded hbd henc2 hoc hu hes
        (fun p a v hlk => Orderly.plain (cfg := { E.base with bagpath := src.path }) hsS.orderly hb henc hlk)
      refine ⟨?_, fun a ha hx => ?_⟩
      · intro a ha p v hrec
        obtain ⟨hpay, hpl⟩ := r1.payload a ha p v hrec
        obtain ⟨q, hg, rfl⟩ := hpl.path.path
        change isPayload (joinPath q) = true at hpay
        change Recorded py!"manifest" d' a (joinPath q) v at hrec
        change ∃ c, d'.read (comps (joinPath q)) = some c ∧ _
        rw [comps_joinPath hg]
        have hfr : d'.read q = s.dest.read q := by
          refine read_of_dget (updateManifests_frame hu hes ?_)
          have := payload_long hg hpay
          rintro ⟨a, rfl | rfl⟩ <;> simp at this
        rw [hfr]
        rw [r2 a ha _ hpay] at hrec
        split at hrec
        · rename_i hx
          obtain ⟨hup, _⟩ := hx
          rw [runActs_updated hacts hr] at hup
          simp only [List.not_mem_nil, false_or, Bool.false_eq_true] at hup
          obtain ⟨q', hq', hn, hpq⟩ := hup
          have hqa := (file_mem_acts hw hwalk he).1 hq'
          have : q' = q := (slashPath_payload hg (file_ne_nil hw hqa.1) hpay).1 hpq
          subst this
          obtain ⟨c, hc1, hc2⟩ := hsR a ha _ v ((hsl hpay).1 hrec).2
          rw [comps_joinPath hg] at hc1
          exact ⟨c, by rw [read_of_dget ((hcop q' hg.1).2.2 hn hqa.2), hc1], hc2⟩
        · obtain ⟨c, hc1, hc2⟩ := hmid a ha _ v hrec
          rw [comps_joinPath hg] at hc1
          exact ⟨c, hc1, hc2⟩
      · have := hfm a ha hx
        unfold updateManifests at hu
        rw [hbd] at hu
        simp only at hu
        split at hu
        · cases hu
        · exact writeManifests_keeps hu this

/-- Copying several sources keeps the checksums right. -/
theorem restoreList_right {E : RestoreEnv} (hE : EnvOk E) (hF : EnvFits E) {A : Str → Prop} {ts : List Tree}
    (hc : NoClash ts) (hts : ∀ t ∈ ts, Tidy (AtDest E) E.base.algs A t ∧ TagInfoOk t ∧ WfTree t)
    {skip : List Str} (he : [] ∉ skip) (hkeep : ∀ p, (p = [py!"bagit.txt"] ∨ ManifestFile p) → ¬ Deleted skip p)
    {head : Tree} {cfg : ReadCfg} (hk : cfg.knownEncoding = E.base.knownEncoding) {hb : RBag}
    (hopen : openBag cfg head = .ok hb) (htag : hb.tagFile = py!"bag-info.txt")
    {srcs : List RSource} (hs : ∀ s ∈ srcs, Fits E A s ∧ s.tree ∈ ts ∧ s.path ≠ E.base.bagpath)
    (hsr : ∀ s ∈ srcs, Sums E.base.algs A s.tree ∧ Right E s.tree)
    {d d' : Tree} (hd : Ready E A ts d) (hbag : dget d [py!"bagit.txt"] = dget head [py!"bagit.txt"])
    (hdS : Sums E.base.algs A d) (hdR : Right E d) (hdm : ∀ a ∈ E.base.algs, A a → d.isfile (manPath py!"manifest" a) = true)
    (h : restoreList E skip srcs d = .ok d') :
    Right E d' ∧ Sums E.base.algs A d' ∧ ∀ a ∈ E.base.algs, A a → d'.isfile (manPath py!"manifest" a) = true := by
  induction srcs generalizing d with
  | nil => cases h; exact ⟨hdR, hdS, hdm⟩
  | cons s srcs ih =>
    obtain ⟨h1, h2, h3⟩ := hs s List.mem_cons_self
    obtain ⟨k1, k2⟩ := hsr s List.mem_cons_self
    obtain ⟨d1, e1, r1, b1⟩ := restoreFrom_ready hE hF hc hts h1 h2 h3 he hkeep hk hopen htag hd (.inl hbag)
    simp only [restoreList, e1] at h
    obtain ⟨q1, q2⟩ := restoreFrom_right hE hF hc hts h2 h3 he (fun p hp => hkeep p (.inr hp)) k1 k2 hd hdS hdR (by
      intro a ha hn hf
      have hA : A a := (hts _ h2).1.payload.only a ha hf
      obtain ⟨c, hcc⟩ := isfile_iff.1 (hdm a ha hA)
      rw [hn] at hcc; cases hcc) e1
    have q3 := (restoreFrom_sums hE hF.utf (hts _ h2).2.2 h3 he k1 hdS e1).1
    exact ih (fun s hx => hs s (List.mem_cons_of_mem _ hx)) (fun s hx => hsr s (List.mem_cons_of_mem _ hx)) r1 b1 q3 q1
      (fun a ha hA => q2 a ha (.inl (hdm a ha hA))) h

theorem Right.congr {E : RestoreEnv} {t t' : Tree} (h : Right E t) (hS : Orderly E.base.algs t)
    (e : ∀ a, dget t' (manPath py!"manifest" a) = dget t (manPath py!"manifest" a))
    (e' : ∀ p, GoodPath p → isPayload (joinPath p) = true → dget t' p = dget t p) : Right E t' := by
  intro a ha p v hr
  have hr' := (recorded_of_read (read_of_dget (e a))).1 hr
  obtain ⟨c, h1, h2⟩ := h a ha p v hr'
  refine ⟨c, ?_, h2⟩
  obtain ⟨hpay, hpl⟩ := hS.payload a ha p v hr'
  obtain ⟨q, hg, rfl⟩ := hpl.path.path
  have hcq : comps (joinWith ['/'] q) = q := comps_joinPath hg
  rw [hcq] at h1 ⊢
  rw [read_of_dget (e' q hg hpay), h1]

/-- A valid bag's checksums are right. -/
theorem valid_right {E : RestoreEnv} (hF : EnvFits E) {A : Str → Prop} {s : RSource} (hs : Fits E A s) (hw : WfTree s.tree)
    {hostOk : Str → Bool} {b : RBag} (ho : openBag { E.base with bagpath := s.path } s.tree = .ok b)
    (hv : ValidBag hostOk E.sum E.blen { E.base with bagpath := s.path } b) :
    Sums E.base.algs A s.tree ∧ Right E s.tree := by
  obtain ⟨ht, _, _, _, _, _, _, _, _, _, henc⟩ := openBag_parts ho
  have hu : startsWith py!"UTF" b.encoding = true := hF.utf _ henc
  have hman : ∀ a ∈ E.base.algs, ∀ p v, Recorded py!"manifest" s.tree a p v →
      ∃ line, (a, line) ∈ manifestText { E.base with bagpath := s.path } b.version b.encoding b.tree ∧ Lists line v p := by
    rintro a ha p v ⟨text, line, h1, h2, h3⟩
    refine ⟨line, ?_, h3⟩
    rw [manifestText_kinds hu, ht]
    exact List.mem_append_left _ (mem_kindText.2 ⟨ha, text, h1, h2⟩)
  refine ⟨⟨⟨?_, ?_⟩, ?_, ?_⟩, ?_⟩
  · intro a ha p h hr
    exact ⟨(hs.tidy.payload.lines a ha p h hr).1, (hs.tidy.payload.lines a ha p h hr).2.1⟩
  · intro a ha p h hr
    exact ⟨(hs.tidy.tag.lines a ha p h hr).1, (hs.tidy.tag.lines a ha p h hr).2.1⟩
  · rintro a ha hA p v ⟨text, line, h1, _⟩
    exact hA (hs.tidy.payload.only a ha (isfile_of_read h1))
  · intro p hg hpay hf a ha hA
    obtain ⟨c, hc⟩ := isfile_iff.1 hf
    have hmem : (p, c) ∈ payload b.tree := by
      rw [ht]
      exact (mem_payload hw).2 ⟨by rw [Tree.read, hc], ((isPayload_iff hg).1 hpay).1⟩
    obtain ⟨alg, line, v, h1, h2⟩ := hv.listed p c hmem
    rw [manifestText_kinds hu, ht] at h1
    rcases List.mem_append.1 h1 with h1 | h1
    · exact hs.tidy.payload.same alg (mem_kindText.1 h1).1 a ha hA _ v (recorded_kindText h1 h2)
    · split at h1
      · cases h1
      · have := (hs.tidy.tag.lines alg (mem_kindText.1 h1).1 _ v (recorded_kindText h1 h2)).1
        rw [hpay] at this; cases this
  · intro a ha p v hr
    obtain ⟨line, h1, h2⟩ := hman a ha p v hr
    have := hv.sums a line v p h1 h2
    rwa [ht] at this

/-! ### Opening the restored bag -/

theorem trimmed_oneLine {v : Str} (h : Trimmed v) : OneLineValue (oneLine v) := by
  have hk : ∀ c, isSpace c = false → (c ≠ '\n' && c ≠ '\r') = true := by
    intro c hc
    simp only [ne_eq, Bool.and_eq_true, decide_eq_true_eq]
    constructor
    · rintro rfl; revert hc; decide
    · rintro rfl; revert hc; decide
  refine ⟨?_, ?_, ?_⟩
  · intro c hc
    unfold oneLine at hc
    have := (List.mem_filter.1 hc).2
    simp only [ne_eq, Bool.and_eq_true, decide_eq_true_eq] at this
    simp [isNl, this.1, this.2]
  · intro c hc
    cases v with
    | nil => cases hc
    | cons x v =>
      have hx := h.1 x rfl
      unfold oneLine at hc
      rw [List.filter_cons, if_pos (hk x hx)] at hc
      cases hc
      exact hx
  · intro c hc
    rcases List.eq_nil_or_concat v with rfl | ⟨l, x, rfl⟩
    · cases hc
    · have hx := h.2 x (by simp)
      unfold oneLine at hc
      rw [List.concat_eq_append, List.filter_append, List.filter_cons, if_pos (hk x hx), List.filter_nil, List.getLast?_concat] at hc
      cases hc
      exact hx

/-- The metadata that is written after restoring can be read. -/
theorem writable_finalInfo {E : RestoreEnv} {us rm : Bool} {info info' : Info} {t : Tree} {l : List (Str × Str)}
    (hl : Writable l) (hi : info = loadTags l) (hsz : ∀ t i, Trimmed (E.sizeText t i))
    (h : finalInfo E us rm info info' t) : ∀ f ∈ tagFields info', LoadedLabel f.1 ∧ OneLineValue f.2 := by
  intro f hf
  obtain ⟨h1, v, hv, e⟩ := mem_tagFields hf
  rw [e]
  have key : LoadedLabel f.1 ∧ Trimmed v := by
    by_cases hx : us = true ∧ f.1 = py!"Bag-Size"
    · obtain ⟨hu, hk⟩ := hx
      unfold finalInfo at h
      simp only [hu, if_true] at h
      obtain ⟨t', i', rfl⟩ := h
      rw [hk] at hv ⊢
      unfold fields at hv
      rw [dget_dset, if_pos rfl] at hv
      have : v = E.sizeText t' i' := by simpa [InfoVal.values] using hv
      subst this
      exact ⟨⟨by decide, by decide, by decide, by unfold Trimmed; decide⟩, hsz _ _⟩
    · rw [fields_finalInfo h (fun hu hk => hx ⟨hu, hk⟩)] at hv
      split at hv
      · rename_i hy
        have : v = oxumText E.blen t := by simpa using hv
        subst this
        rw [hy.2]
        exact ⟨⟨by decide, by decide, by decide, by unfold Trimmed; decide⟩, (oneLine_oxum _ _).2⟩
      · split at hv
        · cases hv
        · rw [hi, fields_loadTags] at hv
          unfold valuesOf at hv
          obtain ⟨g, hg, rfl⟩ := List.mem_map.1 hv
          obtain ⟨hg1, hg2⟩ := List.mem_filter.1 hg
          have : g.1 = f.1 := by simpa using hg2
          rw [← this]
          exact ⟨(hl g hg1).1, (hl g hg1).2.trimmed⟩
  exact ⟨key.1, trimmed_oneLine key.2⟩

theorem parse_finalInfo {fs : List (Str × Str)} (h : ∀ f ∈ fs, LoadedLabel f.1 ∧ OneLineValue f.2) :
    parseTags .universal (fieldsText fs) = .ok fs := by
  rw [parseTags_refold fs (fun f hf => ⟨(h f hf).1, (h f hf).2.foldable⟩)]
  congr 1
  conv => rhs; rw [← List.map_id fs]
  refine List.map_congr_left (fun f hf => ?_)
  rw [(h f hf).2.reread]
  rfl

end Verif
