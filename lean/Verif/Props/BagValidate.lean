import Verif.Props.Apply
import Verif.Lemmas.Restore
import Verif.Props.ReadBag
import Verif.Spec.BagValidate
/-!
# C80: when a bag is valid
-/

namespace Verif

open Spec

theorem isfile_of_read {t : Tree} {p : Path} {c : Str} (h : t.read p = some c) : t.isfile p = true := by
  rw [isfile_read, h]; rfl

theorem payload_isPayload {t : Tree} (hw : WfTree t) (hd : t.isdir [py!"data"] = true) {q : Path} {c : Str}
    (h : (q, c) ∈ payload t) : isPayload (joinPath q) = true := by
  obtain ⟨h1, h2⟩ := (mem_payload hw).1 h
  have hg : GoodPath q := by
    obtain ⟨c', hc⟩ := isfile_iff.1 (isfile_of_read h1)
    exact hw.good _ (mem_dkeys_iff.2 ⟨_, hc⟩)
  refine (isPayload_iff hg).2 ⟨h2, ?_⟩
  rintro rfl
  have := isfile_of_read h1
  obtain ⟨c', hc⟩ := isfile_iff.1 this
  rcases isdir_iff.1 hd with e | e
  · simp at e
  · rw [hc] at e; cases e

theorem entries_listed {cfg : ReadCfg} {t : Tree} {b : RBag} (h : openBag cfg t = .ok b) {p : Str} :
    p ∈ dkeys b.entries ↔ Listed cfg b p := by
  obtain ⟨ht, hm, _⟩ := openBag_parts h
  obtain ⟨hn, hi⟩ := entries_inv hm
  have hl := C70_loads hm
  unfold Listed
  rw [ht]
  constructor
  · intro hp
    obtain ⟨hs, hmem⟩ := mem_dkeys_iff.1 hp
    replace hmem := mem_of_dget hmem
    obtain ⟨hne, _⟩ := hi _ hmem
    cases hs with
    | nil => exact absurd rfl hne
    | cons ah hs =>
      obtain ⟨line, h1, h2⟩ := (hl p ah.1 ah.2).1 ((mem_entries_look hn hi).1 ⟨_, hmem, List.mem_cons_self⟩)
      exact ⟨_, _, _, h1, h2⟩
  · rintro ⟨alg, line, c, h1, h2⟩
    obtain ⟨hs, h3, _⟩ := (mem_entries_look hn hi).2 ((hl p alg c).2 ⟨line, h1, h2⟩)
    exact mem_dkeys_iff.2 ⟨hs, dget_of_mem hn h3⟩

theorem mem_payloadFiles {t : Tree} (hw : WfTree t) (hd : t.isdir [py!"data"] = true) {p : Str} :
    p ∈ payloadFiles t ↔ ∃ q c, (q, c) ∈ payload t ∧ p = joinPath q := by
  have hdata : ∀ c, ([py!"data"], Node.file c) ∉ t := by
    intro c hm
    have := dget_of_mem hw.nodup hm
    rcases isdir_iff.1 hd with e | e
    · simp at e
    · rw [this] at e; cases e
  unfold payloadFiles payload
  simp only [List.mem_filterMap]
  constructor
  · rintro ⟨⟨q, n⟩, hm, he⟩
    cases n with
    | dir => cases he
    | file c =>
      simp only at he
      split at he
      · next hq =>
        cases he
        simp only [Bool.and_eq_true, decide_eq_true_eq] at hq
        exact ⟨q, c, ⟨(q, .file c), hm, by simp [hq.1]⟩, rfl⟩
      · cases he
  · rintro ⟨q, c, ⟨⟨q', n⟩, hm, he⟩, rfl⟩
    cases n with
    | dir => cases he
    | file c' =>
      simp only at he
      split at he
      · next hq =>
        cases he
        refine ⟨(q, .file c), hm, ?_⟩
        simp only
        rw [if_pos]
        simp only [Bool.and_eq_true, decide_eq_true_eq]
        refine ⟨hq, fun hl => ?_⟩
        match q, hl, hq with
        | [x], _, hq =>
          simp only [List.head?_cons, Option.some.injEq] at hq
          subst hq
          exact hdata c hm
      · cases he

theorem checkUrls_iff {hostOk : Str → Bool} {l : List (Str × Str × Str)} :
    checkUrls hostOk l = .ok () ↔
      ∀ e ∈ l, ∃ scheme netloc, urlparse hostOk e.1 = .ok (scheme, netloc) ∧ scheme ≠ [] ∧ netloc ≠ [] := by
  induction l with
  | nil => simp [checkUrls]
  | cons e l ih =>
    obtain ⟨u, s, f⟩ := e
    unfold checkUrls
    simp only [List.mem_cons, forall_eq_or_imp]
    cases hu : urlparse hostOk u with
    | error x => simp
    | ok r =>
      obtain ⟨sc, nl⟩ := r
      simp only [Except.ok.injEq, Prod.mk.injEq]
      by_cases hc : sc = [] ∨ nl = []
      · rw [if_pos (by simpa using hc)]
        simp only [reduceCtorEq, false_iff, not_and]
        rintro ⟨a, b, ⟨rfl, rfl⟩, h1, h2⟩
        rcases hc with hc | hc
        · exact absurd hc h1
        · exact absurd hc h2
      · rw [if_neg (by simpa using hc), ih]
        simp only [not_or] at hc
        constructor
        · exact fun h => ⟨⟨sc, nl, ⟨rfl, rfl⟩, hc.1, hc.2⟩, h⟩
        · exact fun h => h.2

/-- What is read from a fetch file without errors. -/
theorem fetch_ok {cfg : ReadCfg} {t : Tree} (P : Str → Str → Str → Prop) :
    ((fetchEntries cfg t).2 = none ∧ ∀ e ∈ (fetchEntries cfg t).1, P e.1 e.2.1 e.2.2) ↔
      ∀ text, t.read [py!"fetch.txt"] = some text → ∀ line ∈ textLines .universal text,
        ∃ u s f, FetchLine line u s f ∧ isDangerous cfg.env cfg.bagpath f = false ∧ P u s f := by
  cases hr : t.read [py!"fetch.txt"] with
  | none => rw [C75_none hr]; simp
  | some text =>
    obtain ⟨done, rest, he, hf, hc⟩ := C75_fetch (cfg := cfg) hr
    simp only [Option.some.injEq, forall_eq']
    rw [he]
    constructor
    · rintro ⟨h1, h2⟩ line hl
      rcases hc with ⟨_, rfl⟩ | ⟨_, _, _, ⟨h3, _⟩ | ⟨h3, _⟩⟩
      · rw [List.append_nil] at hl
        obtain ⟨r, hr, h4, h5⟩ := forall₂_mem_left hf hl
        exact ⟨_, _, _, h4, h5, h2 r hr⟩
      · rw [h1] at h3; cases h3
      · rw [h1] at h3; cases h3
    · intro h
      constructor
      · rcases hc with ⟨h1, _⟩ | ⟨l, r', rfl, ⟨_, h3⟩ | ⟨_, u, s, f, h3, h4⟩⟩
        · exact h1
        · obtain ⟨u, s, f, h5, _⟩ := h l (by simp)
          exact absurd h5 (h3 u s f)
        · obtain ⟨u', s', f', h5, h6, _⟩ := h l (by simp)
          obtain ⟨_, _, rfl⟩ := C75_unique h3 h5
          rw [h4] at h6; cases h6
      · intro e hm
        obtain ⟨l, hl, h4, h5⟩ := forall₂_mem_right hf hm
        obtain ⟨u', s', f', h6, _, h7⟩ := h l (List.mem_append_left _ hl)
        obtain ⟨rfl, rfl, rfl⟩ := C75_unique h4 h6
        exact h7

theorem oxum_iff {b : RBag} (hw : WfTree b.tree) (hd : b.tree.isdir [py!"data"] = true) (blen : Str → Nat) :
    validateOxum blen b = .ok () ↔ ∀ v, dget b.info py!"Payload-Oxum" = some v → OxumFits blen v b.tree := by
  rw [C72_oxum hw hd]
  unfold OxumFits
  cases hv : dget b.info py!"Payload-Oxum" with
  | none => simp
  | some v =>
    simp only [reduceCtorEq, false_or, Option.some.injEq, forall_eq']
    constructor
    · rintro ⟨v', by', fi, rfl, h⟩; exact ⟨by', fi, h⟩
    · rintro ⟨by', fi, h⟩; exact ⟨v, by', fi, rfl, h⟩

theorem manifestFiles_ne {cfg : ReadCfg} {t : Tree} :
    manifestFiles cfg py!"manifest" t ≠ [] ↔ ∃ a ∈ cfg.algs, t.isfile [py!"manifest-" ++ a ++ py!".txt"] = true := by
  unfold manifestFiles
  rw [ne_eq, List.filter_eq_nil_iff]
  simp only [List.mem_map, forall_exists_index, and_imp, forall_apply_eq_imp_iff₂]
  constructor
  · intro h
    exact Classical.byContradiction fun hc => h fun a ha hf => hc ⟨a, ha, hf⟩
  · rintro ⟨a, ha, hf⟩ h
    exact h a ha hf

/-- **C80**: validating an opened bag succeeds exactly if the bag is valid. -/
theorem C80_valid_iff {cfg : ReadCfg} {t : Tree} {b : RBag} (h : openBag cfg t = .ok b) (hw : WfTree t)
    (hostOk : Str → Bool) (sum : Str → Str → Str) (blen : Str → Nat) :
    bagValidate hostOk sum blen cfg b = .ok () ↔ ValidBag hostOk sum blen cfg b := by
  have ht := (openBag_parts h).1
  have hbt : ∃ text, t.read [py!"bagit.txt"] = some text := by
    obtain ⟨_, _, _, _, tags, v, h1, _⟩ := openBag_parts h
    unfold loadTagFile at h1
    cases hr : t.read [py!"bagit.txt"] with
    | none => rw [hr] at h1; cases h1
    | some x => exact ⟨x, rfl⟩
  obtain ⟨text, hbt⟩ := hbt
  have hlist := fun p => @entries_listed cfg t b h p
  have hsums := C71_checksums h sum
  rw [← ht] at hw hbt hsums
  by_cases hd : b.tree.isdir [py!"data"] = true
  case neg =>
    refine ⟨fun hv => ?_, fun hv => absurd hv.data hd⟩
    unfold bagValidate validateStructure at hv
    rw [if_pos (by simpa using hd)] at hv
    cases hv
  by_cases hm : manifestFiles cfg py!"manifest" b.tree = []
  case pos =>
    refine ⟨fun hv => ?_, fun hv => absurd hm (manifestFiles_ne.2 hv.manifest)⟩
    unfold bagValidate validateStructure at hv
    rw [if_neg (by simp [hd]), if_pos hm] at hv
    cases hv
  have hs : validateStructure cfg b.tree = .ok () := by
    unfold validateStructure
    rw [if_neg (by simp [hd]), if_neg hm, if_neg]
    have : b.tree.exists [py!"bagit.txt"] = true :=
      (exists_iff (by simp)).2 (by
        obtain ⟨c', hc⟩ := isfile_iff.1 (isfile_of_read hbt)
        rw [hc]; simp)
    simp [this]
  have ho := oxum_iff hw hd blen
  have hpf := fun p => @mem_payloadFiles b.tree hw hd p
  have hexp : ∀ p, isPayload p = true → (p ∈ expectedFiles b ↔ Listed cfg b p) := by
    intro p hp
    unfold isPayload at hp
    unfold expectedFiles
    rw [List.mem_append, List.mem_filter]
    constructor
    · rintro (⟨h1, _⟩ | h1)
      · exact (hlist p).1 h1
      · split at h1
        · exact (hlist p).1 (List.mem_filter.1 h1).1
        · cases h1
    · exact fun h1 => .inl ⟨(hlist p).2 h1, hp⟩
  have hpp : ∀ p ∈ payloadFiles b.tree, isPayload p = true := by
    intro p hp
    obtain ⟨q, c, hq, rfl⟩ := (hpf p).1 hp
    exact payload_isPayload hw hd hq
  unfold bagValidate validateBagittxt
  rw [hs, hbt]
  simp only
  by_cases hbom : text.head? = some bom
  · rw [if_pos hbom]
    exact ⟨fun hv => (by cases hv), fun hv => absurd hbom (hv.nobom text hbt)⟩
  rw [if_neg hbom]
  simp only
  unfold validateFetch validateCompleteness
  have hfu := fetch_ok (cfg := cfg) (t := b.tree) (fun u _ f =>
    (∃ scheme netloc, urlparse hostOk u = .ok (scheme, netloc) ∧ scheme ≠ [] ∧ netloc ≠ []) ∧
      Listed cfg b f ∧ isPayload f = true)
  constructor
  · intro hv
    split at hv
    · cases hv
    · next hu =>
      split at hu
      · cases hu
      · next hck =>
        split at hu
        · cases hu
        · next hnone =>
          split at hv
          · cases hv
          · next hox =>
            rw [hnone] at hv
            simp only at hv
            split at hv
            · cases hv
            · next hcomp =>
              split at hcomp
              case isFalse => cases hcomp
              next hall =>
              simp only [Bool.and_eq_true, List.all_eq_true, decide_eq_true_eq] at hall
              obtain ⟨⟨ha1, ha2⟩, ha3⟩ := hall
              refine ⟨hd, manifestFiles_ne.1 hm, ?_, ?_, ho.1 hox, ?_, ?_, hsums.1 hv⟩
              · intro tx htx
                rw [hbt] at htx; cases htx; exact hbom
              · refine hfu.1 ⟨hnone, fun e he => ⟨checkUrls_iff.1 hck e he, ?_⟩⟩
                have h1 := ha3 e he
                have h2 := hpp _ (ha1 _ h1)
                exact ⟨(hexp _ h2).1 h1, h2⟩
              · intro p c hp
                have h1 : joinPath p ∈ payloadFiles b.tree := (hpf _).2 ⟨p, c, hp, rfl⟩
                exact (hexp _ (hpp _ h1)).1 (ha2 _ h1)
              · intro p hl hp
                exact (hpf p).1 (ha1 p ((hexp p hp).2 hl))
  · intro hv
    obtain ⟨hnone, hall⟩ := hfu.2 hv.fetch
    rw [checkUrls_iff.2 (fun e he => (hall e he).1), hnone]
    simp only
    rw [ho.2 hv.oxum]
    simp only
    rw [if_pos, hsums.2 hv.sums]
    simp only [Bool.and_eq_true, List.all_eq_true, decide_eq_true_eq]
    refine ⟨⟨?_, ?_⟩, ?_⟩
    · intro p hp
      unfold expectedFiles at hp
      rcases List.mem_append.1 hp with hp | hp
      · obtain ⟨h1, h2⟩ := List.mem_filter.1 hp
        exact (hpf p).2 (hv.present p ((hlist p).1 h1) h2)
      · split at hp
        · obtain ⟨h1, h2⟩ := List.mem_filter.1 hp
          obtain ⟨alg, line, c, h3, h4⟩ := (hlist p).1 h1
          obtain ⟨content, h5, _⟩ := hv.sums alg line c p h3 h4
          simp only [Bool.and_eq_true, Bool.not_eq_true'] at h2
          have := isfile_of_read h5
          rw [h2.2] at this; cases this
        · cases hp
    · intro p hp
      obtain ⟨q, c, h1, h2⟩ := (hpf p).1 hp
      have := hv.listed q c h1
      rw [← h2] at this
      exact (hexp p (hpp p hp)).2 this
    · intro e he
      obtain ⟨_, h1, h2⟩ := hall e he
      exact (hexp _ h2).2 h1

/-- A sample bag with two payload files and metadata. -/
def Sample.goodTree : Tree := ddel Sample.readTree [py!"fetch.txt"]

/-- The sample bag is valid; it is not any more if a file is added, removed or changed, if the data
directory or the manifests are missing, or if fetch.txt lists a file that is in no manifest. -/
example :
    let verdict := fun t : Tree => match openBag Sample.readCfg t with
      | .ok b => bagValidate (fun _ => true) Sample.sum List.length Sample.readCfg b
      | .error e => .error e
    WfTree Sample.goodTree ∧ verdict Sample.goodTree = .ok () ∧
    verdict (dset Sample.goodTree [py!"data", py!"x"] (.file py!"")) = .error .bagValidationError ∧
    verdict (ddel Sample.goodTree [py!"data", py!"c"]) = .error .bagValidationError ∧
    verdict (dset Sample.goodTree [py!"data", py!"c"] (.file py!"zzz")) = .error .bagValidationError ∧
    verdict (ddel Sample.goodTree [py!"manifest-md5.txt"]) = .error .bagValidationError ∧
    verdict Sample.readTree = .error .bagValidationError :=
  ⟨Sample.wf_of_check (by decide), by decide +kernel, by decide +kernel, by decide +kernel, by decide +kernel,
    by decide +kernel, by decide +kernel⟩

end Verif
