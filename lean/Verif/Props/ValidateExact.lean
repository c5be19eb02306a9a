import Verif.Lemmas.ValidateOk
import Verif.Props.Validate
import Verif.Props.ValidateHead
/-!
# C79: what a head bag must be like to be found valid, and C62: what a member bag must be like
-/

namespace Verif
open Spec

/-- C79: asked for errors only, head bag validation finds a bag valid exactly when it meets the conditions
listed in `HeadConforms`. -/
theorem C79_errors (hostOk : Str → Bool) (b : VBag) :
    isValid (fun w => validateHead hostOk b w none) ERROR = .ok true ↔ HeadConforms hostOk b := by
  unfold isValid
  dsimp only
  rcases validateHead_cases hostOk b ERROR none with ⟨hc, e, _, h⟩ | ⟨hc, l, mem, look, agg, hp, h⟩
  · rw [h]
    exact ⟨fun hx => (by cases hx), fun hx => absurd hc (conforms_nocrash ERROR hx)⟩
  · rw [h]
    have hkey := conforms_iff hp ((requested_error ERROR).mpr rfl) hc
    rw [← hkey]
    dsimp only [Option.getD]
    have : (Except.ok (({ want := ERROR } : Results).add l).ok : Except PyErr Bool) = .ok true ↔
        (({ want := ERROR } : Results).add l).ok = true := ⟨Except.ok.inj, congrArg _⟩
    rw [this, pass_all]
    constructor
    · intro hx i hi ht
      exact hx i hi (Or.inl ht) ((requested_error _).mpr ht)
    · intro hx i hi _ hr
      exact hx i hi ((requested_error _).mp hr)

/-- C79, with the default, errors and warnings: exactly when it moreover meets those of `HeadTidy`. -/
theorem C79_problems (hostOk : Str → Bool) (b : VBag) :
    isValid (fun w => validateHead hostOk b w none) PROB = .ok true ↔ HeadConforms hostOk b ∧ HeadTidy b := by
  unfold isValid
  dsimp only
  rcases validateHead_cases hostOk b PROB none with ⟨hc, e, _, h⟩ | ⟨hc, l, mem, look, agg, hp, h⟩
  · rw [h]
    exact ⟨fun hx => (by cases hx), fun hx => absurd hc (conforms_nocrash PROB hx.1)⟩
  · rw [h]
    have hkey := conforms_iff hp ((requested_prob ERROR).mpr (Or.inl rfl)) hc
    dsimp only [Option.getD]
    have : (Except.ok (({ want := PROB } : Results).add l).ok : Except PyErr Bool) = .ok true ↔
        (({ want := PROB } : Results).add l).ok = true := ⟨Except.ok.inj, congrArg _⟩
    rw [this, pass_all]
    constructor
    · intro hx
      have hE : HeadConforms hostOk b :=
        hkey.mp fun i hi ht => hx i hi (Or.inl ht) ((requested_prob _).mpr (Or.inl ht))
      exact ⟨hE, (tidy_iff hp hE).mp fun i hi ht => hx i hi (Or.inr (Or.inl ht)) ((requested_prob _).mpr (Or.inr ht))⟩
    · rintro ⟨hE, hT⟩ i hi _ hr
      rcases (requested_prob _).mp hr with ht | ht
      · exact hkey.mpr hE i hi ht
      · exact (tidy_iff hp hE).mpr hT i hi ht

theorem passR_rec (b : VBag) (el : Str) : Pass REC (recIssues b el) ↔ lastValue b.info el ≠ [] := by
  rw [lastValue_eq]
  unfold recIssues
  cases dget b.info el with
  | none =>
    dsimp only
    rw [pass_same]
    exact ⟨fun h => absurd h.1 (by decide), fun h => absurd rfl h⟩
  | some v =>
    cases v with
    | one s =>
      dsimp only [InfoVal.values]
      rw [pass_same, decide_eq_true_iff]
      refine ⟨fun h => h.1, fun h => ⟨h, ?_⟩⟩
      split
      · exact pass_nil _
      · rw [pass_other _ _ _ _ _ _ er]; exact pass_nil _
    | many l =>
      dsimp only [InfoVal.values]
      rw [pass_same, decide_eq_true_iff]
      refine ⟨fun h => h.1, fun h => ⟨h, ?_⟩⟩
      rw [if_pos h, pass_other _ _ _ _ _ _ er]; exact pass_nil _

theorem passR_reference (hostOk : Str → Bool) (b : VBag) :
    Pass REC (referenceIssues hostOk b) ↔ hasValue b.info py!"Multibag-Reference" = true := by
  unfold referenceIssues
  rw [pass_same]
  refine ⟨fun h => h.1, fun h => ⟨h, ?_⟩⟩
  rw [if_pos h, pass_other _ _ _ _ _ _ er, pass_other _ _ _ _ _ _ er]
  exact pass_nil _

theorem passR_look {b : VBag} {version : Option Str} {l : List Issue} (h : LookPart b version l)
    (hd : b.tree.isdir (comps (tagDirOf b)) = true) : Pass REC l ↔
      ∀ text, b.tree.read (tagFile (tagDirOf b) (placesFile version)) = some text →
        ∀ dirs name content, (py!"data" :: (dirs ++ [name]), Node.file content) ∈ b.tree →
          name.head? ≠ some '.' → name.head? ≠ some '_' →
          ∃ row ∈ rows (placesFields version) text, row.head?.getD [] = joinPath (py!"data" :: (dirs ++ [name])) := by
  cases h with
  | noDir hd' => rw [hd'] at hd; cases hd
  | noFile _ hf =>
    rw [pass_other _ _ _ _ _ _ er, pass_other _ _ _ _ _ _ er, pass_nil_iff]
    exact ⟨fun _ text ht => (by rw [hf] at ht; cases ht), fun _ => trivial⟩
  | file text s _ hf _ hs =>
    unfold placesIssues
    rw [pass_other _ _ _ _ _ _ er, pass_other _ _ _ _ _ _ er, pass_other _ _ _ _ _ _ er, pass_other _ _ _ _ _ _ er,
      pass_other _ _ _ _ _ _ wr, pass_same, pass_nil_iff, List.all_eq_true]
    constructor
    · rintro ⟨h, _⟩ text' ht dirs name c hm h1 h2
      rw [hf] at ht
      cases Option.some.inj ht
      rcases (hs.paths _).mp (of_decide_eq_true (h _ (mem_listedPayload.mpr ⟨dirs, name, c, hm, h1, h2, rfl⟩))) with h | h
      · cases h
      · exact h
    · intro h
      refine ⟨fun p hp => ?_, trivial⟩
      obtain ⟨dirs, name, c, hm, h1, h2, rfl⟩ := mem_listedPayload.mp hp
      exact decide_eq_true ((hs.paths _).mpr (Or.inr (h text hf dirs name c hm h1 h2)))

/-- The checks without recommendations. -/
theorem passR_others {hostOk : Str → Bool} {b : VBag} (want : Nat) (v : Option Str) {mem agg : List Issue}
    (hm : MemPart hostOk b v mem) (ha : AggPart b v agg) :
    Pass REC (bagIssues b want) ∧ Pass REC (versionIssues b v) ∧ Pass REC (dirIssues b) ∧
    Pass REC (headVersionIssues b) ∧ Pass REC (deprecatesIssues b) ∧ Pass REC mem ∧ Pass REC agg := by
  refine ⟨?_, ?_, ?_, ?_, ?_, ?_, ?_⟩
  · unfold bagIssues
    split
    · split <;> (rw [pass_other _ _ _ _ _ _ er]; exact pass_nil _)
    · exact pass_nil _
  · unfold versionIssues
    rw [pass_other _ _ _ _ _ _ er]
    split
    · exact pass_nil _
    · split
      · exact pass_nil _
      · rw [pass_other _ _ _ _ _ _ wr, pass_other _ _ _ _ _ _ er]; exact pass_nil _
    · split
      · exact pass_nil _
      · rw [pass_other _ _ _ _ _ _ wr, pass_other _ _ _ _ _ _ er]; exact pass_nil _
  · unfold dirIssues
    split
    · rw [pass_other _ _ _ _ _ _ er]; exact pass_nil _
    · rw [pass_other _ _ _ _ _ _ er]
      split
      · exact pass_nil _
      · rw [pass_other _ _ _ _ _ _ er, pass_other _ _ _ _ _ _ er]; exact pass_nil _
  · unfold headVersionIssues
    split
    · rw [pass_other _ _ _ _ _ _ er]; exact pass_nil _
    · rw [pass_other _ _ _ _ _ _ wr]
      split
      · exact pass_nil _
      · rw [pass_other _ _ _ _ _ _ wr]; exact pass_nil _
  · unfold deprecatesIssues
    split
    · exact pass_nil _
    · rw [pass_other _ _ _ _ _ _ wr]
      split
      · exact pass_nil _
      · rw [pass_other _ _ _ _ _ _ er, pass_other _ _ _ _ _ _ wr, pass_other _ _ _ _ _ _ wr]; exact pass_nil _
  · cases hm with
    | noDir _ => rw [pass_other _ _ _ _ _ _ er]; exact pass_nil _
    | noFile _ _ => rw [pass_other _ _ _ _ _ _ er, pass_other _ _ _ _ _ _ er]; exact pass_nil _
    | file _ _ _ _ _ _ =>
      unfold memberIssues
      rw [pass_other _ _ _ _ _ _ er, pass_other _ _ _ _ _ _ er, pass_other _ _ _ _ _ _ er, pass_other _ _ _ _ _ _ er,
        pass_other _ _ _ _ _ _ er, pass_other _ _ _ _ _ _ er, pass_other _ _ _ _ _ _ wr]
      exact pass_nil _
  · cases ha with
    | skipped => exact pass_nil _
    | file => rw [pass_other _ _ _ _ _ _ er]; exact pass_nil _

/-- A reference given in the right form is not empty. -/
theorem reference_nonempty {hostOk : Str → Bool} {b : VBag} (hx : HeadConforms hostOk b) :
    hasValue b.info py!"Multibag-Reference" = true ↔ lastValue b.info py!"Multibag-Reference" ≠ [] := by
  constructor
  · intro h he
    obtain ⟨s, o, hu, hs, _⟩ := hx.reference h
    have hempty : urlparse hostOk [] = .ok ([], []) := rfl
    rw [he, hempty] at hu
    cases Except.ok.inj hu
    exact hs rfl
  · intro h
    rw [lastValue_eq] at h
    unfold hasValue
    cases hd : dget b.info py!"Multibag-Reference" with
    | none => rw [hd] at h; exact absurd rfl h
    | some v =>
      rw [hd] at h
      cases v with
      | one s => simpa [InfoVal.values, InfoVal.truthy] using h
      | many l =>
        dsimp only [InfoVal.values] at h
        exact decide_eq_true (fun he => h (by rw [he]; rfl))

/-- No failed recommendation either. -/
theorem recommended_iff {hostOk : Str → Bool} {b : VBag} {want : Nat} {l mem look agg : List Issue}
    (h : HeadParts hostOk b want l mem look agg) (hx : HeadConforms hostOk b) :
    Pass REC l ↔ HeadRecommended b := by
  have hd := (tagDir_isdir b hx.dir).2
  obtain ⟨r1, r2, r4, r5, r6, r8, r10⟩ := passR_others want _ h.mem h.agg
  rw [h.eq]
  simp only [pass_append]
  unfold recsIssues
  simp only [pass_append]
  rw [passR_reference, reference_nonempty hx, passR_rec, passR_rec, passR_rec, passR_look h.look hd]
  constructor
  · rintro ⟨⟨⟨⟨⟨⟨⟨⟨⟨_, _⟩, h3⟩, _⟩, _⟩, _⟩, ⟨h7, h7'⟩, h7''⟩, _⟩, h9⟩, _⟩
    refine ⟨fun el hel => ?_, h9⟩
    rcases List.mem_cons.mp hel with e | hel
    · exact e ▸ h3
    rcases List.mem_cons.mp hel with e | hel
    · exact e ▸ h7
    rcases List.mem_cons.mp hel with e | hel
    · exact e ▸ h7'
    exact List.mem_singleton.mp hel ▸ h7''
  · intro ht
    exact ⟨⟨⟨⟨⟨⟨⟨⟨⟨r1, r2⟩, ht.info _ (by simp)⟩, r4⟩, r5⟩, r6⟩,
      ⟨ht.info _ (by simp), ht.info _ (by simp)⟩, ht.info _ (by simp)⟩, r8⟩, ht.lookup⟩, r10⟩

theorem requested_all (t : Nat) : Requested ALL t ↔ KnownType t := by
  unfold Requested KnownType
  have h0 : ALL.testBit 0 = true := by decide
  have h1 : ALL.testBit 1 = true := by decide
  have h2 : ALL.testBit 2 = true := by decide
  rw [h0, h1, h2]; simp

/-- C79, asked for everything: exactly when it also follows the recommendations, `HeadRecommended`. -/
theorem C79_all (hostOk : Str → Bool) (b : VBag) :
    isValid (fun w => validateHead hostOk b w none) ALL = .ok true ↔
      HeadConforms hostOk b ∧ HeadTidy b ∧ HeadRecommended b := by
  unfold isValid
  dsimp only
  rcases validateHead_cases hostOk b ALL none with ⟨hc, e, _, h⟩ | ⟨hc, l, mem, look, agg, hp, h⟩
  · rw [h]
    exact ⟨fun hx => (by cases hx), fun hx => absurd hc (conforms_nocrash ALL hx.1)⟩
  · rw [h]
    have hkey := conforms_iff hp ((requested_all ERROR).mpr (Or.inl rfl)) hc
    dsimp only [Option.getD]
    have : (Except.ok (({ want := ALL } : Results).add l).ok : Except PyErr Bool) = .ok true ↔
        (({ want := ALL } : Results).add l).ok = true := ⟨Except.ok.inj, congrArg _⟩
    rw [this, pass_all]
    constructor
    · intro hx
      have hE : HeadConforms hostOk b := hkey.mp fun i hi ht => hx i hi (Or.inl ht) ((requested_all _).mpr (Or.inl ht))
      exact ⟨hE,
        (tidy_iff hp hE).mp fun i hi ht => hx i hi (Or.inr (Or.inl ht)) ((requested_all _).mpr (Or.inr (Or.inl ht))),
        (recommended_iff hp hE).mp fun i hi ht =>
          hx i hi (Or.inr (Or.inr ht)) ((requested_all _).mpr (Or.inr (Or.inr ht)))⟩
    · rintro ⟨hE, hT, hR⟩ i hi hk _
      rcases hk with ht | ht | ht
      · exact hkey.mpr hE i hi ht
      · exact (tidy_iff hp hE).mpr hT i hi ht
      · exact (recommended_iff hp hE).mpr hR i hi ht

/-- The sample head bag meets all the conditions. -/
example : HeadConforms (fun _ => true) Sample.validHead ∧ HeadTidy Sample.validHead :=
  (C79_problems _ _).mp (by decide +kernel)

/-- And follows the recommendations. -/
example : HeadRecommended Sample.validHead := ((C79_all (fun _ => true) _).mp (by decide +kernel)).2.2

/-- A payload file without a line in the lookup list spoils only the latter. -/
example : ∃ b : VBag, HeadConforms (fun _ => true) b ∧ HeadTidy b ∧ ¬ HeadRecommended b :=
  have hP := (C79_problems (fun _ => true) { Sample.validHead with
      tree := Sample.validHead.tree ++ [([py!"data", py!"c"], .file py!"y")] }).mp (by decide +kernel)
  ⟨_, hP.1, hP.2, fun hR => absurd ((C79_all (fun _ => true) _).mpr ⟨hP.1, hP.2, hR⟩) (by decide +kernel)⟩

/-- A repeated member spoils only tidiness. -/
example : HeadConforms (fun _ => true) { Sample.validHead with
      tree := dset Sample.validHead.tree [py!"multibag", py!"member-bags.tsv"]
        (.file (py!"other\nother\n" ++ Sample.validHead.name ++ py!"\n")) } ∧
    ¬ HeadTidy { Sample.validHead with
      tree := dset Sample.validHead.tree [py!"multibag", py!"member-bags.tsv"]
        (.file (py!"other\nother\n" ++ Sample.validHead.name ++ py!"\n")) } :=
  have hE := (C79_errors (fun _ => true) { Sample.validHead with
      tree := dset Sample.validHead.tree [py!"multibag", py!"member-bags.tsv"]
        (.file (py!"other\nother\n" ++ Sample.validHead.name ++ py!"\n")) }).mp (by decide +kernel)
  ⟨hE, fun hT => absurd ((C79_problems (fun _ => true) _).mpr ⟨hE, hT⟩) (by decide +kernel)⟩

/-- C62, the verdict on a member bag, for every mask: it has to be a valid bag, if errors are asked for, and to
name a profile version, if recommendations are.  Nothing else matters. -/
theorem C62_verdict (b : VBag) (want : Nat) :
    isValid (fun w => validateMember b w none) want = .ok true ↔
      (want.testBit 0 = true → b.verdict = .valid) ∧
      (want.testBit 2 = true → ∃ v, v ≠ [] ∧ infoVersion b.info = some v) := by
  have hE : Requested want ERROR ↔ want.testBit 0 = true := by unfold Requested; simp [ERROR, WARN, REC]
  have hR : Requested want REC ↔ want.testBit 2 = true := by unfold Requested; simp [ERROR, WARN, REC]
  have hv : decide ((infoVersion b.info).getD [] ≠ []) = true ↔ ∃ v, v ≠ [] ∧ infoVersion b.info = some v := by
    rw [decide_eq_true_iff]
    cases infoVersion b.info with
    | none => exact ⟨fun h => absurd rfl h, fun ⟨_, _, h⟩ => by cases h⟩
    | some v => exact ⟨fun h => ⟨v, h, rfl⟩, fun ⟨w, hw, h⟩ => by rw [Option.some.inj h]; exact hw⟩
  rw [← hE, ← hR, ← hv]
  unfold isValid
  dsimp only
  rcases member_alone b want with ⟨e, _, h, hw, x, hx, _⟩ | h
  · rw [h]
    refine ⟨fun h => (by cases h), fun hc => ?_⟩
    have := hc.1 hw
    rw [hx] at this
    cases this
  · rw [h]
    have : ∀ r : Results, (Except.ok r.ok : Except PyErr Bool) = .ok true ↔ r.ok = true :=
      fun r => ⟨Except.ok.inj, congrArg _⟩
    dsimp only
    rw [this, pass_all]
    constructor
    · intro hx
      refine ⟨fun hw => ?_, fun hw => hx _ (List.mem_append_right _ (List.mem_singleton_self _)) (Or.inr (Or.inr rfl)) hw⟩
      exact (passE_bag b want hw).mp fun i hi ht => hx i (List.mem_append_left _ hi) (Or.inl ht) (ht ▸ hw)
    · rintro ⟨h1, h2⟩ i hi _ hr
      rcases List.mem_append.mp hi with hi | hi
      · have ht : i.type = ERROR := by
          unfold bagIssues at hi
          split at hi
          · split at hi <;> (rw [List.mem_singleton.mp hi])
          · cases hi
        rw [ht] at hr
        exact (passE_bag b want hr).mpr (h1 hr) i hi ht
      · rw [List.mem_singleton.mp hi] at hr ⊢
        exact h2 hr

/-- A valid bag without a profile version is fine unless recommendations are asked for. -/
example : isValid (fun w => validateMember ⟨py!"m", [], [], .valid⟩ w none) PROB = .ok true ∧
    ¬ isValid (fun w => validateMember ⟨py!"m", [], [], .valid⟩ w none) ALL = .ok true :=
  ⟨(C62_verdict _ _).mpr ⟨fun _ => rfl, fun h => absurd h (by decide)⟩, fun h => by
    obtain ⟨v, _, h⟩ := ((C62_verdict _ _).mp h).2 (by decide)
    cases h⟩

end Verif
