import Verif.Lemmas.ValidateAll
/-! # When all checks of head bag validation pass -/

namespace Verif
open Spec

/-- All checks of a type passed. -/
def Pass (t : Nat) (l : List Issue) : Prop := ∀ i ∈ l, i.type = t → i.passed = true

theorem pass_nil (t : Nat) : Pass t [] := fun _ h => absurd h List.not_mem_nil

theorem pass_cons (t : Nat) (i : Issue) (l : List Issue) :
    Pass t (i :: l) ↔ (i.type = t → i.passed = true) ∧ Pass t l := List.forall_mem_cons

theorem pass_append (t : Nat) (l m : List Issue) : Pass t (l ++ m) ↔ Pass t l ∧ Pass t m := by
  unfold Pass
  constructor
  · intro h
    exact ⟨fun i hi => h i (List.mem_append_left _ hi), fun i hi => h i (List.mem_append_right _ hi)⟩
  · rintro ⟨h1, h2⟩ i hi
    exact (List.mem_append.mp hi).elim (h1 i) (h2 i)

/-- Unfold a list of checks for one type. -/
theorem pass_same (t : Nat) (lab : Str) (p : Bool) (c : List Str) (l : List Issue) :
    Pass t (⟨lab, t, p, c⟩ :: l) ↔ p = true ∧ Pass t l := by
  rw [pass_cons]
  exact and_congr_left fun _ => ⟨fun h => h rfl, fun h _ => h⟩

theorem pass_other (t t' : Nat) (lab : Str) (p : Bool) (c : List Str) (l : List Issue) (hne : t' ≠ t) :
    Pass t (⟨lab, t', p, c⟩ :: l) ↔ Pass t l := by
  rw [pass_cons]
  exact ⟨fun h => h.2, fun h => ⟨fun e => absurd e hne, h⟩⟩

theorem pass_nil_iff (t : Nat) : Pass t [] ↔ True := ⟨fun _ => trivial, fun _ => pass_nil t⟩

theorem ew : ERROR ≠ WARN := by decide
theorem er : ERROR ≠ REC := by decide
theorem wr : WARN ≠ REC := by decide

theorem passE_bag (b : VBag) (want : Nat) (hw : Requested want ERROR) :
    Pass ERROR (bagIssues b want) ↔ b.verdict = .valid := by
  have hw' : wants want ERROR = true := by
    rw [wants_error]
    rcases hw with ⟨_, h⟩ | ⟨h, _⟩ | ⟨h, _⟩
    · exact h
    · exact absurd h ew
    · exact absurd h er
  unfold bagIssues
  rw [if_pos hw']
  cases b.verdict <;> simp [pass_same, pass_nil_iff]

theorem passW_bag (b : VBag) (want : Nat) : Pass WARN (bagIssues b want) := by
  unfold bagIssues
  split
  · split <;> exact (pass_other _ _ _ _ _ _ ew).mpr (pass_nil _)
  · exact pass_nil _

theorem passE_version (b : VBag) : Pass ERROR (versionIssues b (infoVersion b.info)) ↔
    ∃ v, v ≠ [] ∧ dget b.info py!"Multibag-Version" = some (.one v) := by
  unfold versionIssues hasValue infoVersion
  rw [pass_same]
  cases dget b.info py!"Multibag-Version" with
  | none =>
    refine ⟨fun h => absurd h.1 (by decide), ?_⟩
    rintro ⟨v, _, h⟩; cases h
  | some iv =>
    cases iv with
    | one s =>
      by_cases hs : s = []
      · subst hs
        refine ⟨fun h => absurd h.1 (by decide), ?_⟩
        rintro ⟨v, hv, h⟩
        cases h; exact absurd rfl hv
      · simp only [if_neg hs, pass_other _ _ _ _ _ _ ew.symm, pass_same, pass_nil_iff]
        refine ⟨fun _ => ⟨s, hs, rfl⟩, fun _ => ⟨?_, ?_, trivial⟩⟩
        · simp [InfoVal.truthy, hs]
        · simp
    | many l =>
      by_cases hl : l = []
      · subst hl
        refine ⟨fun h => absurd h.1 (by decide), ?_⟩
        rintro ⟨v, hv, h⟩; cases h
      · simp only [if_neg hl, pass_other _ _ _ _ _ _ ew.symm, pass_same, pass_nil_iff]
        refine ⟨fun h => absurd h.2.1 (by decide), ?_⟩
        rintro ⟨v, hv, h⟩; cases h

theorem passW_version (b : VBag) (v : Option Str) (h : ∃ w, w ≠ [] ∧ dget b.info py!"Multibag-Version" = some (.one w)) :
    Pass WARN (versionIssues b v) := by
  obtain ⟨w, hw, hd⟩ := h
  unfold versionIssues
  rw [hd]
  dsimp only
  rw [if_neg hw, pass_other _ _ _ _ _ _ ew, pass_same, pass_other _ _ _ _ _ _ ew]
  exact ⟨rfl, pass_nil _⟩

theorem passE_reference (hostOk : Str → Bool) (b : VBag) : Pass ERROR (referenceIssues hostOk b) ↔
    (hasValue b.info py!"Multibag-Reference" = true →
      ∃ scheme host, urlparse hostOk (lastValue b.info py!"Multibag-Reference") = .ok (scheme, host) ∧
        scheme ≠ [] ∧ host ≠ []) := by
  unfold referenceIssues
  rw [pass_other _ _ _ _ _ _ er.symm]
  cases hv : hasValue b.info py!"Multibag-Reference" with
  | false => exact ⟨fun _ h => (by cases h), fun _ => pass_nil _⟩
  | true =>
    rw [if_pos rfl, pass_same, pass_same, pass_nil_iff]
    have hempty : urlparse hostOk [] = .ok ([], []) := rfl
    constructor
    · rintro ⟨h1, h2, _⟩ _
      cases hu : urlparse hostOk (lastValue b.info py!"Multibag-Reference") with
      | error e => rw [hu] at h2; cases h2
      | ok p =>
        obtain ⟨s, o⟩ := p
        rw [hu] at h2
        simp only [Bool.and_eq_true, decide_eq_true_eq] at h2
        exact ⟨s, o, rfl, h2.1, h2.2⟩
    · intro h
      obtain ⟨s, o, hu, hs, ho⟩ := h rfl
      refine ⟨decide_eq_true (fun he => ?_), ?_, trivial⟩
      · rw [he, hempty] at hu
        cases Except.ok.inj hu
        exact hs rfl
      · rw [hu]; simp [hs, ho]

theorem passW_reference (hostOk : Str → Bool) (b : VBag) : Pass WARN (referenceIssues hostOk b) := by
  unfold referenceIssues
  rw [pass_other _ _ _ _ _ _ wr.symm]
  split
  · rw [pass_other _ _ _ _ _ _ ew, pass_other _ _ _ _ _ _ ew]; exact pass_nil _
  · exact pass_nil _

theorem passE_dir (b : VBag) : Pass ERROR (dirIssues b) ↔
    (dmem b.info py!"Multibag-Tag-Directory" = false ∧ b.tree.isdir [py!"multibag"] = true) ∨
    ∃ d, d ≠ [] ∧ fields b.info py!"Multibag-Tag-Directory" = [d] ∧ b.tree.isdir (comps d) = true := by
  unfold dirIssues fields dmem
  cases dget b.info py!"Multibag-Tag-Directory" with
  | none =>
    dsimp only
    rw [pass_same, pass_nil_iff]
    constructor
    · rintro ⟨h, _⟩; exact Or.inl ⟨rfl, h⟩
    · rintro (⟨_, h⟩ | ⟨d, _, h, _⟩)
      · exact ⟨h, trivial⟩
      · cases h
  | some v =>
    dsimp only
    rw [pass_same]
    by_cases hl : v.values.getLast?.getD [] = []
    · refine ⟨fun h => absurd hl (of_decide_eq_true h.1), ?_⟩
      rintro (⟨h, _⟩ | ⟨d, hd, h, _⟩)
      · cases h
      · rw [h] at hl; exact absurd hl hd
    · rw [if_neg hl, pass_same, pass_same, pass_nil_iff]
      constructor
      · rintro ⟨_, h1, h2, _⟩
        obtain ⟨d, hd⟩ := List.length_eq_one_iff.mp (beq_iff_eq.mp h1)
        rw [hd] at hl h2
        exact Or.inr ⟨d, hl, hd, h2⟩
      · rintro (⟨h, _⟩ | ⟨d, hd, h, hi⟩)
        · cases h
        · rw [h]; exact ⟨decide_eq_true hd, rfl, hi, trivial⟩

theorem passW_dir (b : VBag) : Pass WARN (dirIssues b) := by
  unfold dirIssues
  split
  · rw [pass_other _ _ _ _ _ _ ew]; exact pass_nil _
  · rw [pass_other _ _ _ _ _ _ ew]
    split
    · exact pass_nil _
    · rw [pass_other _ _ _ _ _ _ ew, pass_other _ _ _ _ _ _ ew]; exact pass_nil _

theorem passE_headVersion (b : VBag) : Pass ERROR (headVersionIssues b) ↔
    dmem b.info py!"Multibag-Head-Version" = true := by
  unfold headVersionIssues dmem
  cases dget b.info py!"Multibag-Head-Version" with
  | none =>
    dsimp only
    rw [pass_same]
    exact ⟨fun h => absurd h.1 (by decide), fun h => absurd h (by decide)⟩
  | some v =>
    dsimp only
    rw [pass_other _ _ _ _ _ _ ew.symm]
    refine ⟨fun _ => rfl, fun _ => ?_⟩
    split
    · exact pass_nil _
    · rw [pass_other _ _ _ _ _ _ ew.symm]; exact pass_nil _

theorem passW_headVersion (b : VBag) (hh : dmem b.info py!"Multibag-Head-Version" = true) :
    Pass WARN (headVersionIssues b) ↔ ∃ v, v ≠ [] ∧ fields b.info py!"Multibag-Head-Version" = [v] := by
  unfold dmem at hh
  unfold headVersionIssues fields
  cases hd : dget b.info py!"Multibag-Head-Version" with
  | none => rw [hd] at hh; cases hh
  | some v =>
    dsimp only
    rw [pass_same]
    by_cases hv : v.values = []
    · rw [hv]
      refine ⟨fun h => absurd h.1 (by decide), ?_⟩
      rintro ⟨w, _, h⟩; cases h
    · rw [if_neg hv, pass_same, pass_nil_iff]
      constructor
      · rintro ⟨h1, h2, _⟩
        obtain ⟨d, hd⟩ := List.length_eq_one_iff.mp (beq_iff_eq.mp h2)
        rw [hd] at h1
        exact ⟨d, of_decide_eq_true h1, hd⟩
      · rintro ⟨d, hd, h⟩
        rw [h]; exact ⟨decide_eq_true hd, rfl, trivial⟩

theorem passE_deprecates (b : VBag) : Pass ERROR (deprecatesIssues b) ↔
    (dmem b.info py!"Multibag-Head-Deprecates" = true →
      (fields b.info py!"Multibag-Head-Deprecates").head?.getD [] ≠ [] →
      ∀ v ∈ fields b.info py!"Multibag-Head-Deprecates", (deprecParts v).length ≤ 2) := by
  unfold deprecatesIssues fields dmem
  cases dget b.info py!"Multibag-Head-Deprecates" with
  | none => exact ⟨fun _ h => absurd h (by decide), fun _ => pass_nil _⟩
  | some v =>
    dsimp only
    rw [pass_other _ _ _ _ _ _ ew.symm]
    by_cases hl : v.values.head?.getD [] = []
    · rw [if_pos hl, pass_nil_iff]
      exact ⟨fun _ _ h => absurd hl h, fun _ => trivial⟩
    · rw [if_neg hl, pass_same, pass_other _ _ _ _ _ _ ew.symm, pass_other _ _ _ _ _ _ ew.symm, pass_nil_iff]
      rw [decide_eq_true_iff, List.filter_eq_nil_iff]
      simp only [decide_eq_true_eq, Nat.not_lt, and_true]
      exact ⟨fun h _ _ => h, fun h => h rfl hl⟩

theorem passW_deprecates (b : VBag) : Pass WARN (deprecatesIssues b) ↔
    (dmem b.info py!"Multibag-Head-Deprecates" = true →
      (fields b.info py!"Multibag-Head-Deprecates").head?.getD [] ≠ [] ∧
      ∀ v ∈ fields b.info py!"Multibag-Head-Deprecates",
        (deprecParts v).head? ≠ some (lastValue b.info py!"Multibag-Head-Version") ∧
          (deprecParts v)[1]? ≠ some b.name) := by
  unfold deprecatesIssues
  have hf : fields b.info py!"Multibag-Head-Deprecates" = (match dget b.info py!"Multibag-Head-Deprecates" with
    | none => [] | some v => v.values) := by unfold fields; cases dget b.info py!"Multibag-Head-Deprecates" <;> rfl
  have hm : dmem b.info py!"Multibag-Head-Deprecates" = (dget b.info py!"Multibag-Head-Deprecates").isSome := rfl
  rw [hf, hm]
  cases dget b.info py!"Multibag-Head-Deprecates" with
  | none => exact ⟨fun _ h => absurd h (by decide), fun _ => pass_nil _⟩
  | some v =>
    dsimp only
    rw [pass_same, decide_eq_true_iff]
    by_cases hl : v.values.head?.getD [] = []
    · refine ⟨fun h => absurd hl h.1, fun h => absurd hl (h rfl).1⟩
    · rw [if_neg hl, pass_other _ _ _ _ _ _ ew, pass_same, pass_same, pass_nil_iff]
      have hany : v.values.any (fun val => decide (val ≠ [])) = true := by
        cases hv : v.values with
        | nil => rw [hv] at hl; exact absurd rfl hl
        | cons a t =>
          rw [hv] at hl
          rw [List.any_cons, decide_eq_true (show a ≠ [] from hl)]; rfl
      rw [hany, Bool.not_eq_true', List.any_eq_false]
      simp only [Bool.or_eq_true, decide_eq_true_eq, not_or]
      exact ⟨fun h _ => ⟨hl, fun v' hv' => h.2.2.1 v' hv'⟩, fun h => ⟨hl, trivial, (h rfl).2, trivial⟩⟩

theorem passE_rec (b : VBag) (el : Str) : Pass ERROR (recIssues b el) ↔
    (lastValue b.info el ≠ [] → ∀ v ∈ fields b.info el, v ≠ []) := by
  unfold recIssues lastValue fields
  cases dget b.info el with
  | none =>
    dsimp only
    rw [pass_other _ _ _ _ _ _ er.symm]
    exact ⟨fun _ h => absurd rfl h, fun _ => pass_nil _⟩
  | some v =>
    cases v with
    | one s =>
      simp only [InfoVal.values]
      rw [pass_other _ _ _ _ _ _ er.symm]
      by_cases hs : s = []
      · rw [if_pos hs, pass_nil_iff]
        exact ⟨fun _ h => absurd (show ([s] : List Str).getLast?.getD [] = [] from hs) h, fun _ => trivial⟩
      · rw [if_neg hs, pass_same]
        exact ⟨fun _ _ v hv => by rw [List.mem_singleton.mp hv]; exact hs, fun _ => ⟨rfl, pass_nil _⟩⟩
    | many l =>
      simp only [InfoVal.values]
      rw [pass_other _ _ _ _ _ _ er.symm]
      by_cases hl : l.getLast?.getD [] = []
      · rw [if_neg (by simpa using hl), pass_nil_iff]
        exact ⟨fun _ h => absurd hl h, fun _ => trivial⟩
      · rw [if_pos hl, pass_same, pass_nil_iff, List.all_eq_true]
        simp only [decide_eq_true_eq, and_true]
        exact ⟨fun h _ => h, fun h => h hl⟩

theorem passW_rec (b : VBag) (el : Str) : Pass WARN (recIssues b el) := by
  unfold recIssues
  split
  · rw [pass_other _ _ _ _ _ _ wr.symm]; exact pass_nil _
  · rw [pass_other _ _ _ _ _ _ wr.symm]
    split
    · exact pass_nil _
    · rw [pass_other _ _ _ _ _ _ ew]; exact pass_nil _
  · rw [pass_other _ _ _ _ _ _ wr.symm]
    split
    · rw [pass_other _ _ _ _ _ _ ew]; exact pass_nil _
    · exact pass_nil _

theorem passE_recs (b : VBag) : Pass ERROR (recsIssues b) ↔
    ∀ el ∈ [py!"Internal-Sender-Identifier", py!"Internal-Sender-Description", py!"Bag-Group-Identifier"],
      lastValue b.info el ≠ [] → ∀ v ∈ fields b.info el, v ≠ [] := by
  unfold recsIssues
  rw [pass_append, pass_append, passE_rec, passE_rec, passE_rec, List.forall_mem_cons, List.forall_mem_cons,
    List.forall_mem_singleton, and_assoc]

theorem passW_recs (b : VBag) : Pass WARN (recsIssues b) :=
  (pass_append ..).mpr ⟨(pass_append ..).mpr ⟨passW_rec b _, passW_rec b _⟩, passW_rec b _⟩

/-- The tag directory of a bag that passes. -/
theorem tagDir_isdir (b : VBag)
    (h : (dmem b.info py!"Multibag-Tag-Directory" = false ∧ b.tree.isdir [py!"multibag"] = true) ∨
      ∃ d, d ≠ [] ∧ fields b.info py!"Multibag-Tag-Directory" = [d] ∧ b.tree.isdir (comps d) = true) :
    tagDirOf b ≠ [] ∧ b.tree.isdir (comps (tagDirOf b)) = true := by
  unfold tagDirOf tagDirs
  rcases h with ⟨hm, hi⟩ | ⟨d, hd, hf, hi⟩
  · unfold dmem at hm
    cases hg : dget b.info py!"Multibag-Tag-Directory" with
    | some v => rw [hg] at hm; cases hm
    | none => exact ⟨by decide, hi⟩
  · unfold fields at hf
    cases hg : dget b.info py!"Multibag-Tag-Directory" with
    | none => rw [hg] at hf; cases hf
    | some v =>
      rw [hg] at hf
      cases v with
      | one s =>
        dsimp only [InfoVal.values] at hf ⊢
        cases hf
        rw [if_neg hd]; exact ⟨hd, hi⟩
      | many l =>
        dsimp only [InfoVal.values] at hf ⊢
        subst hf
        exact ⟨hd, hi⟩

theorem passE_mem {hostOk : Str → Bool} {b : VBag} {version : Option Str} {l : List Issue}
    (h : MemPart hostOk b version l) : Pass ERROR l ↔
      b.tree.isdir (comps (tagDirOf b)) = true ∧
      ∃ text, b.tree.read (tagFile (tagDirOf b) (listFile version)) = some text ∧
        (∀ row ∈ rows (listFields version) text, (version = some py!"0.2" → row.length ≤ 2) ∧
          ∀ u, row[1]? = some u → u ≠ [] → ∃ scheme, urlparse hostOk u = .ok (scheme, []) ∧ scheme ≠ []) ∧
        ∃ before row, rows (listFields version) text = before ++ [row] ∧ row.head?.getD [] = b.name := by
  cases h with
  | noDir hd =>
    rw [pass_same]
    exact ⟨fun h => absurd h.1 (by decide), fun h => by rw [hd] at h; cases h.1⟩
  | noFile hd hf =>
    rw [pass_same, pass_same]
    refine ⟨fun h => absurd h.2.1 (by decide), ?_⟩
    rintro ⟨_, text, ht, _⟩
    rw [hf] at ht; cases ht
  | file text s hd hf hu hs =>
    unfold memberIssues
    rw [pass_same, pass_same, pass_same, pass_same, pass_same, pass_same, pass_other _ _ _ _ _ _ ew.symm, pass_nil_iff]
    rw [decide_eq_true_iff, decide_eq_true_iff, decide_eq_true_iff, hs.badfmt, hs.badurl, hs.foundme, hs.last]
    have htm : ∀ row, tooManyOf version row = false ↔ (version = some py!"0.2" → row.length ≤ 2) := by
      intro row
      unfold tooManyOf
      by_cases hv : version = some py!"0.2"
      · rw [if_pos hv]
        simp only [decide_eq_false_iff_not, Nat.not_lt]
        exact ⟨fun h _ => h, fun h => h hv⟩
      · rw [if_neg hv]
        exact ⟨fun _ h => absurd h hv, fun _ => rfl⟩
    constructor
    · rintro ⟨_, _, ⟨_, h1⟩, ⟨_, h2⟩, _, h4, _⟩
      refine ⟨hd, text, hf, fun row hr => ⟨(htm row).mp (h1 row hr), fun u hu1 hu2 => ?_⟩, ?_⟩
      · obtain ⟨⟨sc, nl⟩, hp⟩ := hu row hr u hu1 hu2
        obtain ⟨ha, hb⟩ := h2 row hr u hu1 hu2 _ hp
        dsimp only at ha hb
        rw [hb] at hp
        exact ⟨sc, hp, ha⟩
      · cases hg : (rows (listFields version) text).getLast? with
        | none => rw [hg] at h4; cases h4
        | some row =>
          rw [hg] at h4
          obtain ⟨before, hb⟩ := List.getLast?_eq_some_iff.mp hg
          exact ⟨before, row, hb, Option.some.inj h4⟩
    · rintro ⟨_, text', ht, hrows, before, row, hb, hn⟩
      rw [hf] at ht
      cases Option.some.inj ht
      have hg : (rows (listFields version) text).getLast? = some row := by rw [hb]; simp
      refine ⟨rfl, rfl, ⟨rfl, fun r hr => (htm r).mpr (hrows r hr).1⟩, ⟨rfl, fun r hr u hu1 hu2 p hp => ?_⟩,
        Or.inr ⟨row, by rw [hb]; simp, hn⟩, ?_, trivial⟩
      · obtain ⟨sc, hp', hs'⟩ := (hrows r hr).2 u hu1 hu2
        rw [hp'] at hp
        cases Except.ok.inj hp
        exact ⟨hs', rfl⟩
      · rw [hg]; exact congrArg some hn

theorem passW_mem {hostOk : Str → Bool} {b : VBag} {version : Option Str} {l : List Issue}
    (h : MemPart hostOk b version l) (hd : b.tree.isdir (comps (tagDirOf b)) = true) : Pass WARN l ↔
      ∀ text, b.tree.read (tagFile (tagDirOf b) (listFile version)) = some text →
        ((rows (listFields version) text).map (fun row => row.head?.getD [])).Nodup := by
  cases h with
  | noDir hd' => rw [hd'] at hd; cases hd
  | noFile _ hf =>
    rw [pass_other _ _ _ _ _ _ ew, pass_other _ _ _ _ _ _ ew, pass_nil_iff]
    exact ⟨fun _ text ht => (by rw [hf] at ht; cases ht), fun _ => trivial⟩
  | file text s _ hf hu hs =>
    unfold memberIssues
    rw [pass_other _ _ _ _ _ _ ew, pass_other _ _ _ _ _ _ ew, pass_other _ _ _ _ _ _ ew, pass_other _ _ _ _ _ _ ew,
      pass_other _ _ _ _ _ _ ew, pass_other _ _ _ _ _ _ ew, pass_same, pass_nil_iff, decide_eq_true_iff, hs.replicated]
    constructor
    · rintro ⟨⟨_, h, _⟩, _⟩ text' ht
      rw [hf] at ht
      cases Option.some.inj ht
      exact h
    · intro h
      exact ⟨⟨rfl, h text hf, fun _ _ => List.not_mem_nil⟩, trivial⟩

theorem passE_look {b : VBag} {version : Option Str} {l : List Issue} (h : LookPart b version l) : Pass ERROR l ↔
      b.tree.isdir (comps (tagDirOf b)) = true ∧ b.tree.isdir [py!"data"] = true ∧
      ∃ text, b.tree.read (tagFile (tagDirOf b) (placesFile version)) = some text ∧
        ∀ row ∈ rows (placesFields version) text, row.length = 2 ∧
          (row[1]? = some b.name → b.tree.isfile (comps (row.head?.getD [])) = true) := by
  cases h with
  | noDir hd =>
    rw [pass_same]
    exact ⟨fun h => absurd h.1 (by decide), fun h => by rw [hd] at h; cases h.1⟩
  | noFile hd hf =>
    rw [pass_same, pass_same]
    refine ⟨fun h => absurd h.2.1 (by decide), ?_⟩
    rintro ⟨_, _, text, ht, _⟩
    rw [hf] at ht; cases ht
  | file text s hd hf hdata hs =>
    unfold placesIssues
    rw [pass_same, pass_same, pass_same, pass_same, pass_other _ _ _ _ _ _ ew.symm, pass_other _ _ _ _ _ _ er.symm,
      pass_nil_iff]
    rw [decide_eq_true_iff, decide_eq_true_iff, hs.badfmt, hs.missing]
    constructor
    · rintro ⟨_, _, ⟨_, h1⟩, ⟨_, h2⟩, _⟩
      exact ⟨hd, hdata, text, hf, fun row hr => ⟨h1 row hr, h2 row hr⟩⟩
    · rintro ⟨_, _, text', ht, hrows⟩
      rw [hf] at ht
      cases Option.some.inj ht
      exact ⟨rfl, rfl, ⟨rfl, fun r hr => (hrows r hr).1⟩, ⟨rfl, fun r hr => (hrows r hr).2⟩, trivial⟩

theorem passW_look {b : VBag} {version : Option Str} {l : List Issue} (h : LookPart b version l)
    (hd : b.tree.isdir (comps (tagDirOf b)) = true) : Pass WARN l ↔
      ∀ text, b.tree.read (tagFile (tagDirOf b) (placesFile version)) = some text →
        ((rows (placesFields version) text).map (fun row => row.head?.getD [])).Nodup := by
  cases h with
  | noDir hd' => rw [hd'] at hd; cases hd
  | noFile _ hf =>
    rw [pass_other _ _ _ _ _ _ ew, pass_other _ _ _ _ _ _ ew, pass_nil_iff]
    exact ⟨fun _ text ht => (by rw [hf] at ht; cases ht), fun _ => trivial⟩
  | file text s _ hf _ hs =>
    unfold placesIssues
    rw [pass_other _ _ _ _ _ _ ew, pass_other _ _ _ _ _ _ ew, pass_other _ _ _ _ _ _ ew, pass_other _ _ _ _ _ _ ew,
      pass_same, pass_other _ _ _ _ _ _ wr.symm, pass_nil_iff, decide_eq_true_iff, hs.replicated]
    constructor
    · rintro ⟨⟨_, h, _⟩, _⟩ text' ht
      rw [hf] at ht
      cases Option.some.inj ht
      exact h
    · intro h
      exact ⟨⟨rfl, h text hf, fun _ _ => List.not_mem_nil⟩, trivial⟩

theorem passE_agg {b : VBag} {version : Option Str} {l : List Issue} (h : AggPart b version l) : Pass ERROR l ↔
      version = some py!"0.2" ∨ version = some py!"0.3" ∨
      b.tree.exists (tagFile (tagDirOf b) py!"aggregation-info.txt") = false ∨
      ∃ text fs, b.tree.read (tagFile (tagDirOf b) py!"aggregation-info.txt") = some text ∧
        parseTags .universal (dropBom text) = .ok fs := by
  cases h with
  | skipped h =>
    rw [pass_nil_iff]
    refine ⟨fun _ => ?_, fun _ => trivial⟩
    rcases h with h | h | h
    · exact Or.inl h
    · exact Or.inr (Or.inl h)
    · exact Or.inr (Or.inr (Or.inl h))
  | file text c h2 h3 hf =>
    rw [pass_same, pass_nil_iff]
    constructor
    · rintro ⟨h, _⟩
      cases hp : parseTags .universal (dropBom text) with
      | error e => rw [hp] at h; cases h
      | ok fs => exact Or.inr (Or.inr (Or.inr ⟨text, fs, hf, hp⟩))
    · rintro (h | h | h | ⟨text', fs, ht, hp⟩)
      · exact absurd h h2
      · exact absurd h h3
      · unfold Tree.exists at h
        unfold Tree.read at hf
        cases hg : dget b.tree (tagFile (tagDirOf b) py!"aggregation-info.txt") with
        | none => rw [hg] at hf; cases hf
        | some n => rw [hg] at h; simp at h
      · rw [hf] at ht
        cases Option.some.inj ht
        rw [hp]; exact ⟨rfl, trivial⟩

theorem passW_agg {b : VBag} {version : Option Str} {l : List Issue} (h : AggPart b version l) : Pass WARN l := by
  cases h with
  | skipped => exact pass_nil _
  | file => rw [pass_other _ _ _ _ _ _ ew]; exact pass_nil _

theorem requested_error (t : Nat) : Requested ERROR t ↔ t = ERROR := by
  unfold Requested
  have h0 : ERROR.testBit 0 = true := by decide
  have h1 : ERROR.testBit 1 = false := by decide
  have h2 : ERROR.testBit 2 = false := by decide
  rw [h0, h1, h2]; simp

theorem requested_prob (t : Nat) : Requested PROB t ↔ t = ERROR ∨ t = WARN := by
  unfold Requested
  have h0 : PROB.testBit 0 = true := by decide
  have h1 : PROB.testBit 1 = true := by decide
  have h2 : PROB.testBit 2 = false := by decide
  rw [h0, h1, h2]; simp

/-- No failed error check: the bag is as it must be. -/
theorem conforms_iff {hostOk : Str → Bool} {b : VBag} {want : Nat} {l mem look agg : List Issue}
    (h : HeadParts hostOk b want l mem look agg) (hw : Requested want ERROR) (hc : ¬ HeadCrash hostOk b want) :
    Pass ERROR l ↔ HeadConforms hostOk b := by
  rw [h.eq]
  simp only [pass_append]
  rw [passE_bag b want hw, passE_version, passE_reference, passE_dir, passE_headVersion, passE_deprecates, passE_recs,
    passE_mem h.mem, passE_look h.look, passE_agg h.agg]
  constructor
  · rintro ⟨⟨⟨⟨⟨⟨⟨⟨⟨h1, h2⟩, h3⟩, h4⟩, h5⟩, h6⟩, h7⟩, h8⟩, h9⟩, h10⟩
    refine ⟨h1, h2, h3, h4, h5, fun hd => ⟨fun he => hc (.deprecates hd he), h6 hd⟩, h7, h8.2, h9.2, h10⟩
  · intro hx
    have hd := (tagDir_isdir b hx.dir).2
    exact ⟨⟨⟨⟨⟨⟨⟨⟨⟨hx.bag, hx.version⟩, hx.reference⟩, hx.dir⟩, hx.head⟩, fun h => (hx.deprecates h).2⟩,
      hx.recommended⟩, hd, hx.members⟩, hd, hx.lookup⟩, hx.aggregation⟩

/-- No failed warning check either. -/
theorem tidy_iff {hostOk : Str → Bool} {b : VBag} {want : Nat} {l mem look agg : List Issue}
    (h : HeadParts hostOk b want l mem look agg) (hx : HeadConforms hostOk b) :
    Pass WARN l ↔ HeadTidy b := by
  have hd := (tagDir_isdir b hx.dir).2
  rw [h.eq]
  simp only [pass_append]
  rw [passW_headVersion b hx.head, passW_deprecates, passW_mem h.mem hd, passW_look h.look hd]
  constructor
  · rintro ⟨⟨⟨⟨⟨⟨_, h5⟩, h6⟩, _⟩, h8⟩, h9⟩, _⟩
    exact ⟨h5, h6, h8, h9⟩
  · intro ht
    exact ⟨⟨⟨⟨⟨⟨⟨⟨⟨passW_bag b want, passW_version b _ hx.version⟩, passW_reference hostOk b⟩, passW_dir b⟩, ht.head⟩,
      ht.deprecates⟩, passW_recs b⟩, ht.members⟩, ht.lookup⟩, passW_agg h.agg⟩

/-- A bag that is as it must be is validated without exception. -/
theorem conforms_nocrash {hostOk : Str → Bool} {b : VBag} (want : Nat) (hx : HeadConforms hostOk b) :
    ¬ HeadCrash hostOk b want := by
  intro hc
  cases hc with
  | bag e h hv he => rw [hx.bag] at hv; cases hv
  | reference e hv h =>
    obtain ⟨s, o, hu, _⟩ := hx.reference hv
    rw [h] at hu; cases hu
  | deprecates h hv => exact (hx.deprecates h).1 hv
  | notHead h => rw [hx.head] at h; cases h
  | emptyDir h => exact (tagDir_isdir b hx.dir).1 h
  | uri text row u e hd hf hr hu hn h =>
    obtain ⟨text', ht, hrows, _⟩ := hx.members
    rw [hf] at ht
    cases Option.some.inj ht
    obtain ⟨s, hs, _⟩ := (hrows row hr).2 u hu hn
    rw [h] at hs; cases hs
  | noData hd hf h => rw [hx.lookup.1] at h; cases h
  | aggregation h2 h3 hex h =>
    rcases hx.aggregation with ha | ha | ha | ⟨text, fs, ha, _⟩
    · exact h2 ha
    · exact h3 ha
    · rw [ha] at hex; cases hex
    · rw [read_isfile, ha] at h; cases h

theorem pass_all (l : List Issue) (w : Nat) :
    ((({ want := w } : Results).add l).ok = true ↔ ∀ i ∈ l, KnownType i.type → Requested w i.type → i.passed = true) := by
  rw [ok_iff (sorted_add (sorted_new w) _)]
  constructor
  · intro h i hi hk hr
    refine h i ((mem_applied_add _ _ _ _).mpr ⟨hi, ?_⟩) hr
    rcases hk with e | e | e <;> rw [e] <;> decide
  · intro h i hi hr
    obtain ⟨hm, ha⟩ := (mem_applied_add _ _ _ _).mp hi
    refine h i hm ?_ hr
    rcases ha with ⟨e, _⟩ | ⟨e, _⟩ | ⟨e, _⟩
    · exact Or.inl e
    · exact Or.inr (Or.inl e)
    · exact Or.inr (Or.inr e)

end Verif
