import Verif.Lemmas.ValidateHead
/-! # Head bag validation as a whole -/

namespace Verif
open Spec

/-- Whether a row of a member list has too many fields, which only profile 0.2 minds. -/
def tooManyOf (version : Option Str) : List Str → Bool :=
  if version = some py!"0.2" then fun ps => ps.length > 2 else fun _ => false

/-- The checks made after the member list is read. -/
def memberIssues (name : Str) (s : MemberScan) : List Issue :=
  [⟨py!"4.0-1", ERROR, true, []⟩, ⟨py!"4.1-1", ERROR, decide (s.badfmt = []), lineComment s.badfmt⟩,
   ⟨py!"4.1-2", ERROR, decide (s.badurl = []), lineComment s.badurl⟩, ⟨py!"4.1-3", ERROR, s.foundme, []⟩,
   ⟨py!"4.1-4", ERROR, decide (s.last = some name), []⟩,
   ⟨py!"4.1-5", WARN, decide (s.replicated = []), lineComment s.replicated⟩]

theorem report_eq (name : Str) (s : MemberScan) (out : Results) :
    reportMembers name s (out.err py!"4.0-1" true) = out.add (memberIssues name s) := by
  unfold reportMembers memberIssues
  simp only [err_add, warn_add, add_add]; rfl

/-- Reading the member list of the profile version. -/
theorem memberBags_eq (hostOk : Str → Bool) (b : VBag) (version : Option Str) (out : Results) (hn : tagDirOf b ≠ [])
    (hh : dmem b.info py!"Multibag-Head-Version" = true) :
    validateMemberBags hostOk b version out =
      if b.tree.isdir (comps (tagDirOf b)) = false then .ok (out.err py!"3-Tag-Directory" false)
      else validateMemberFile hostOk (listFile version)
        (if version = some py!"0.2" then splitWs else splitOn '\t') (tooManyOf version) b (tagDirOf b)
        (out.err py!"3-Tag-Directory" true) := by
  unfold validateMemberBags
  rw [assertedDir_eq, if_neg hn, if_pos hh]
  dsimp only
  cases hd : b.tree.isdir (comps (tagDirOf b)) with
  | false => rfl
  | true =>
    unfold listFile tooManyOf
    by_cases hv : version = some py!"0.2"
    · simp only [if_pos hv]; rfl
    · simp only [if_neg hv]; rfl

theorem listFields_eq (version : Option Str) : listFields version =
    fun l => (if version = some py!"0.2" then splitWs else splitOn '\t') (strip l) := by
  unfold listFields
  by_cases hv : version = some py!"0.2"
  · simp only [if_pos hv]
  · simp only [if_neg hv]

theorem check_members (hostOk : Str → Bool) (b : VBag) (version : Option Str) (hn : tagDirOf b ≠ [])
    (hh : dmem b.info py!"Multibag-Head-Version" = true) :
    (b.tree.isdir (comps (tagDirOf b)) = false ∧
      Adds (validateMemberBags hostOk b version) [⟨py!"3-Tag-Directory", ERROR, false, []⟩]) ∨
    (b.tree.isdir (comps (tagDirOf b)) = true ∧ b.tree.read (tagFile (tagDirOf b) (listFile version)) = none ∧
      Adds (validateMemberBags hostOk b version)
        [⟨py!"3-Tag-Directory", ERROR, true, []⟩, ⟨py!"4.0-1", ERROR, false, []⟩]) ∨
    (b.tree.isdir (comps (tagDirOf b)) = true ∧
      ∃ text, b.tree.read (tagFile (tagDirOf b) (listFile version)) = some text ∧
        (((∃ row ∈ rows (listFields version) text, ∃ u, row[1]? = some u ∧ u ≠ [] ∧
            ∃ e, urlparse hostOk u = .error e) ∧ Crashes (validateMemberBags hostOk b version)) ∨
         ((∀ row ∈ rows (listFields version) text, UriOk hostOk row) ∧
          ∃ s, ScanOk hostOk (tooManyOf version) b.name (rows (listFields version) text) {} s ∧
            Adds (validateMemberBags hostOk b version)
              (⟨py!"3-Tag-Directory", ERROR, true, []⟩ :: memberIssues b.name s)))) := by
  have heq := fun out => memberBags_eq hostOk b version out hn hh
  cases hd : b.tree.isdir (comps (tagDirOf b)) with
  | false =>
    left
    refine ⟨rfl, fun out => ?_⟩
    rw [heq, hd, if_pos rfl, err_add]
  | true =>
    right
    cases hr : b.tree.read (tagFile (tagDirOf b) (listFile version)) with
    | none =>
      left
      refine ⟨rfl, rfl, fun out => ?_⟩
      rw [heq, hd, if_neg (by decide)]
      unfold validateMemberFile
      rw [hr]
      simp only [err_add, add_add]; rfl
    | some text =>
      right
      refine ⟨rfl, text, rfl, ?_⟩
      by_cases hu : ∀ row ∈ rows (listFields version) text, UriOk hostOk row
      · right
        have hu' := hu
        rw [rows_eq, listFields_eq] at hu'
        obtain ⟨s, h1, h2⟩ := scanMembers_ok hostOk (if version = some py!"0.2" then splitWs else splitOn '\t')
          (tooManyOf version) b.name (textLines .universal text) {} hu'
        refine ⟨hu, s, ?_, fun out => ?_⟩
        · rw [rows_eq, listFields_eq]; exact h2
        · rw [heq, hd, if_neg (by decide)]
          unfold validateMemberFile
          rw [hr]
          dsimp only
          rw [h1]
          dsimp only
          rw [report_eq, err_add, add_add]; rfl
      · left
        have : ∃ row ∈ rows (listFields version) text, ∃ u, row[1]? = some u ∧ u ≠ [] ∧
            ∃ e, urlparse hostOk u = .error e := by
          apply Classical.byContradiction
          intro hc
          apply hu
          intro row hrow u h1 h2
          cases hp : urlparse hostOk u with
          | ok p => exact ⟨p, rfl⟩
          | error e => exact absurd ⟨row, hrow, u, h1, h2, e, hp⟩ hc
        refine ⟨this, .valueError, by decide, fun out => ?_⟩
        obtain ⟨row, hrow, u, h1, h2, e, he⟩ := this
        rw [heq, hd, if_neg (by decide)]
        unfold validateMemberFile
        rw [hr]
        dsimp only
        rw [rows_eq, listFields_eq] at hrow
        rw [scanMembers_crash hostOk _ (tooManyOf version) b.name _ {} row u e hrow h1 h2 he]

/-- The checks made after the lookup list is read. -/
def placesIssues (b : VBag) (s : LookupScan) : List Issue :=
  [⟨py!"4.0-2", ERROR, true, []⟩, ⟨py!"4.2-1", ERROR, decide (s.badfmt = []), lineComment s.badfmt⟩,
   ⟨py!"4.2-2", ERROR, decide (s.missing = []), lineComment s.missing⟩,
   ⟨py!"4.2-3", WARN, decide (s.replicated = []), lineComment s.replicated⟩,
   ⟨py!"4.2-4", REC, (listedPayload b.tree).all (fun p => p ∈ s.paths), []⟩]

theorem fileLookup_eq (b : VBag) (version : Option Str) (out : Results) (hn : tagDirOf b ≠ [])
    (hh : dmem b.info py!"Multibag-Head-Version" = true) :
    validateFileLookup b version out =
      if b.tree.isdir (comps (tagDirOf b)) = false then .ok (out.err py!"3-Tag-Directory" false)
      else validateLookupFile (placesFile version) (placesFields version) b (tagDirOf b)
        (out.err py!"3-Tag-Directory" true) := by
  unfold validateFileLookup
  rw [assertedDir_eq, if_neg hn, if_pos hh]
  dsimp only
  cases hd : b.tree.isdir (comps (tagDirOf b)) with
  | false => rfl
  | true =>
    unfold placesFile placesFields
    by_cases hv : version = some py!"0.2"
    · simp only [if_pos hv]; rfl
    · simp only [if_neg hv]; rfl

theorem check_lookup (b : VBag) (version : Option Str) (hn : tagDirOf b ≠ [])
    (hh : dmem b.info py!"Multibag-Head-Version" = true) :
    (b.tree.isdir (comps (tagDirOf b)) = false ∧
      Adds (validateFileLookup b version) [⟨py!"3-Tag-Directory", ERROR, false, []⟩]) ∨
    (b.tree.isdir (comps (tagDirOf b)) = true ∧ b.tree.read (tagFile (tagDirOf b) (placesFile version)) = none ∧
      Adds (validateFileLookup b version)
        [⟨py!"3-Tag-Directory", ERROR, true, []⟩, ⟨py!"4.0-2", ERROR, false, []⟩]) ∨
    (b.tree.isdir (comps (tagDirOf b)) = true ∧
      ∃ text, b.tree.read (tagFile (tagDirOf b) (placesFile version)) = some text ∧
        ((b.tree.isdir [py!"data"] = false ∧ Crashes (validateFileLookup b version)) ∨
         (b.tree.isdir [py!"data"] = true ∧
          ∃ s, PlacesOk b (rows (placesFields version) text) {} s ∧
            Adds (validateFileLookup b version)
              (⟨py!"3-Tag-Directory", ERROR, true, []⟩ :: placesIssues b s)))) := by
  have heq := fun out => fileLookup_eq b version out hn hh
  cases hd : b.tree.isdir (comps (tagDirOf b)) with
  | false =>
    left
    refine ⟨rfl, fun out => ?_⟩
    rw [heq, hd, if_pos rfl, err_add]
  | true =>
    right
    cases hr : b.tree.read (tagFile (tagDirOf b) (placesFile version)) with
    | none =>
      left
      refine ⟨rfl, rfl, fun out => ?_⟩
      rw [heq, hd, if_neg (by decide)]
      unfold validateLookupFile
      rw [hr]
      simp only [err_add, add_add]; rfl
    | some text =>
      right
      refine ⟨rfl, text, rfl, ?_⟩
      cases hdata : b.tree.isdir [py!"data"] with
      | false =>
        left
        refine ⟨rfl, .osError, by decide, fun out => ?_⟩
        rw [heq, hd, if_neg (by decide)]
        unfold validateLookupFile
        rw [hr]
        dsimp only
        rw [hdata, if_pos rfl]
      | true =>
        right
        refine ⟨rfl, (textLines .universal text).foldl (scanLookup (placesFields version) b) {}, ?_, fun out => ?_⟩
        · rw [rows_eq]; exact scanLookups_ok _ b _ {}
        · rw [heq, hd, if_neg (by decide)]
          unfold validateLookupFile
          rw [hr]
          dsimp only
          rw [hdata, if_neg (by decide)]
          simp only [err_add, warn_add, recommend_add, add_add]; rfl

/-- A tag file is unreadable only for want of a colon. -/
theorem parseTagsFrom_error (lines : List Str) (cur : Option (Str × Str)) {e : PyErr}
    (h : parseTagsFrom cur lines = .error e) : e = .bagValidationError := by
  induction lines generalizing cur with
  | nil => cases h
  | cons l ls ih =>
    unfold parseTagsFrom at h
    by_cases hl : strip l = []
    · rw [if_pos hl] at h; exact ih _ h
    · rw [if_neg hl] at h
      split at h
      · exact ih _ h
      · split at h
        · dsimp only at h
          split at h
          · rename_i h'
            cases h
            exact ih _ h'
          · cases h
        · exact (Except.error.inj h).symm

theorem parseTags_error (mode : TextMode) (text : Str) {e : PyErr} (h : parseTags mode text = .error e) :
    e = .bagValidationError := parseTagsFrom_error _ _ h

/-- The check of aggregation-info.txt. -/
theorem check_aggregation (b : VBag) (version : Option Str) (hn : tagDirOf b ≠ [])
    (hh : dmem b.info py!"Multibag-Head-Version" = true) :
    ((version = some py!"0.2" ∨ version = some py!"0.3" ∨
        b.tree.exists (tagFile (tagDirOf b) py!"aggregation-info.txt") = false) ∧
      Adds (validateAggregationInfo b version) []) ∨
    (version ≠ some py!"0.2" ∧ version ≠ some py!"0.3" ∧
      b.tree.exists (tagFile (tagDirOf b) py!"aggregation-info.txt") = true ∧
      ((b.tree.isfile (tagFile (tagDirOf b) py!"aggregation-info.txt") = false ∧
          Crashes (validateAggregationInfo b version)) ∨
       ∃ text, b.tree.read (tagFile (tagDirOf b) py!"aggregation-info.txt") = some text ∧
        ∃ c, Adds (validateAggregationInfo b version)
          [⟨py!"4.4-1", ERROR, (parseTags .universal (dropBom text)).isOk, c⟩])) := by
  have heq : ∀ out, validateAggregationInfo b version out =
      if (version = some py!"0.2" || version = some py!"0.3" ||
        !b.tree.exists (tagFile (tagDirOf b) py!"aggregation-info.txt")) = true then .ok out
      else match loadTagFile true b.tree (tagFile (tagDirOf b) py!"aggregation-info.txt") with
        | .ok _ => .ok (out.err py!"4.4-1" true)
        | .error .bagError => .ok (out.err py!"4.4-1" false [py!"str(ex)"])
        | .error .bagValidationError => .ok (out.err py!"4.4-1" false [py!"str(ex)"])
        | .error e => .error e := by
    intro out
    unfold validateAggregationInfo
    rw [assertedDir_eq, if_neg hn, if_pos hh]
    rfl
  by_cases hc : (version = some py!"0.2" || version = some py!"0.3" ||
        !b.tree.exists (tagFile (tagDirOf b) py!"aggregation-info.txt")) = true
  · left
    refine ⟨by simpa [or_assoc] using hc, fun out => ?_⟩
    rw [heq, if_pos hc, add_nil]
  · right
    have hc' := hc
    simp only [Bool.or_eq_true, decide_eq_true_eq, Bool.not_eq_true', not_or, Bool.not_eq_false] at hc'
    refine ⟨hc'.1.1, hc'.1.2, hc'.2, ?_⟩
    have hrd : b.tree.isfile (tagFile (tagDirOf b) py!"aggregation-info.txt") =
        (b.tree.read (tagFile (tagDirOf b) py!"aggregation-info.txt")).isSome := by
      unfold Tree.isfile Tree.read
      cases dget b.tree (tagFile (tagDirOf b) py!"aggregation-info.txt") with
      | none => rfl
      | some n => cases n <;> rfl
    cases hr : b.tree.read (tagFile (tagDirOf b) py!"aggregation-info.txt") with
    | none =>
      left
      rw [hr] at hrd
      refine ⟨hrd, .osError, by decide, fun out => ?_⟩
      rw [heq, if_neg hc]
      unfold loadTagFile
      rw [hr]
    | some text =>
      right
      refine ⟨text, rfl, ?_⟩
      have hl : loadTagFile true b.tree (tagFile (tagDirOf b) py!"aggregation-info.txt") =
          match parseTags .universal (dropBom text) with
          | .error e => .error e
          | .ok l => .ok (loadTags l) := by
        unfold loadTagFile
        rw [hr]; rfl
      cases hp : parseTags .universal (dropBom text) with
      | ok l =>
        refine ⟨[], fun out => ?_⟩
        rw [heq, if_neg hc, hl, hp]
        dsimp only
        rw [err_add]; rfl
      | error e =>
        have he : e = .bagValidationError := parseTags_error _ _ hp
        subst he
        refine ⟨[py!"str(ex)"], fun out => ?_⟩
        rw [heq, if_neg hc, hl, hp]
        dsimp only
        rw [err_add]; rfl

/-- What the checks of the member list record. -/
inductive MemPart (hostOk : Str → Bool) (b : VBag) (version : Option Str) : List Issue → Prop where
  | noDir (hd : b.tree.isdir (comps (tagDirOf b)) = false) :
      MemPart hostOk b version [⟨py!"3-Tag-Directory", ERROR, false, []⟩]
  | noFile (hd : b.tree.isdir (comps (tagDirOf b)) = true)
      (hf : b.tree.read (tagFile (tagDirOf b) (listFile version)) = none) :
      MemPart hostOk b version [⟨py!"3-Tag-Directory", ERROR, true, []⟩, ⟨py!"4.0-1", ERROR, false, []⟩]
  | file (text : Str) (s : MemberScan) (hd : b.tree.isdir (comps (tagDirOf b)) = true)
      (hf : b.tree.read (tagFile (tagDirOf b) (listFile version)) = some text)
      (hu : ∀ row ∈ rows (listFields version) text, UriOk hostOk row)
      (hs : ScanOk hostOk (tooManyOf version) b.name (rows (listFields version) text) {} s) :
      MemPart hostOk b version (⟨py!"3-Tag-Directory", ERROR, true, []⟩ :: memberIssues b.name s)

/-- What the checks of the lookup list record. -/
inductive LookPart (b : VBag) (version : Option Str) : List Issue → Prop where
  | noDir (hd : b.tree.isdir (comps (tagDirOf b)) = false) :
      LookPart b version [⟨py!"3-Tag-Directory", ERROR, false, []⟩]
  | noFile (hd : b.tree.isdir (comps (tagDirOf b)) = true)
      (hf : b.tree.read (tagFile (tagDirOf b) (placesFile version)) = none) :
      LookPart b version [⟨py!"3-Tag-Directory", ERROR, true, []⟩, ⟨py!"4.0-2", ERROR, false, []⟩]
  | file (text : Str) (s : LookupScan) (hd : b.tree.isdir (comps (tagDirOf b)) = true)
      (hf : b.tree.read (tagFile (tagDirOf b) (placesFile version)) = some text)
      (hdata : b.tree.isdir [py!"data"] = true)
      (hs : PlacesOk b (rows (placesFields version) text) {} s) :
      LookPart b version (⟨py!"3-Tag-Directory", ERROR, true, []⟩ :: placesIssues b s)

/-- What the check of aggregation-info.txt records. -/
inductive AggPart (b : VBag) (version : Option Str) : List Issue → Prop where
  | skipped (h : version = some py!"0.2" ∨ version = some py!"0.3" ∨
        b.tree.exists (tagFile (tagDirOf b) py!"aggregation-info.txt") = false) : AggPart b version []
  | file (text : Str) (c : List Str) (h2 : version ≠ some py!"0.2") (h3 : version ≠ some py!"0.3")
      (hf : b.tree.read (tagFile (tagDirOf b) py!"aggregation-info.txt") = some text) :
      AggPart b version [⟨py!"4.4-1", ERROR, (parseTags .universal (dropBom text)).isOk, c⟩]

/-- The issues recorded by head bag validation. -/
structure HeadParts (hostOk : Str → Bool) (b : VBag) (want : Nat) (l mem look agg : List Issue) : Prop where
  eq : l = bagIssues b want ++ versionIssues b (infoVersion b.info) ++ referenceIssues hostOk b ++ dirIssues b ++
    headVersionIssues b ++ deprecatesIssues b ++ recsIssues b ++ mem ++ look ++ agg
  mem : MemPart hostOk b (infoVersion b.info) mem
  look : LookPart b (infoVersion b.info) look
  agg : AggPart b (infoVersion b.info) agg

theorem read_isfile (t : Tree) (p : Path) : t.isfile p = (t.read p).isSome := by
  unfold Tree.isfile Tree.read
  cases dget t p with
  | none => rfl
  | some n => cases n <;> rfl

theorem validateHead_cases (hostOk : Str → Bool) (b : VBag) (want : Nat) (results : Option Results) :
    (HeadCrash hostOk b want ∧ ∃ e, e ≠ PyErr.bagValidationError ∧ validateHead hostOk b want results = .error e) ∨
    (¬ HeadCrash hostOk b want ∧ ∃ l mem look agg, HeadParts hostOk b want l mem look agg ∧
      validateHead hostOk b want results = .ok ((results.getD { want := want }).add l)) := by
  have hdef : validateHead hostOk b want results = (do
      let out ← validateBag b want (results.getD { want := want })
      let out ← validateReference hostOk b (validateVersion b (infoVersion b.info) out)
      let out ← validateHeadDeprecates b (validateHeadVersion b (validateTagDirectory b out))
      let out ← validateMemberBags hostOk b (infoVersion b.info) (validateBaginfoRecs b out)
      let out ← validateFileLookup b (infoVersion b.info) out
      validateAggregationInfo b (infoVersion b.info) out) := rfl
  rw [hdef]
  generalize results.getD { want := want } = out0
  have hb : ∀ (e : PyErr) (f : Results → Except PyErr Results), (Except.error e >>= f) = .error e := fun _ _ => rfl
  have ho : ∀ (r : Results) (f : Results → Except PyErr Results), (Except.ok r >>= f) = f r := fun _ _ => rfl
  rcases step_bag b want with ⟨hw, ⟨e, hv, hne⟩, e', hne', hc⟩ | ⟨hnb, hbag⟩
  · left; exact ⟨.bag e hw hv hne, e', hne', by rw [hc]; rfl⟩
  rw [hbag, ho, step_version, add_add]
  rcases step_reference hostOk b with ⟨hv, ⟨e, he⟩, e', hne', hc⟩ | ⟨hnr, href⟩
  · left; exact ⟨.reference e hv he, e', hne', by rw [hc]; rfl⟩
  rw [href, ho, step_dir, step_headVersion, add_add, add_add, add_add]
  rcases step_deprecates b with ⟨hm, hl, e', hne', hc⟩ | ⟨hnd, hdep⟩
  · left; exact ⟨.deprecates hm hl, e', hne', by rw [hc]; rfl⟩
  rw [hdep, ho, step_recs, add_add, add_add]
  by_cases hn : tagDirOf b = []
  · left
    refine ⟨.emptyDir hn, .assertionError, by decide, ?_⟩
    unfold validateMemberBags
    rw [assertedDir_eq, if_pos hn]; rfl
  cases hh : dmem b.info py!"Multibag-Head-Version" with
  | false =>
    left
    refine ⟨.notHead hh, .assertionError, by decide, ?_⟩
    unfold validateMemberBags
    rw [assertedDir_eq, if_neg hn, if_neg (by rw [hh]; decide)]; rfl
  | true =>
    have hmem : ((∃ text, b.tree.isdir (comps (tagDirOf b)) = true ∧
          b.tree.read (tagFile (tagDirOf b) (listFile (infoVersion b.info))) = some text ∧
          ∃ row ∈ rows (listFields (infoVersion b.info)) text, ∃ u, row[1]? = some u ∧ u ≠ [] ∧
            ∃ e, urlparse hostOk u = .error e) ∧
          Crashes (validateMemberBags hostOk b (infoVersion b.info))) ∨
        ∃ mem, MemPart hostOk b (infoVersion b.info) mem ∧
          Adds (validateMemberBags hostOk b (infoVersion b.info)) mem := by
      rcases check_members hostOk b (infoVersion b.info) hn hh with ⟨h1, h2⟩ | ⟨h1, h2, h3⟩ |
        ⟨h1, text, h2, ⟨h3, h4⟩ | ⟨h3, s, h4, h5⟩⟩
      · exact Or.inr ⟨_, .noDir h1, h2⟩
      · exact Or.inr ⟨_, .noFile h1 h2, h3⟩
      · exact Or.inl ⟨⟨text, h1, h2, h3⟩, h4⟩
      · exact Or.inr ⟨_, .file text s h1 h2 h3 h4, h5⟩
    rcases hmem with ⟨⟨text, h1, h2, row, h3, u, h4, h5, e, h6⟩, e', hne', hc⟩ | ⟨mem, hmp, hma⟩
    · left; exact ⟨.uri text row u e h1 h2 h3 h4 h5 h6, e', hne', by rw [hc]; rfl⟩
    rw [hma, ho, add_add]
    have hlook : ((b.tree.isdir (comps (tagDirOf b)) = true ∧
          (∃ text, b.tree.read (tagFile (tagDirOf b) (placesFile (infoVersion b.info))) = some text) ∧
          b.tree.isdir [py!"data"] = false) ∧ Crashes (validateFileLookup b (infoVersion b.info))) ∨
        ∃ look, LookPart b (infoVersion b.info) look ∧ Adds (validateFileLookup b (infoVersion b.info)) look := by
      rcases check_lookup b (infoVersion b.info) hn hh with ⟨h1, h2⟩ | ⟨h1, h2, h3⟩ |
        ⟨h1, text, h2, ⟨h3, h4⟩ | ⟨h3, s, h4, h5⟩⟩
      · exact Or.inr ⟨_, .noDir h1, h2⟩
      · exact Or.inr ⟨_, .noFile h1 h2, h3⟩
      · exact Or.inl ⟨⟨h1, ⟨text, h2⟩, h3⟩, h4⟩
      · exact Or.inr ⟨_, .file text s h1 h2 h3 h4, h5⟩
    rcases hlook with ⟨⟨h1, ⟨text, h2⟩, h3⟩, e', hne', hc⟩ | ⟨look, hlp, hla⟩
    · left
      refine ⟨.noData h1 ?_ h3, e', hne', by rw [hc]; rfl⟩
      rw [read_isfile, h2]; rfl
    rw [hla, ho, add_add]
    rcases check_aggregation b (infoVersion b.info) hn hh with ⟨h1, h2⟩ |
      ⟨h2, h3, hx, ⟨hf, e', hne', hc⟩ | ⟨text, hf, c, ha⟩⟩
    · right
      refine ⟨?_, _, mem, look, [], ⟨rfl, hmp, hlp, .skipped h1⟩, ?_⟩
      · intro hcr
        cases hcr with
        | bag e h hv he => exact hnb ⟨h, e, hv, he⟩
        | reference e hv h => exact hnr ⟨hv, e, h⟩
        | deprecates h hv => exact hnd ⟨h, hv⟩
        | notHead h => rw [hh] at h; cases h
        | emptyDir h => exact hn h
        | uri text row u e hd hf hr hu hne h =>
          cases hmp with
          | noDir hd' => rw [hd'] at hd; cases hd
          | noFile hd' hf' => rw [hf'] at hf; cases hf
          | file text' s hd' hf' hu' hs' =>
            rw [hf'] at hf
            cases Option.some.inj hf
            obtain ⟨p, hp⟩ := hu' row hr u hu hne
            rw [h] at hp; cases hp
        | noData hd hf h =>
          cases hlp with
          | noDir hd' => rw [hd'] at hd; cases hd
          | noFile hd' hf' => rw [read_isfile, hf'] at hf; cases hf
          | file text' s hd' hf' hdata hs' => rw [hdata] at h; cases h
        | aggregation h2' h3' hx hf =>
          rcases h1 with h1 | h1 | h1
          · exact h2' h1
          · exact h3' h1
          · rw [h1] at hx; cases hx
      · rw [h2, add_add]; simp only [List.append_assoc]
    · left
      exact ⟨.aggregation h2 h3 hx hf, e', hne', hc _⟩
    · right
      refine ⟨?_, _, mem, look, _, ⟨rfl, hmp, hlp, .file text c h2 h3 hf⟩, ?_⟩
      · intro hcr
        cases hcr with
        | bag e h hv he => exact hnb ⟨h, e, hv, he⟩
        | reference e hv h => exact hnr ⟨hv, e, h⟩
        | deprecates h hv => exact hnd ⟨h, hv⟩
        | notHead h => rw [hh] at h; cases h
        | emptyDir h => exact hn h
        | uri text row u e hd hf hr hu hne h =>
          cases hmp with
          | noDir hd' => rw [hd'] at hd; cases hd
          | noFile hd' hf' => rw [hf'] at hf; cases hf
          | file text' s hd' hf' hu' hs' =>
            rw [hf'] at hf
            cases Option.some.inj hf
            obtain ⟨p, hp⟩ := hu' row hr u hu hne
            rw [h] at hp; cases hp
        | noData hd hf h =>
          cases hlp with
          | noDir hd' => rw [hd'] at hd; cases hd
          | noFile hd' hf' => rw [read_isfile, hf'] at hf; cases hf
          | file text' s hd' hf' hdata hs' => rw [hdata] at h; cases h
        | aggregation h2' h3' hx' hf' =>
          rw [read_isfile, hf] at hf'; cases hf'
      · rw [ha, add_add]; simp only [List.append_assoc]

/-! ## Which part holds a label -/

theorem known_error : KnownType ERROR := Or.inl rfl
theorem known_warn : KnownType WARN := Or.inr (Or.inl rfl)
theorem known_rec : KnownType REC := Or.inr (Or.inr rfl)

/-- Labels and types of a list of issues. -/
def LabelsIn (l : List Issue) (labels : List Str) : Prop := ∀ i ∈ l, i.label ∈ labels ∧ KnownType i.type

theorem labels_nil (labels : List Str) : LabelsIn [] labels := fun _ h => absurd h List.not_mem_nil

theorem labels_cons {i : Issue} {l : List Issue} {labels : List Str} (h1 : i.label ∈ labels) (h2 : KnownType i.type)
    (h : LabelsIn l labels) : LabelsIn (i :: l) labels := by
  intro j hj
  rcases List.mem_cons.mp hj with rfl | hj
  · exact ⟨h1, h2⟩
  · exact h j hj

theorem labels_bag (b : VBag) (want : Nat) : LabelsIn (bagIssues b want) [py!"2-Bag"] := by
  unfold bagIssues
  split
  · split <;> exact labels_cons (List.mem_cons_self ..) known_error (labels_nil _)
  · exact labels_nil _

theorem labels_version (b : VBag) (v : Option Str) :
    LabelsIn (versionIssues b v) [py!"3-Version", py!"3-Version-val"] := by
  unfold versionIssues
  refine labels_cons (List.mem_cons_self ..) known_error ?_
  split
  · exact labels_nil _
  · split
    · exact labels_nil _
    · exact labels_cons (List.mem_cons_self ..) known_warn
        (labels_cons (List.mem_cons_of_mem _ (List.mem_cons_self ..)) known_error (labels_nil _))
  · split
    · exact labels_nil _
    · exact labels_cons (List.mem_cons_self ..) known_warn
        (labels_cons (List.mem_cons_of_mem _ (List.mem_cons_self ..)) known_error (labels_nil _))

theorem labels_reference (hostOk : Str → Bool) (b : VBag) :
    LabelsIn (referenceIssues hostOk b) [py!"3-Reference", py!"3-Reference-val"] := by
  unfold referenceIssues
  refine labels_cons (List.mem_cons_self ..) known_rec ?_
  split
  · exact labels_cons (List.mem_cons_of_mem _ (List.mem_cons_self ..)) known_error
      (labels_cons (List.mem_cons_of_mem _ (List.mem_cons_self ..)) known_error (labels_nil _))
  · exact labels_nil _

theorem labels_dir (b : VBag) : LabelsIn (dirIssues b) [py!"3-Tag-Directory"] := by
  unfold dirIssues
  split
  · exact labels_cons (List.mem_cons_self ..) known_error (labels_nil _)
  · refine labels_cons (List.mem_cons_self ..) known_error ?_
    split
    · exact labels_nil _
    · exact labels_cons (List.mem_cons_self ..) known_error
        (labels_cons (List.mem_cons_self ..) known_error (labels_nil _))

theorem labels_headVersion (b : VBag) : LabelsIn (headVersionIssues b)
    [py!"3-Head-Version", py!"3-Head-Version_nonempty", py!"3-Head-Version_single"] := by
  unfold headVersionIssues
  split
  · exact labels_cons (List.mem_cons_self ..) known_error (labels_nil _)
  · refine labels_cons (List.mem_cons_of_mem _ (List.mem_cons_self ..)) known_warn ?_
    split
    · exact labels_nil _
    · exact labels_cons (List.mem_cons_of_mem _ (List.mem_cons_of_mem _ (List.mem_cons_self ..))) known_warn
        (labels_nil _)

theorem labels_deprecates (b : VBag) : LabelsIn (deprecatesIssues b)
    [py!"3-Head-Deprecates_notempty", py!"3-Head-Deprecates_format", py!"3-Head-Deprecates_notselfdep"] := by
  unfold deprecatesIssues
  split
  · exact labels_nil _
  · refine labels_cons (List.mem_cons_self ..) known_warn ?_
    split
    · exact labels_nil _
    · exact labels_cons (List.mem_cons_of_mem _ (List.mem_cons_self ..)) known_error
        (labels_cons (List.mem_cons_self ..) known_warn
          (labels_cons (List.mem_cons_of_mem _ (List.mem_cons_of_mem _ (List.mem_cons_self ..))) known_warn
            (labels_nil _)))

theorem labels_rec (b : VBag) (el : Str) : LabelsIn (recIssues b el) [py!"3-2"] := by
  unfold recIssues
  split
  · exact labels_cons (List.mem_cons_self ..) known_rec (labels_nil _)
  · refine labels_cons (List.mem_cons_self ..) known_rec ?_
    split
    · exact labels_nil _
    · exact labels_cons (List.mem_cons_self ..) known_error (labels_nil _)
  · refine labels_cons (List.mem_cons_self ..) known_rec ?_
    split
    · exact labels_cons (List.mem_cons_self ..) known_error (labels_nil _)
    · exact labels_nil _

theorem labels_append {l m : List Issue} {labels : List Str} (h1 : LabelsIn l labels) (h2 : LabelsIn m labels) :
    LabelsIn (l ++ m) labels := fun i hi => (List.mem_append.mp hi).elim (h1 i) (h2 i)

theorem labels_recs (b : VBag) : LabelsIn (recsIssues b) [py!"3-2"] :=
  labels_append (labels_append (labels_rec b _) (labels_rec b _)) (labels_rec b _)

theorem labels_mem {hostOk : Str → Bool} {b : VBag} {v : Option Str} {l : List Issue} (h : MemPart hostOk b v l) :
    LabelsIn l [py!"3-Tag-Directory", py!"4.0-1", py!"4.1-1", py!"4.1-2", py!"4.1-3", py!"4.1-4", py!"4.1-5"] := by
  cases h with
  | noDir => exact labels_cons (List.mem_cons_self ..) known_error (labels_nil _)
  | noFile =>
    exact labels_cons (List.mem_cons_self ..) known_error
      (labels_cons (List.mem_cons_of_mem _ (List.mem_cons_self ..)) known_error (labels_nil _))
  | file text s =>
    refine labels_cons (List.mem_cons_self ..) known_error ?_
    unfold memberIssues
    refine labels_cons ?_ known_error (labels_cons ?_ known_error (labels_cons ?_ known_error
      (labels_cons ?_ known_error (labels_cons ?_ known_error (labels_cons ?_ known_warn (labels_nil _)))))) <;>
      simp

theorem labels_look {b : VBag} {v : Option Str} {l : List Issue} (h : LookPart b v l) :
    LabelsIn l [py!"3-Tag-Directory", py!"4.0-2", py!"4.2-1", py!"4.2-2", py!"4.2-3", py!"4.2-4"] := by
  cases h with
  | noDir => exact labels_cons (List.mem_cons_self ..) known_error (labels_nil _)
  | noFile =>
    exact labels_cons (List.mem_cons_self ..) known_error
      (labels_cons (List.mem_cons_of_mem _ (List.mem_cons_self ..)) known_error (labels_nil _))
  | file text s =>
    refine labels_cons (List.mem_cons_self ..) known_error ?_
    unfold placesIssues
    refine labels_cons ?_ known_error (labels_cons ?_ known_error (labels_cons ?_ known_error
      (labels_cons ?_ known_warn (labels_cons ?_ known_rec (labels_nil _))))) <;> simp

theorem labels_agg {b : VBag} {v : Option Str} {l : List Issue} (h : AggPart b v l) :
    LabelsIn l [py!"4.4-1"] := by
  cases h with
  | skipped => exact labels_nil _
  | file => exact labels_cons (List.mem_cons_self ..) known_error (labels_nil _)

theorem parts_known {hostOk : Str → Bool} {b : VBag} {want : Nat} {l mem look agg : List Issue}
    (h : HeadParts hostOk b want l mem look agg) : ∀ i ∈ l, KnownType i.type := by
  intro i hi
  rw [h.eq] at hi
  simp only [List.mem_append] at hi
  rcases hi with ((((((((hi | hi) | hi) | hi) | hi) | hi) | hi) | hi) | hi) | hi
  · exact (labels_bag b want i hi).2
  · exact (labels_version b _ i hi).2
  · exact (labels_reference hostOk b i hi).2
  · exact (labels_dir b i hi).2
  · exact (labels_headVersion b i hi).2
  · exact (labels_deprecates b i hi).2
  · exact (labels_recs b i hi).2
  · exact (labels_mem h.mem i hi).2
  · exact (labels_look h.look i hi).2
  · exact (labels_agg h.agg i hi).2

/-- A label that belongs to one part is found there or nowhere. -/
theorem parts_label {hostOk : Str → Bool} {b : VBag} {want : Nat} {l mem look agg : List Issue}
    (h : HeadParts hostOk b want l mem look agg) (i : Issue) (hi : i ∈ l) :
    (i ∈ bagIssues b want ∧ i.label ∈ [py!"2-Bag"]) ∨
    (i ∈ versionIssues b (infoVersion b.info) ∧ i.label ∈ [py!"3-Version", py!"3-Version-val"]) ∨
    (i ∈ referenceIssues hostOk b ∧ i.label ∈ [py!"3-Reference", py!"3-Reference-val"]) ∨
    (i ∈ dirIssues b ∧ i.label ∈ [py!"3-Tag-Directory"]) ∨
    (i ∈ headVersionIssues b ∧
      i.label ∈ [py!"3-Head-Version", py!"3-Head-Version_nonempty", py!"3-Head-Version_single"]) ∨
    (i ∈ deprecatesIssues b ∧ i.label ∈ [py!"3-Head-Deprecates_notempty", py!"3-Head-Deprecates_format",
      py!"3-Head-Deprecates_notselfdep"]) ∨
    (i ∈ recsIssues b ∧ i.label ∈ [py!"3-2"]) ∨
    (i ∈ mem ∧ i.label ∈
      [py!"3-Tag-Directory", py!"4.0-1", py!"4.1-1", py!"4.1-2", py!"4.1-3", py!"4.1-4", py!"4.1-5"]) ∨
    (i ∈ look ∧ i.label ∈ [py!"3-Tag-Directory", py!"4.0-2", py!"4.2-1", py!"4.2-2", py!"4.2-3", py!"4.2-4"]) ∨
    (i ∈ agg ∧ i.label ∈ [py!"4.4-1"]) := by
  rw [h.eq] at hi
  simp only [List.mem_append] at hi
  rcases hi with ((((((((hi | hi) | hi) | hi) | hi) | hi) | hi) | hi) | hi) | hi
  · exact Or.inl ⟨hi, (labels_bag b want i hi).1⟩
  · exact Or.inr (Or.inl ⟨hi, (labels_version b _ i hi).1⟩)
  · exact Or.inr (Or.inr (Or.inl ⟨hi, (labels_reference hostOk b i hi).1⟩))
  · exact Or.inr (Or.inr (Or.inr (Or.inl ⟨hi, (labels_dir b i hi).1⟩)))
  · exact Or.inr (Or.inr (Or.inr (Or.inr (Or.inl ⟨hi, (labels_headVersion b i hi).1⟩))))
  · exact Or.inr (Or.inr (Or.inr (Or.inr (Or.inr (Or.inl ⟨hi, (labels_deprecates b i hi).1⟩)))))
  · exact Or.inr (Or.inr (Or.inr (Or.inr (Or.inr (Or.inr (Or.inl ⟨hi, (labels_recs b i hi).1⟩))))))
  · exact Or.inr (Or.inr (Or.inr (Or.inr (Or.inr (Or.inr (Or.inr (Or.inl ⟨hi, (labels_mem h.mem i hi).1⟩)))))))
  · exact Or.inr (Or.inr (Or.inr (Or.inr (Or.inr (Or.inr (Or.inr (Or.inr (Or.inl
      ⟨hi, (labels_look h.look i hi).1⟩))))))))
  · exact Or.inr (Or.inr (Or.inr (Or.inr (Or.inr (Or.inr (Or.inr (Or.inr (Or.inr
      ⟨hi, (labels_agg h.agg i hi).1⟩))))))))

end Verif
