import Verif.Lemmas.Validate
/-! # Lemmas about the steps of head bag validation -/

namespace Verif
open Spec

/-! ## Scanning the member list -/

/-- A row names a URI that can be told apart into its parts. -/
def UriOk (hostOk : Str → Bool) (row : List Str) : Prop :=
  ∀ u, row[1]? = some u → u ≠ [] → ∃ p, urlparse hostOk u = .ok p

/-- The row has no URI, or one that the check accepts. -/
def UriPasses (hostOk : Str → Bool) (row : List Str) : Prop :=
  ∀ u, row[1]? = some u → u ≠ [] → ∀ p, urlparse hostOk u = .ok p → p.1 ≠ [] ∧ p.2 = []

/-- The rows among some lines. -/
def rowsOf (fields : Str → List Str) (lines : List Str) : List (List Str) :=
  (lines.filter (fun l => strip l ≠ [])).map (fun l => (fields l).map strip)

theorem rows_eq (fields : Str → List Str) (text : Str) : rows fields text = rowsOf fields (textLines .universal text) :=
  rfl

theorem rowsOf_cons_blank (fields : Str → List Str) (l : Str) (ls : List Str) (h : strip l = []) :
    rowsOf fields (l :: ls) = rowsOf fields ls := by simp [rowsOf, h]

theorem rowsOf_cons (fields : Str → List Str) (l : Str) (ls : List Str) (h : strip l ≠ []) :
    rowsOf fields (l :: ls) = (fields l).map strip :: rowsOf fields ls := by simp [rowsOf, h]

/-- What the loop over the member list has found. -/
structure ScanOk (hostOk : Str → Bool) (tooMany : List Str → Bool) (name : Str) (rws : List (List Str))
    (s s' : MemberScan) : Prop where
  badfmt : s'.badfmt = [] ↔ s.badfmt = [] ∧ ∀ row ∈ rws, tooMany row = false
  badurl : s'.badurl = [] ↔ s.badurl = [] ∧ ∀ row ∈ rws, UriPasses hostOk row
  foundme : s'.foundme = true ↔ s.foundme = true ∨ ∃ row ∈ rws, row.head?.getD [] = name
  last : s'.last = match rws.getLast? with
    | none => s.last
    | some row => some (row.head?.getD [])
  replicated : s'.replicated = [] ↔ s.replicated = [] ∧ (rws.map (fun r => r.head?.getD [])).Nodup ∧
    ∀ row ∈ rws, row.head?.getD [] ∉ s.found

theorem append_ne_nil' {α : Type} (l : List α) (a : α) : l ++ [a] ≠ [] := by simp

/-- One line. -/
theorem scanMember_ok (hostOk : Str → Bool) (split : Str → List Str) (tooMany : List Str → Bool) (name : Str)
    (s : MemberScan) (l : Str) (hl : strip l ≠ []) (hu : UriOk hostOk ((split (strip l)).map strip)) :
    ∃ s', scanMember hostOk split tooMany name s l = .ok s' ∧
      (s'.badfmt = [] ↔ s.badfmt = [] ∧ tooMany ((split (strip l)).map strip) = false) ∧
      (s'.badurl = [] ↔ s.badurl = [] ∧ UriPasses hostOk ((split (strip l)).map strip)) ∧
      (s'.foundme = true ↔ s.foundme = true ∨ ((split (strip l)).map strip).head?.getD [] = name) ∧
      s'.last = some (((split (strip l)).map strip).head?.getD []) ∧
      (s'.replicated = [] ↔ s.replicated = [] ∧ ((split (strip l)).map strip).head?.getD [] ∉ s.found) ∧
      (∀ n, n ∈ s'.found ↔ n ∈ s.found ∨ n = ((split (strip l)).map strip).head?.getD []) := by
  unfold scanMember
  simp only [if_neg hl]
  generalize (split (strip l)).map strip = row at *
  generalize hbag : row.head?.getD [] = bag
  -- the URL
  have hurl : ∃ bad, checkUrl hostOk (row[1]?.getD []) (s.line + 1) s.badurl = .ok bad ∧
      (bad = [] ↔ s.badurl = [] ∧ UriPasses hostOk row) := by
    unfold checkUrl
    cases h1 : row[1]? with
    | none =>
      refine ⟨s.badurl, if_pos rfl, ⟨fun h => ⟨h, ?_⟩, fun h => h.1⟩⟩
      intro u hu'
      rw [h1] at hu'; cases hu'
    | some u =>
      by_cases hn : u = []
      · subst hn
        refine ⟨s.badurl, if_pos rfl, ⟨fun h => ⟨h, ?_⟩, fun h => h.1⟩⟩
        intro u hu' hn'
        rw [h1] at hu'
        exact absurd (Option.some.inj hu').symm hn'
      · obtain ⟨⟨sc, nl⟩, hp⟩ := hu u h1 hn
        simp only [Option.getD_some, if_neg hn, hp]
        refine ⟨_, rfl, ?_⟩
        by_cases hb : sc = [] ∨ nl ≠ []
        · rw [if_pos (by simpa using hb)]
          refine ⟨fun h => absurd h (append_ne_nil' _ _), fun h => ?_⟩
          obtain ⟨h1', h2'⟩ := h.2 u h1 hn _ hp
          rcases hb with hb | hb
          · exact absurd hb h1'
          · exact absurd h2' hb
        · rw [if_neg (by simpa using hb)]
          refine ⟨fun h => ⟨h, ?_⟩, fun h => h.1⟩
          intro u' hu' _ p hp'
          rw [h1] at hu'
          cases Option.some.inj hu'
          rw [hp] at hp'
          cases Except.ok.inj hp'
          exact ⟨fun hc => hb (Or.inl hc), Classical.byContradiction (fun hc => hb (Or.inr hc))⟩
  obtain ⟨bad, hbad, hbi⟩ := hurl
  by_cases hf : bag ∈ s.found
  · simp only [if_pos hf]
    simp only [hbad]
    refine ⟨_, rfl, ?_, hbi, ?_, rfl, ?_, ?_⟩
    · cases ht : tooMany row <;> simp
    · simp
    · simp [hf]
    · intro n
      refine ⟨Or.inl, fun h => h.elim id (fun e => ?_)⟩
      rw [e]; exact hf
  · simp only [if_neg hf]
    simp only [hbad]
    refine ⟨_, rfl, ?_, hbi, ?_, rfl, ?_, ?_⟩
    · cases ht : tooMany row <;> simp
    · simp
    · simp [hf]
    · intro n; simp

theorem scanMembers_ok (hostOk : Str → Bool) (split : Str → List Str) (tooMany : List Str → Bool) (name : Str)
    (lines : List Str) (s : MemberScan) (hu : ∀ row ∈ rowsOf (fun l => split (strip l)) lines, UriOk hostOk row) :
    ∃ s', scanMembers hostOk split tooMany name lines s = .ok s' ∧
      ScanOk hostOk tooMany name (rowsOf (fun l => split (strip l)) lines) s s' := by
  induction lines generalizing s with
  | nil =>
    refine ⟨s, rfl, ?_, ?_, ?_, rfl, ?_⟩ <;> simp [rowsOf]
  | cons l ls ih =>
    unfold scanMembers
    by_cases hl : strip l = []
    · rw [rowsOf_cons_blank _ _ _ hl] at hu ⊢
      have he : scanMember hostOk split tooMany name s l = .ok { s with line := s.line + 1 } := by
        unfold scanMember; simp only [if_pos hl]
      rw [he]
      obtain ⟨s', h1, h2⟩ := ih { s with line := s.line + 1 } hu
      exact ⟨s', h1, h2.1, h2.2, h2.3, h2.4, h2.5⟩
    · rw [rowsOf_cons _ _ _ hl] at hu ⊢
      obtain ⟨s1, h1, hfmt, hurl, hme, hlast, hrep, hfound⟩ := scanMember_ok hostOk split tooMany name s l hl
        (hu _ (List.mem_cons_self ..))
      rw [h1]
      obtain ⟨s', h2, h3⟩ := ih s1 (fun row hr => hu row (List.mem_cons_of_mem _ hr))
      refine ⟨s', h2, ?_, ?_, ?_, ?_, ?_⟩
      · rw [h3.badfmt, hfmt, List.forall_mem_cons, and_assoc]
      · rw [h3.badurl, hurl, List.forall_mem_cons, and_assoc]
      · rw [h3.foundme, hme, or_assoc]
        refine or_congr_right ⟨fun h => ?_, fun h => ?_⟩
        · rcases h with h | ⟨row, hr, hx⟩
          · exact ⟨_, List.mem_cons_self .., h⟩
          · exact ⟨row, List.mem_cons_of_mem _ hr, hx⟩
        · obtain ⟨row, hr, hx⟩ := h
          rcases List.mem_cons.mp hr with rfl | hr
          · exact Or.inl hx
          · exact Or.inr ⟨row, hr, hx⟩
      · rw [h3.last, List.getLast?_cons, hlast]
        cases (rowsOf (fun l => split (strip l)) ls).getLast? <;> rfl
      · rw [h3.replicated, hrep, List.map_cons, List.nodup_cons, List.forall_mem_cons]
        simp only [hfound, not_or]
        constructor
        · rintro ⟨⟨a, b⟩, c, d⟩
          refine ⟨a, ⟨?_, c⟩, b, fun row hr => (d row hr).1⟩
          intro hm
          obtain ⟨row, hr, hx⟩ := List.mem_map.mp hm
          exact (d row hr).2 hx
        · rintro ⟨a, ⟨b, c⟩, d, e⟩
          refine ⟨⟨a, d⟩, c, fun row hr => ⟨e row hr, fun hx => b (List.mem_map.mpr ⟨row, hr, hx⟩)⟩⟩

theorem scanMember_crash (hostOk : Str → Bool) (split : Str → List Str) (tooMany : List Str → Bool) (name : Str)
    (s : MemberScan) (l : Str) (hl : strip l ≠ []) (u : Str) (hu : ((split (strip l)).map strip)[1]? = some u)
    (hn : u ≠ []) (e : PyErr) (he : urlparse hostOk u = .error e) :
    scanMember hostOk split tooMany name s l = .error e := by
  unfold scanMember
  simp only [if_neg hl]
  rw [hu]
  simp only [Option.getD_some, checkUrl, if_neg hn, he]

theorem urlparse_valueError (hostOk : Str → Bool) (u : Str) (e : PyErr) (h : urlparse hostOk u = .error e) :
    e = .valueError := by
  unfold urlparse at h
  dsimp only at h
  split at h
  · split at h
    · exact (Except.error.inj h).symm
    · cases h
  · cases h

theorem scanMembers_crash (hostOk : Str → Bool) (split : Str → List Str) (tooMany : List Str → Bool) (name : Str)
    (lines : List Str) (s : MemberScan) (row : List Str) (u : Str) (e : PyErr)
    (hr : row ∈ rowsOf (fun l => split (strip l)) lines) (hu : row[1]? = some u) (hn : u ≠ [])
    (he : urlparse hostOk u = .error e) : scanMembers hostOk split tooMany name lines s = .error .valueError := by
  induction lines generalizing s with
  | nil => simp [rowsOf] at hr
  | cons l ls ih =>
    unfold scanMembers
    by_cases hl : strip l = []
    · rw [rowsOf_cons_blank _ _ _ hl] at hr
      have hs : scanMember hostOk split tooMany name s l = .ok { s with line := s.line + 1 } := by
        unfold scanMember; simp only [if_pos hl]
      rw [hs]; exact ih _ hr
    · rw [rowsOf_cons _ _ _ hl] at hr
      by_cases hk : UriOk hostOk ((split (strip l)).map strip)
      · obtain ⟨s1, h1, -⟩ := scanMember_ok hostOk split tooMany name s l hl hk
        rw [h1]
        rcases List.mem_cons.mp hr with rfl | hr
        · obtain ⟨p, hp⟩ := hk u hu hn
          rw [he] at hp; cases hp
        · exact ih s1 hr
      · have : ∃ u, ((split (strip l)).map strip)[1]? = some u ∧ u ≠ [] ∧ ∃ e, urlparse hostOk u = .error e := by
          apply Classical.byContradiction
          intro hc
          apply hk
          intro u hu' hn'
          cases hp : urlparse hostOk u with
          | ok p => exact ⟨p, rfl⟩
          | error e => exact absurd ⟨u, hu', hn', e, hp⟩ hc
        obtain ⟨u', hu', hn', e', he'⟩ := this
        rw [scanMember_crash hostOk split tooMany name s l hl u' hu' hn' e' he', urlparse_valueError _ _ _ he']

/-! ## Scanning the lookup list -/

/-- What the loop over the lookup list has found. -/
structure PlacesOk (b : VBag) (rws : List (List Str)) (s s' : LookupScan) : Prop where
  badfmt : s'.badfmt = [] ↔ s.badfmt = [] ∧ ∀ row ∈ rws, row.length = 2
  missing : s'.missing = [] ↔ s.missing = [] ∧
    ∀ row ∈ rws, row[1]? = some b.name → b.tree.isfile (comps (row.head?.getD [])) = true
  replicated : s'.replicated = [] ↔ s.replicated = [] ∧ (rws.map (fun r => r.head?.getD [])).Nodup ∧
    ∀ row ∈ rws, row.head?.getD [] ∉ s.paths
  paths : ∀ p, p ∈ s'.paths ↔ p ∈ s.paths ∨ ∃ row ∈ rws, row.head?.getD [] = p

theorem scanLookup_ok (split : Str → List Str) (b : VBag) (s : LookupScan) (l : Str) (hl : strip l ≠ []) :
    ((scanLookup split b s l).badfmt = [] ↔ s.badfmt = [] ∧ ((split l).map strip).length = 2) ∧
    ((scanLookup split b s l).missing = [] ↔ s.missing = [] ∧ (((split l).map strip)[1]? = some b.name →
      b.tree.isfile (comps (((split l).map strip).head?.getD [])) = true)) ∧
    ((scanLookup split b s l).replicated = [] ↔ s.replicated = [] ∧
      ((split l).map strip).head?.getD [] ∉ s.paths) ∧
    (∀ p, p ∈ (scanLookup split b s l).paths ↔ p ∈ s.paths ∨ ((split l).map strip).head?.getD [] = p) := by
  unfold scanLookup
  simp only [if_neg hl]
  generalize (split l).map strip = row
  generalize row.head?.getD [] = path
  generalize row[1]? = q
  generalize row.length = n
  by_cases hp : path ∈ s.paths <;> by_cases hn : n = 2 <;>
    by_cases hm : q = some b.name <;> cases hi : b.tree.isfile (comps path) <;>
    simp [hp, hn, hm] <;> intro p <;>
    first
      | (constructor <;> (rintro (h | h) <;> first | exact Or.inl h | exact Or.inr h.symm))
      | exact fun h => h ▸ hp

theorem scanLookups_ok (split : Str → List Str) (b : VBag) (lines : List Str) (s : LookupScan) :
    PlacesOk b (rowsOf split lines) s (lines.foldl (scanLookup split b) s) := by
  induction lines generalizing s with
  | nil => refine ⟨?_, ?_, ?_, ?_⟩ <;> simp [rowsOf]
  | cons l ls ih =>
    rw [List.foldl_cons]
    have h3 := ih (scanLookup split b s l)
    by_cases hl : strip l = []
    · rw [rowsOf_cons_blank _ _ _ hl]
      have he : scanLookup split b s l = { s with line := s.line + 1 } := by
        unfold scanLookup; simp only [if_pos hl]
      rw [he] at h3 ⊢
      exact ⟨h3.1, h3.2, h3.3, h3.4⟩
    · rw [rowsOf_cons _ _ _ hl]
      obtain ⟨hfmt, hmiss, hrep, hpaths⟩ := scanLookup_ok split b s l hl
      refine ⟨?_, ?_, ?_, ?_⟩
      · rw [h3.badfmt, hfmt, List.forall_mem_cons, and_assoc]
      · rw [h3.missing, hmiss, List.forall_mem_cons, and_assoc]
      · rw [h3.replicated, hrep, List.map_cons, List.nodup_cons, List.forall_mem_cons]
        simp only [hpaths, not_or]
        constructor
        · rintro ⟨⟨a, b⟩, c, d⟩
          refine ⟨a, ⟨?_, c⟩, b, fun row hr => (d row hr).1⟩
          intro hm
          obtain ⟨row, hr, hx⟩ := List.mem_map.mp hm
          exact (d row hr).2 hx.symm
        · rintro ⟨a, ⟨b, c⟩, d, e⟩
          refine ⟨⟨a, d⟩, c, fun row hr => ⟨e row hr, fun hx => b (List.mem_map.mpr ⟨row, hr, hx.symm⟩)⟩⟩
      · intro p
        rw [h3.paths, hpaths, or_assoc]
        refine or_congr_right ⟨fun h => ?_, fun h => ?_⟩
        · rcases h with h | ⟨row, hr, hx⟩
          · exact ⟨_, List.mem_cons_self .., h⟩
          · exact ⟨row, List.mem_cons_of_mem _ hr, hx⟩
        · obtain ⟨row, hr, hx⟩ := h
          rcases List.mem_cons.mp hr with rfl | hr
          · exact Or.inl hx
          · exact Or.inr ⟨row, hr, hx⟩

/-! ## The steps -/

/-- A step that returns, recording these issues. -/
def Adds (step : Results → Except PyErr Results) (l : List Issue) : Prop := ∀ out, step out = .ok (out.add l)

/-- A step that raises. -/
def Crashes (step : Results → Except PyErr Results) : Prop :=
  ∃ e, e ≠ PyErr.bagValidationError ∧ ∀ out, step out = .error e

/-- Adding one issue to the end of what was added. -/
theorem add_err (r : Results) (l : List Issue) (label : Str) (p : Bool) (c : List Str) :
    (r.add l).err label p c = r.add (l ++ [⟨label, ERROR, p, c⟩]) := by rw [err_add, add_add]

theorem add_warn (r : Results) (l : List Issue) (label : Str) (p : Bool) (c : List Str) :
    (r.add l).warn label p c = r.add (l ++ [⟨label, WARN, p, c⟩]) := by rw [warn_add, add_add]

theorem add_recommend (r : Results) (l : List Issue) (label : Str) (p : Bool) (c : List Str) :
    (r.add l).recommend label p c = r.add (l ++ [⟨label, REC, p, c⟩]) := by rw [recommend_add, add_add]

/-- The check of the bag as a bag. -/
def bagIssues (b : VBag) (want : Nat) : List Issue :=
  if wants want ERROR then
    match b.verdict with
    | .valid => [⟨py!"2-Bag", ERROR, true, []⟩]
    | .invalid c => [⟨py!"2-Bag", ERROR, false, c⟩]
    | .raises _ => [⟨py!"2-Bag", ERROR, false, []⟩]
  else []

theorem step_bag (b : VBag) (want : Nat) :
    (Requested want ERROR ∧ (∃ e, b.verdict = .raises e ∧ e ≠ .bagValidationError) ∧ Crashes (validateBag b want)) ∨
    (¬ (Requested want ERROR ∧ ∃ e, b.verdict = .raises e ∧ e ≠ .bagValidationError) ∧
      Adds (validateBag b want) (bagIssues b want)) := by
  have hreq : Requested want ERROR ↔ wants want ERROR = true := by
    rw [wants_error, requested_iff]; simp [ERROR, WARN, REC]
  cases hw : wants want ERROR with
  | false =>
    right
    refine ⟨fun h => ?_, fun out => ?_⟩
    · rw [hreq, hw] at h; cases h.1
    · unfold validateBag bagIssues; rw [hw]; exact congrArg Except.ok (add_nil out).symm
  | true =>
    cases hv : b.verdict with
    | valid =>
      right
      refine ⟨fun h => ?_, fun out => ?_⟩
      · obtain ⟨_, e, he, _⟩ := h; cases he
      · unfold validateBag bagIssues; rw [hw, hv]; simp only [if_true, err_add]
    | invalid c =>
      right
      refine ⟨fun h => ?_, fun out => ?_⟩
      · obtain ⟨_, e, he, _⟩ := h; cases he
      · unfold validateBag bagIssues; rw [hw, hv]; simp only [if_true, err_add]
    | raises e =>
      by_cases he : e = .bagValidationError
      · subst he
        right
        refine ⟨fun h => ?_, fun out => ?_⟩
        · obtain ⟨_, e, he, hne⟩ := h
          cases he; exact hne rfl
        · unfold validateBag bagIssues; rw [hw, hv]; simp only [if_true, err_add]
      · left
        refine ⟨hreq.mpr hw, ⟨e, rfl, he⟩, ?_⟩
        by_cases hb : e = .bagError
        · subst hb
          refine ⟨.attributeError, by decide, fun out => ?_⟩
          unfold validateBag; rw [hw, hv]; rfl
        · refine ⟨e, he, fun out => ?_⟩
          unfold validateBag; rw [hw, hv]
          cases e <;> first | exact absurd rfl he | exact absurd rfl hb | rfl

/-- The checks of Multibag-Version. -/
def versionIssues (b : VBag) (version : Option Str) : List Issue :=
  ⟨py!"3-Version", ERROR, hasValue b.info py!"Multibag-Version", []⟩ ::
  match dget b.info py!"Multibag-Version" with
  | none => []
  | some (.one s) =>
    if s = [] then [] else [⟨py!"3-Version", WARN, true, []⟩, ⟨py!"3-Version-val", ERROR, version == some s, []⟩]
  | some (.many l) =>
    if l = [] then [] else [⟨py!"3-Version", WARN, false, []⟩, ⟨py!"3-Version-val", ERROR, false, []⟩]

theorem step_version (b : VBag) (version : Option Str) (out : Results) :
    validateVersion b version out = out.add (versionIssues b version) := by
  unfold validateVersion versionIssues
  dsimp only
  cases dget b.info py!"Multibag-Version" with
  | none => rw [err_add]
  | some v =>
    cases v with
    | one s =>
      by_cases h : s = []
      · simp only [if_pos h, err_add]
      · simp only [if_neg h, err_add, add_warn, add_err, add_add]; rfl
    | many l =>
      by_cases h : l = []
      · simp only [if_pos h, err_add]
      · simp only [if_neg h, err_add, add_warn, add_err, add_add]; rfl

/-- The checks of Multibag-Reference. -/
def referenceIssues (hostOk : Str → Bool) (b : VBag) : List Issue :=
  ⟨py!"3-Reference", REC, hasValue b.info py!"Multibag-Reference", []⟩ ::
  if hasValue b.info py!"Multibag-Reference" = true then
    [⟨py!"3-Reference-val", ERROR, decide (lastValue b.info py!"Multibag-Reference" ≠ []), []⟩,
     ⟨py!"3-Reference-val", ERROR, match urlparse hostOk (lastValue b.info py!"Multibag-Reference") with
        | .ok (s, h) => s ≠ [] && h ≠ []
        | .error _ => false, []⟩]
  else []

theorem step_reference (hostOk : Str → Bool) (b : VBag) :
    (hasValue b.info py!"Multibag-Reference" = true ∧
      (∃ e, urlparse hostOk (lastValue b.info py!"Multibag-Reference") = .error e) ∧
      Crashes (validateReference hostOk b)) ∨
    (¬ (hasValue b.info py!"Multibag-Reference" = true ∧
      ∃ e, urlparse hostOk (lastValue b.info py!"Multibag-Reference") = .error e) ∧
      Adds (validateReference hostOk b) (referenceIssues hostOk b)) := by
  cases hd : dget b.info py!"Multibag-Reference" with
  | none =>
    right
    have hv : hasValue b.info py!"Multibag-Reference" = false := by unfold hasValue; rw [hd]
    refine ⟨fun h => ?_, fun out => ?_⟩
    · rw [hv] at h; cases h.1
    · unfold validateReference referenceIssues
      rw [hd, hv]; dsimp only; rw [recommend_add]; rfl
  | some v =>
    have hlast : lastValue b.info py!"Multibag-Reference" = v.values.getLast?.getD [] := by
      unfold lastValue fields; rw [hd]
    cases ht : v.truthy with
    | false =>
      right
      have hv : hasValue b.info py!"Multibag-Reference" = false := by unfold hasValue; rw [hd]; exact ht
      refine ⟨fun h => ?_, fun out => ?_⟩
      · rw [hv] at h; cases h.1
      · unfold validateReference referenceIssues
        rw [hd, hv]; dsimp only; rw [recommend_add, ht]; rfl
    | true =>
      have hv : hasValue b.info py!"Multibag-Reference" = true := by unfold hasValue; rw [hd]; exact ht
      cases hu : urlparse hostOk (lastValue b.info py!"Multibag-Reference") with
      | error e =>
        left
        refine ⟨hv, ⟨e, rfl⟩, e, ?_, fun out => ?_⟩
        · rw [urlparse_valueError _ _ _ hu]; decide
        · unfold validateReference
          rw [hd]; dsimp only
          rw [ht, ← hlast, hu]; rfl
      | ok p =>
        right
        refine ⟨fun h => ?_, fun out => ?_⟩
        · obtain ⟨_, e, he⟩ := h; cases he
        · unfold validateReference referenceIssues
          rw [hd]; dsimp only
          rw [ht, ← hlast, hu, hv]
          obtain ⟨s, h⟩ := p
          simp only [if_true, recommend_add, add_err]
          rfl

/-- The checks of Multibag-Tag-Directory. -/
def dirIssues (b : VBag) : List Issue :=
  match dget b.info py!"Multibag-Tag-Directory" with
  | none => [⟨py!"3-Tag-Directory", ERROR, b.tree.isdir [py!"multibag"], []⟩]
  | some v =>
    ⟨py!"3-Tag-Directory", ERROR, decide (v.values.getLast?.getD [] ≠ []), []⟩ ::
    if v.values.getLast?.getD [] = [] then []
    else [⟨py!"3-Tag-Directory", ERROR, v.values.length == 1, []⟩,
      ⟨py!"3-Tag-Directory", ERROR, b.tree.isdir (comps (v.values.getLast?.getD [])), []⟩]

theorem step_dir (b : VBag) (out : Results) : validateTagDirectory b out = out.add (dirIssues b) := by
  unfold validateTagDirectory dirIssues
  cases dget b.info py!"Multibag-Tag-Directory" with
  | none => rw [err_add]
  | some v =>
    dsimp only
    by_cases h : v.values.getLast?.getD [] = []
    · rw [if_pos h, if_pos h, err_add]
    · rw [if_neg h, if_neg h]; simp only [err_add, add_add]; rfl

/-- The checks of Multibag-Head-Version. -/
def headVersionIssues (b : VBag) : List Issue :=
  match dget b.info py!"Multibag-Head-Version" with
  | none => [⟨py!"3-Head-Version", ERROR, false, []⟩]
  | some v =>
    ⟨py!"3-Head-Version_nonempty", WARN, decide (v.values.getLast?.getD [] ≠ []), []⟩ ::
    if v.values = [] then [] else [⟨py!"3-Head-Version_single", WARN, v.values.length == 1, []⟩]

theorem step_headVersion (b : VBag) (out : Results) :
    validateHeadVersion b out = out.add (headVersionIssues b) := by
  unfold validateHeadVersion headVersionIssues
  cases dget b.info py!"Multibag-Head-Version" with
  | none => rw [err_add]
  | some v =>
    dsimp only
    by_cases h : v.values = []
    · rw [if_pos h, if_pos h, warn_add]
    · rw [if_neg h, if_neg h]; simp only [warn_add, add_add]; rfl

/-- The checks of Multibag-Head-Deprecates. -/
def deprecatesIssues (b : VBag) : List Issue :=
  match dget b.info py!"Multibag-Head-Deprecates" with
  | none => []
  | some v =>
    ⟨py!"3-Head-Deprecates_notempty", WARN, decide (v.values.head?.getD [] ≠ []), []⟩ ::
    if v.values.head?.getD [] = [] then []
    else [⟨py!"3-Head-Deprecates_format", ERROR,
        decide (v.values.filter (fun val => (deprecParts val).length > 2) = []),
        v.values.filter (fun val => (deprecParts val).length > 2)⟩,
      ⟨py!"3-Head-Deprecates_notempty", WARN, v.values.any (fun val => val ≠ []), []⟩,
      ⟨py!"3-Head-Deprecates_notselfdep", WARN, !(v.values.any (fun val =>
          (deprecParts val).head? = some (lastValue b.info py!"Multibag-Head-Version") ||
          (deprecParts val)[1]? = some b.name)), []⟩]

theorem lastValue_eq (info : Info) (key : Str) : lastValue info key = (match dget info key with
    | none => []
    | some h => h.values.getLast?.getD []) := by
  unfold lastValue fields
  cases dget info key <;> rfl

theorem step_deprecates (b : VBag) :
    (dmem b.info py!"Multibag-Head-Deprecates" = true ∧ lastValue b.info py!"Multibag-Head-Version" = [] ∧
      Crashes (validateHeadDeprecates b)) ∨
    (¬ (dmem b.info py!"Multibag-Head-Deprecates" = true ∧ lastValue b.info py!"Multibag-Head-Version" = []) ∧
      Adds (validateHeadDeprecates b) (deprecatesIssues b)) := by
  cases hd : dget b.info py!"Multibag-Head-Deprecates" with
  | none =>
    right
    refine ⟨fun h => ?_, fun out => ?_⟩
    · have := h.1
      unfold dmem at this
      rw [hd] at this; cases this
    · unfold validateHeadDeprecates deprecatesIssues
      rw [hd, add_nil]
  | some v =>
    have hm : dmem b.info py!"Multibag-Head-Deprecates" = true := by
      unfold dmem; rw [hd]; rfl
    have hl := lastValue_eq b.info py!"Multibag-Head-Version"
    by_cases hv : lastValue b.info py!"Multibag-Head-Version" = []
    · left
      refine ⟨hm, hv, .assertionError, by decide, fun out => ?_⟩
      unfold validateHeadDeprecates
      rw [hd]; dsimp only
      cases hh : dget b.info py!"Multibag-Head-Version" with
      | none => rfl
      | some h => rw [hh] at hl; exact if_pos (hl.symm.trans hv)
    · right
      refine ⟨fun h => hv h.2, fun out => ?_⟩
      unfold validateHeadDeprecates deprecatesIssues
      rw [hd]; dsimp only
      cases hh : dget b.info py!"Multibag-Head-Version" with
      | none => rw [hh] at hl; exact absurd hl hv
      | some h =>
        rw [hh] at hl
        dsimp only at hl ⊢
        simp only [← hl]
        rw [if_neg hv]
        by_cases he : v.values.head?.getD [] = []
        · rw [if_pos he, if_pos he, warn_add]
        · rw [if_neg he, if_neg he]; simp only [warn_add, err_add, add_add]; rfl

/-- The checks of one recommended field. -/
def recIssues (b : VBag) (el : Str) : List Issue :=
  match dget b.info el with
  | none => [⟨py!"3-2", REC, false, []⟩]
  | some (.one s) =>
    ⟨py!"3-2", REC, decide (s ≠ []), []⟩ :: if s = [] then [] else [⟨py!"3-2", ERROR, true, []⟩]
  | some (.many l) =>
    ⟨py!"3-2", REC, decide (l.getLast?.getD [] ≠ []), []⟩ ::
      if l.getLast?.getD [] ≠ [] then [⟨py!"3-2", ERROR, l.all (fun s => s ≠ []), []⟩] else []

theorem step_rec (b : VBag) (el : Str) (out : Results) : validateRec b el out = out.add (recIssues b el) := by
  unfold validateRec recIssues
  cases dget b.info el with
  | none => rw [recommend_add]
  | some v =>
    cases v with
    | one s =>
      by_cases h : s = []
      · simp only [if_pos h, recommend_add]
      · simp only [if_neg h, recommend_add, add_err]; rfl
    | many l =>
      by_cases h : l.getLast?.getD [] = []
      · simp [h, recommend_add]
      · simp [h, recommend_add, add_err]

/-- The checks of the recommended fields. -/
def recsIssues (b : VBag) : List Issue :=
  recIssues b py!"Internal-Sender-Identifier" ++ recIssues b py!"Internal-Sender-Description" ++
    recIssues b py!"Bag-Group-Identifier"

theorem step_recs (b : VBag) (out : Results) : validateBaginfoRecs b out = out.add (recsIssues b) := by
  unfold validateBaginfoRecs recsIssues
  simp only [step_rec, add_add]

/-- The assertions made before tag files are read. -/
theorem assertedDir_eq (b : VBag) :
    assertedDir b = if tagDirOf b = [] then .error .assertionError
      else if dmem b.info py!"Multibag-Head-Version" = true then .ok (tagDirOf b) else .error .assertionError := rfl

end Verif
