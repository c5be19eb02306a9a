import Verif.Lemmas.ValidateAll
/-!
# C63–C66: validation of head bags
-/

namespace Verif
open Spec

/-! ## C63 -/

/-- C63, exactly: validating a bag as a head bag raises in the cases that `HeadCrash` lists, and in no
other. -/
theorem C63_raises_exactly (hostOk : Str → Bool) (b : VBag) (want : Nat) (results : Option Results) :
    (∃ e, validateHead hostOk b want results = .error e) ↔ HeadCrash hostOk b want := by
  rcases validateHead_cases hostOk b want results with ⟨hc, e, _, he⟩ | ⟨hn, l, _, _, _, _, hr⟩
  · exact ⟨fun _ => hc, fun _ => ⟨e, he⟩⟩
  · refine ⟨?_, fun hc => absurd hc hn⟩
    rintro ⟨e, he⟩
    rw [he] at hr; cases hr

/-- C63 is false: for a bag that is no head bag, validation as a head bag never gives a result. -/
theorem C63_negation_nonhead (hostOk : Str → Bool) (b : VBag) (want : Nat) (results : Option Results)
    (h : dmem b.info py!"Multibag-Head-Version" = false) :
    ∃ e, validateHead hostOk b want results = .error e ∧ e ≠ .bagValidationError := by
  rcases validateHead_cases hostOk b want results with ⟨_, e, hne, he⟩ | ⟨hn, _⟩
  · exact ⟨e, he, hne⟩
  · exact absurd (.notHead h) hn

/-- C63, for a head bag that names its version, whose reference and member URIs Python can parse, that names a
tag directory, has a payload directory and no directory in place of aggregation-info.txt, and whose validation
as a bag ends properly: validation returns results.  Missing are the other bags. -/
theorem C63_returns_partial (hostOk : Str → Bool) (b : VBag) (want : Nat)
    (hverdict : ∀ e, b.verdict ≠ .raises e)
    (hhead : lastValue b.info py!"Multibag-Head-Version" ≠ [])
    (href : ∃ p, urlparse hostOk (lastValue b.info py!"Multibag-Reference") = .ok p)
    (huris : ∀ text, b.tree.read (tagFile (tagDirOf b) (listFile (infoVersion b.info))) = some text →
      ∀ row ∈ rows (listFields (infoVersion b.info)) text, ∀ u, row[1]? = some u → ∃ p, urlparse hostOk u = .ok p)
    (hdir : tagDirOf b ≠ [])
    (hdata : b.tree.isdir [py!"data"] = true)
    (hagg : b.tree.exists (tagFile (tagDirOf b) py!"aggregation-info.txt") = true →
      b.tree.isfile (tagFile (tagDirOf b) py!"aggregation-info.txt") = true) :
    ∃ r, validateHead hostOk b want none = .ok r := by
  rcases validateHead_cases hostOk b want none with ⟨hc, _⟩ | ⟨_, l, _, _, _, _, hr⟩
  · exfalso
    cases hc with
    | bag e h hv he => exact hverdict e hv
    | reference e hv h =>
      obtain ⟨p, hp⟩ := href
      rw [h] at hp; cases hp
    | deprecates h hv => exact hhead hv
    | notHead h =>
      apply hhead
      unfold lastValue fields
      unfold dmem at h
      cases hd : dget b.info py!"Multibag-Head-Version" with
      | none => rfl
      | some v => rw [hd] at h; cases h
    | emptyDir h => exact hdir h
    | uri text row u e hd hf hr hu hn h =>
      obtain ⟨p, hp⟩ := huris text hf row hr u hu
      rw [h] at hp; cases hp
    | noData hd hf h => rw [hdata] at h; cases h
    | aggregation h2 h3 hx h => rw [hagg hx] at h; cases h
  · exact ⟨_, hr⟩

/-- A head bag with one other member. -/
def Sample.validHead : VBag where
  name := py!"head"
  tree := [([py!"data"], .dir), ([py!"data", py!"a"], .file py!"x"), ([py!"multibag"], .dir),
    ([py!"multibag", py!"member-bags.tsv"], .file py!"m1\tdoi:10/1\nhead\n"),
    ([py!"multibag", py!"file-lookup.tsv"], .file py!"data/a\thead\ndata/b\tm1\n"),
    ([py!"multibag", py!"aggregation-info.txt"], .file py!"Bag-Size: 2 kB\n")]
  info := [(py!"Multibag-Version", .one py!"0.4"), (py!"Multibag-Head-Version", .one py!"2"),
    (py!"Multibag-Head-Deprecates", .one py!"1, m1"), (py!"Multibag-Reference", .one py!"https://doi.org/10/1"),
    (py!"Internal-Sender-Identifier", .one py!"i"), (py!"Internal-Sender-Description", .one py!"d"),
    (py!"Bag-Group-Identifier", .one py!"g")]
  verdict := .valid

/-- Results with a property that can be computed. -/
theorem Sample.results_of_check {r : Except PyErr Results} {f : Results → Bool}
    (h : (match r with | .ok x => f x | .error _ => false) = true) : ∃ x, r = .ok x ∧ f x = true := by
  cases r with
  | error e => cases h
  | ok x => exact ⟨x, rfl, h⟩

/-- It meets the hypotheses, and passes all checks. -/
example : ∃ r, validateHead (fun _ => true) Sample.validHead ALL none = .ok r ∧
    (r.ok && r.countApplied == 34) = true := Sample.results_of_check (by decide +kernel)

/-- It does with `http` references for its members no more. -/
example : ∃ r, validateHead (fun _ => true) { Sample.validHead with
      tree := dset Sample.validHead.tree [py!"multibag", py!"member-bags.tsv"]
        (.file py!"m1\thttp://host/m1.zip\nhead\n") } ALL none = .ok r ∧
    ((r.failed).map (fun i => i.label) == [py!"4.1-2"]) = true := Sample.results_of_check (by decide +kernel)

/-! ## Finding a check among the results -/

theorem reports_add (want : Nat) (l part : List Issue) (t : Nat) (lab : Str) (p : Bool)
    (hk : ∀ i ∈ l, KnownType i.type) (hsub : ∀ i ∈ part, i ∈ l) (hlab : ∀ i ∈ l, i.label = lab → i ∈ part) :
    Reports (({ want := want } : Results).add l) t lab p ↔
      ∃ i ∈ part, i.type = t ∧ i.label = lab ∧ i.passed = p := by
  constructor
  · rintro ⟨i, hi, h1, h2, h3⟩
    exact ⟨i, hlab i ((mem_applied_add _ _ _ _).mp hi).1 h2, h1, h2, h3⟩
  · rintro ⟨i, hi, h⟩
    refine ⟨i, (mem_applied_add _ _ _ _).mpr ⟨hsub i hi, ?_⟩, h⟩
    rcases hk i (hsub i hi) with e | e | e <;> rw [e] <;> decide

/-- Checks of the member list. -/
theorem reports_mem {hostOk : Str → Bool} {b : VBag} {want : Nat} {l mem look agg : List Issue}
    (h : HeadParts hostOk b want l mem look agg) (t : Nat) (lab : Str) (p : Bool)
    (hlab : lab ∈ [py!"4.0-1", py!"4.1-1", py!"4.1-2", py!"4.1-3", py!"4.1-4", py!"4.1-5"]) :
    Reports (({ want := want } : Results).add l) t lab p ↔
      ∃ i ∈ mem, i.type = t ∧ i.label = lab ∧ i.passed = p := by
  refine reports_add want l mem t lab p (parts_known h) ?_ ?_
  · intro i hi; rw [h.eq]; simp [hi]
  · intro i hi hl
    have hne : ∀ labels : List Str, (∀ x ∈ [py!"4.0-1", py!"4.1-1", py!"4.1-2", py!"4.1-3", py!"4.1-4", py!"4.1-5"],
        x ∉ labels) → ¬ i.label ∈ labels := fun labels hd hm => hd lab hlab (hl ▸ hm)
    rcases parts_label h i hi with ⟨_, hx⟩ | ⟨_, hx⟩ | ⟨_, hx⟩ | ⟨_, hx⟩ | ⟨_, hx⟩ | ⟨_, hx⟩ | ⟨_, hx⟩ | ⟨hm, _⟩ |
      ⟨_, hx⟩ | ⟨_, hx⟩
    case inr.inr.inr.inr.inr.inr.inr.inl => exact hm
    all_goals exact absurd hx (hne _ (by decide))

/-- Checks of the lookup list. -/
theorem reports_look {hostOk : Str → Bool} {b : VBag} {want : Nat} {l mem look agg : List Issue}
    (h : HeadParts hostOk b want l mem look agg) (t : Nat) (lab : Str) (p : Bool)
    (hlab : lab ∈ [py!"4.0-2", py!"4.2-1", py!"4.2-2", py!"4.2-3", py!"4.2-4"]) :
    Reports (({ want := want } : Results).add l) t lab p ↔
      ∃ i ∈ look, i.type = t ∧ i.label = lab ∧ i.passed = p := by
  refine reports_add want l look t lab p (parts_known h) ?_ ?_
  · intro i hi; rw [h.eq]; simp [hi]
  · intro i hi hl
    have hne : ∀ labels : List Str, (∀ x ∈ [py!"4.0-2", py!"4.2-1", py!"4.2-2", py!"4.2-3", py!"4.2-4"],
        x ∉ labels) → ¬ i.label ∈ labels := fun labels hd hm => hd lab hlab (hl ▸ hm)
    rcases parts_label h i hi with ⟨_, hx⟩ | ⟨_, hx⟩ | ⟨_, hx⟩ | ⟨_, hx⟩ | ⟨_, hx⟩ | ⟨_, hx⟩ | ⟨_, hx⟩ | ⟨_, hx⟩ |
      ⟨hm, _⟩ | ⟨_, hx⟩
    case inr.inr.inr.inr.inr.inr.inr.inr.inl => exact hm
    all_goals exact absurd hx (hne _ (by decide))

/-- Checks of the version. -/
theorem reports_version {hostOk : Str → Bool} {b : VBag} {want : Nat} {l mem look agg : List Issue}
    (h : HeadParts hostOk b want l mem look agg) (t : Nat) (lab : Str) (p : Bool)
    (hlab : lab ∈ [py!"3-Version", py!"3-Version-val"]) :
    Reports (({ want := want } : Results).add l) t lab p ↔
      ∃ i ∈ versionIssues b (infoVersion b.info), i.type = t ∧ i.label = lab ∧ i.passed = p := by
  refine reports_add want l _ t lab p (parts_known h) ?_ ?_
  · intro i hi; rw [h.eq]; simp [hi]
  · intro i hi hl
    have hne : ∀ labels : List Str, (∀ x ∈ [py!"3-Version", py!"3-Version-val"],
        x ∉ labels) → ¬ i.label ∈ labels := fun labels hd hm => hd lab hlab (hl ▸ hm)
    rcases parts_label h i hi with ⟨_, hx⟩ | ⟨hm, _⟩ | ⟨_, hx⟩ | ⟨_, hx⟩ | ⟨_, hx⟩ | ⟨_, hx⟩ | ⟨_, hx⟩ | ⟨_, hx⟩ |
      ⟨_, hx⟩ | ⟨_, hx⟩
    case inr.inl => exact hm
    all_goals exact absurd hx (hne _ (by decide))

/-- Checks of the reference. -/
theorem reports_reference {hostOk : Str → Bool} {b : VBag} {want : Nat} {l mem look agg : List Issue}
    (h : HeadParts hostOk b want l mem look agg) (t : Nat) (lab : Str) (p : Bool)
    (hlab : lab ∈ [py!"3-Reference", py!"3-Reference-val"]) :
    Reports (({ want := want } : Results).add l) t lab p ↔
      ∃ i ∈ referenceIssues hostOk b, i.type = t ∧ i.label = lab ∧ i.passed = p := by
  refine reports_add want l _ t lab p (parts_known h) ?_ ?_
  · intro i hi; rw [h.eq]; simp [hi]
  · intro i hi hl
    have hne : ∀ labels : List Str, (∀ x ∈ [py!"3-Reference", py!"3-Reference-val"],
        x ∉ labels) → ¬ i.label ∈ labels := fun labels hd hm => hd lab hlab (hl ▸ hm)
    rcases parts_label h i hi with ⟨_, hx⟩ | ⟨_, hx⟩ | ⟨hm, _⟩ | ⟨_, hx⟩ | ⟨_, hx⟩ | ⟨_, hx⟩ | ⟨_, hx⟩ | ⟨_, hx⟩ |
      ⟨_, hx⟩ | ⟨_, hx⟩
    case inr.inr.inl => exact hm
    all_goals exact absurd hx (hne _ (by decide))

/-- The parts of results that were returned. -/
theorem returned_parts {hostOk : Str → Bool} {b : VBag} {want : Nat} {r : Results}
    (h : validateHead hostOk b want none = .ok r) : ∃ l mem look agg, HeadParts hostOk b want l mem look agg ∧
      r = ({ want := want } : Results).add l := by
  rcases validateHead_cases hostOk b want none with ⟨_, e, _, he⟩ | ⟨_, l, mem, look, agg, hp, hr⟩
  · rw [he] at h; cases h
  · rw [hr] at h
    exact ⟨l, mem, look, agg, hp, (Except.ok.inj h).symm⟩

/-- The one check with this label after the member list is read. -/
theorem member_check (name : Str) (s : MemberScan) (t : Nat) (lab : Str) (p q : Bool) (c : List Str)
    (hmem : (⟨lab, t, q, c⟩ : Issue) ∈ memberIssues name s)
    (hone : lab ≠ py!"3-Tag-Directory") :
    (∃ i ∈ (⟨py!"3-Tag-Directory", ERROR, true, []⟩ :: memberIssues name s), i.type = t ∧ i.label = lab ∧ i.passed = p) ↔
      q = p := by
  constructor
  · rintro ⟨i, hi, h1, h2, h3⟩
    rcases List.mem_cons.mp hi with rfl | hi
    · exact absurd h2.symm hone
    · unfold memberIssues at hmem hi
      simp only [List.mem_cons, List.not_mem_nil, or_false, Issue.mk.injEq] at hmem
      simp only [List.mem_cons, List.not_mem_nil, or_false] at hi
      rcases hmem with ⟨rfl, _, rfl, _⟩ | ⟨rfl, _, rfl, _⟩ | ⟨rfl, _, rfl, _⟩ | ⟨rfl, _, rfl, _⟩ | ⟨rfl, _, rfl, _⟩ |
          ⟨rfl, _, rfl, _⟩ <;>
        rcases hi with rfl | rfl | rfl | rfl | rfl | rfl <;>
        first | exact h3 | exact absurd h2 (by simp)
  · intro e; subst e
    exact ⟨_, List.mem_cons_of_mem _ hmem, rfl, rfl, rfl⟩

/-- The same for the lookup list. -/
theorem places_check (b : VBag) (s : LookupScan) (t : Nat) (lab : Str) (p q : Bool) (c : List Str)
    (hmem : (⟨lab, t, q, c⟩ : Issue) ∈ placesIssues b s)
    (hone : lab ≠ py!"3-Tag-Directory") :
    (∃ i ∈ (⟨py!"3-Tag-Directory", ERROR, true, []⟩ :: placesIssues b s), i.type = t ∧ i.label = lab ∧ i.passed = p) ↔
      q = p := by
  constructor
  · rintro ⟨i, hi, h1, h2, h3⟩
    rcases List.mem_cons.mp hi with rfl | hi
    · exact absurd h2.symm hone
    · unfold placesIssues at hmem hi
      simp only [List.mem_cons, List.not_mem_nil, or_false, Issue.mk.injEq] at hmem
      simp only [List.mem_cons, List.not_mem_nil, or_false] at hi
      rcases hmem with ⟨rfl, _, rfl, _⟩ | ⟨rfl, _, rfl, _⟩ | ⟨rfl, _, rfl, _⟩ | ⟨rfl, _, rfl, _⟩ | ⟨rfl, _, rfl, _⟩ <;>
        rcases hi with rfl | rfl | rfl | rfl | rfl <;>
        first | exact h3 | exact absurd h2 (by simp)
  · intro e; subst e
    exact ⟨_, List.mem_cons_of_mem _ hmem, rfl, rfl, rfl⟩

/-! ## C66 -/

/-- C66, what the checks of the member list say.  It must be there; if it is, the head bag must be listed,
and last, and no bag twice.  The check of the format never fails.  Missing are the bags that the lookup list
names: nothing asks whether they are listed, see `C66_negation_unlisted`. -/
theorem C66_members_partial (hostOk : Str → Bool) (b : VBag) (want : Nat) (r : Results)
    (hv : infoVersion b.info ≠ some py!"0.2") (h : validateHead hostOk b want none = .ok r)
    (hd : b.tree.isdir (comps (tagDirOf b)) = true) :
    (Reports r ERROR py!"4.0-1" false ↔ b.tree.isfile (tagFile (tagDirOf b) py!"member-bags.tsv") = false) ∧
    ∀ text, b.tree.read (tagFile (tagDirOf b) py!"member-bags.tsv") = some text →
      Reports r ERROR py!"4.1-1" true ∧ ¬ Reports r ERROR py!"4.1-1" false ∧
      (Reports r ERROR py!"4.1-3" true ↔ ∃ row ∈ memberRows text, row.head?.getD [] = b.name) ∧
      (Reports r ERROR py!"4.1-4" true ↔ ∃ before row, memberRows text = before ++ [row] ∧ row.head?.getD [] = b.name) ∧
      (Reports r WARN py!"4.1-5" true ↔ ((memberRows text).map (fun row => row.head?.getD [])).Nodup) := by
  obtain ⟨l, mem, look, agg, hp, rfl⟩ := returned_parts h
  have hf : listFile (infoVersion b.info) = py!"member-bags.tsv" := by unfold listFile; rw [if_neg hv]
  have hfd : ∀ text, rows (listFields (infoVersion b.info)) text = memberRows text := by
    intro text; unfold listFields memberRows; rw [if_neg hv]
  have htm : tooManyOf (infoVersion b.info) = fun _ => false := by unfold tooManyOf; rw [if_neg hv]
  have hm := hp.mem
  cases hm with
  | noDir hd' => rw [hd'] at hd; cases hd
  | noFile _ hf' =>
    rw [hf] at hf'
    refine ⟨⟨fun _ => ?_, fun _ => ?_⟩, ?_⟩
    · rw [read_isfile, hf']; rfl
    · rw [reports_mem hp ERROR py!"4.0-1" false (by decide)]
      exact ⟨_, List.mem_cons_of_mem _ (List.mem_cons_self ..), rfl, rfl, rfl⟩
    · intro text ht; rw [hf'] at ht; cases ht
  | file text s hd' hf' hu hs =>
    rw [hf] at hf'
    rw [hfd, htm] at hs
    refine ⟨⟨fun hc => ?_, fun hc => ?_⟩, ?_⟩
    · rw [reports_mem hp ERROR py!"4.0-1" false (by decide),
        member_check b.name s ERROR py!"4.0-1" false true [] (List.mem_cons_self ..) (by decide)] at hc
      cases hc
    · rw [read_isfile, hf'] at hc; cases hc
    · intro text' ht
      rw [hf'] at ht
      cases Option.some.inj ht
      have hfmt : s.badfmt = [] := hs.badfmt.mpr ⟨rfl, fun _ _ => rfl⟩
      refine ⟨?_, ?_, ?_, ?_, ?_⟩
      · rw [reports_mem hp ERROR py!"4.1-1" true (by decide),
          member_check b.name s ERROR py!"4.1-1" true (decide (s.badfmt = [])) (lineComment s.badfmt)
            (by simp [memberIssues]) (by decide)]
        exact decide_eq_true hfmt
      · rw [reports_mem hp ERROR py!"4.1-1" false (by decide),
          member_check b.name s ERROR py!"4.1-1" false (decide (s.badfmt = [])) (lineComment s.badfmt)
            (by simp [memberIssues]) (by decide)]
        rw [decide_eq_true hfmt]; decide
      · rw [reports_mem hp ERROR py!"4.1-3" true (by decide),
          member_check b.name s ERROR py!"4.1-3" true s.foundme [] (by simp [memberIssues]) (by decide), hs.foundme]
        exact ⟨fun h => h.elim (fun h => by cases h) id, Or.inr⟩
      · rw [reports_mem hp ERROR py!"4.1-4" true (by decide),
          member_check b.name s ERROR py!"4.1-4" true (decide (s.last = some b.name)) [] (by simp [memberIssues])
            (by decide), decide_eq_true_iff, hs.last]
        constructor
        · intro hl
          cases hg : (memberRows text).getLast? with
          | none => rw [hg] at hl; cases hl
          | some row =>
            rw [hg] at hl
            obtain ⟨before, hb⟩ := List.getLast?_eq_some_iff.mp hg
            exact ⟨before, row, hb, Option.some.inj hl⟩
        · rintro ⟨before, row, hb, hn⟩
          have hg : (memberRows text).getLast? = some row := by rw [hb]; simp
          rw [hg]; exact congrArg some hn
      · rw [reports_mem hp WARN py!"4.1-5" true (by decide),
          member_check b.name s WARN py!"4.1-5" true (decide (s.replicated = [])) (lineComment s.replicated)
            (by simp [memberIssues]) (by decide), decide_eq_true_iff, hs.replicated]
        exact ⟨fun h => h.2.1, fun h => ⟨rfl, h, fun _ _ => List.not_mem_nil⟩⟩

theorem mem_listedPayload {t : Tree} {x : Str} : x ∈ listedPayload t ↔
    ∃ dirs name c, (py!"data" :: dirs ++ [name], Node.file c) ∈ t ∧ name.head? ≠ some '.' ∧ name.head? ≠ some '_' ∧
      x = joinPath (py!"data" :: dirs ++ [name]) := by
  have hany : ∀ name : Str, (!(name.head?.any (fun c => c = '.' || c = '_'))) = true ↔
      name.head? ≠ some '.' ∧ name.head? ≠ some '_' := by
    intro name
    cases name with
    | nil => simp
    | cons c n => simp
  unfold listedPayload
  rw [List.mem_filterMap]
  constructor
  · rintro ⟨⟨p, n⟩, hm, he⟩
    cases n with
    | dir => cases he
    | file c =>
      simp only at he
      split at he
      · next hc =>
        cases he
        rw [Bool.and_eq_true, Bool.and_eq_true, decide_eq_true_iff, decide_eq_true_iff] at hc
        obtain ⟨⟨h1, h2⟩, h3⟩ := hc
        cases p with
        | nil => cases h1
        | cons d p =>
          cases Option.some.inj h1
          have hne : p ≠ [] := by rintro rfl; exact h2 rfl
          obtain ⟨dirs, name, rfl⟩ : ∃ dirs name, p = dirs ++ [name] := ⟨p.dropLast, p.getLast hne, (List.dropLast_concat_getLast hne).symm⟩
          rw [← List.cons_append, List.getLast?_concat] at h3
          exact ⟨dirs, name, c, hm, ((hany name).1 h3).1, ((hany name).1 h3).2, rfl⟩
      · cases he
  · rintro ⟨dirs, name, c, hm, h1, h2, rfl⟩
    refine ⟨_, hm, ?_⟩
    simp only
    rw [if_pos]
    rw [Bool.and_eq_true, Bool.and_eq_true, decide_eq_true_iff, decide_eq_true_iff, List.getLast?_concat]
    exact ⟨⟨rfl, by simp⟩, (hany name).2 ⟨h1, h2⟩⟩

/-- C66, what the checks of the lookup list say.  It must be there; if it is, each line must have two fields,
a file said to be in this bag must be there, no path may be listed twice, and all payload files not starting with
a dot or underscore ought to be listed.
Missing: that the bags named are members (`C66_negation_unlisted`). -/
theorem C66_lookup_partial (hostOk : Str → Bool) (b : VBag) (want : Nat) (r : Results)
    (hv : infoVersion b.info ≠ some py!"0.2") (h : validateHead hostOk b want none = .ok r)
    (hd : b.tree.isdir (comps (tagDirOf b)) = true) :
    (Reports r ERROR py!"4.0-2" false ↔ b.tree.isfile (tagFile (tagDirOf b) py!"file-lookup.tsv") = false) ∧
    ∀ text, b.tree.read (tagFile (tagDirOf b) py!"file-lookup.tsv") = some text →
      (Reports r ERROR py!"4.2-1" true ↔ ∀ row ∈ lookupRows text, row.length = 2) ∧
      (Reports r ERROR py!"4.2-2" true ↔ ∀ row ∈ lookupRows text, row[1]? = some b.name →
        b.tree.isfile (comps (row.head?.getD [])) = true) ∧
      (Reports r WARN py!"4.2-3" true ↔ ((lookupRows text).map (fun row => row.head?.getD [])).Nodup) ∧
      (Reports r REC py!"4.2-4" true ↔ ∀ dirs name c, (py!"data" :: dirs ++ [name], Node.file c) ∈ b.tree →
        name.head? ≠ some '.' → name.head? ≠ some '_' →
        ∃ row ∈ lookupRows text, row.head?.getD [] = joinPath (py!"data" :: dirs ++ [name])) := by
  obtain ⟨l, mem, look, agg, hp, rfl⟩ := returned_parts h
  have hf : placesFile (infoVersion b.info) = py!"file-lookup.tsv" := by unfold placesFile; rw [if_neg hv]
  have hfd : ∀ text, rows (placesFields (infoVersion b.info)) text = lookupRows text := by
    intro text; unfold placesFields lookupRows; rw [if_neg hv]
  have hm := hp.look
  cases hm with
  | noDir hd' => rw [hd'] at hd; cases hd
  | noFile _ hf' =>
    rw [hf] at hf'
    refine ⟨⟨fun _ => ?_, fun _ => ?_⟩, ?_⟩
    · rw [read_isfile, hf']; rfl
    · rw [reports_look hp ERROR py!"4.0-2" false (by decide)]
      exact ⟨_, List.mem_cons_of_mem _ (List.mem_cons_self ..), rfl, rfl, rfl⟩
    · intro text ht; rw [hf'] at ht; cases ht
  | file text s hd' hf' hdata hs =>
    rw [hf] at hf'
    rw [hfd] at hs
    refine ⟨⟨fun hc => ?_, fun hc => ?_⟩, ?_⟩
    · rw [reports_look hp ERROR py!"4.0-2" false (by decide),
        places_check b s ERROR py!"4.0-2" false true [] (List.mem_cons_self ..) (by decide)] at hc
      cases hc
    · rw [read_isfile, hf'] at hc; cases hc
    · intro text' ht
      rw [hf'] at ht
      cases Option.some.inj ht
      refine ⟨?_, ?_, ?_, ?_⟩
      · rw [reports_look hp ERROR py!"4.2-1" true (by decide),
          places_check b s ERROR py!"4.2-1" true (decide (s.badfmt = [])) (lineComment s.badfmt)
            (by simp [placesIssues]) (by decide), decide_eq_true_iff, hs.badfmt]
        exact ⟨fun h => h.2, fun h => ⟨rfl, h⟩⟩
      · rw [reports_look hp ERROR py!"4.2-2" true (by decide),
          places_check b s ERROR py!"4.2-2" true (decide (s.missing = [])) (lineComment s.missing)
            (by simp [placesIssues]) (by decide), decide_eq_true_iff, hs.missing]
        exact ⟨fun h => h.2, fun h => ⟨rfl, h⟩⟩
      · rw [reports_look hp WARN py!"4.2-3" true (by decide),
          places_check b s WARN py!"4.2-3" true (decide (s.replicated = [])) (lineComment s.replicated)
            (by simp [placesIssues]) (by decide), decide_eq_true_iff, hs.replicated]
        exact ⟨fun h => h.2.1, fun h => ⟨rfl, h, fun _ _ => List.not_mem_nil⟩⟩
      · rw [reports_look hp REC py!"4.2-4" true (by decide),
          places_check b s REC py!"4.2-4" true ((listedPayload b.tree).all (fun p => p ∈ s.paths)) []
            (by simp [placesIssues]) (by decide), List.all_eq_true]
        have key : ∀ p, decide (p ∈ s.paths) = true ↔ ∃ row ∈ lookupRows text, row.head?.getD [] = p := by
          intro p
          rw [decide_eq_true_iff, hs.paths]
          exact ⟨fun h => h.elim (fun h => absurd h List.not_mem_nil) id, Or.inr⟩
        constructor
        · intro h dirs name c hm h1 h2
          exact (key _).1 (h _ (mem_listedPayload.2 ⟨dirs, name, c, hm, h1, h2, rfl⟩))
        · intro h p hp
          obtain ⟨dirs, name, c, hm, h1, h2, rfl⟩ := mem_listedPayload.1 hp
          exact (key _).2 (h dirs name c hm h1 h2)

/-- C63: if several profile versions are given, the last one decides. -/
theorem C63_version (info : Info) : infoVersion info = (fields info py!"Multibag-Version").getLast? := by
  unfold infoVersion fields
  cases dget info py!"Multibag-Version" with
  | none => rfl
  | some v => cases v <;> rfl

example : infoVersion [(py!"Multibag-Version", .many [py!"0.2", py!"0.4"])] = some py!"0.4" := by decide

/-! ## C64 -/

/-- Python's parser on an absolute URL. -/
theorem urlparse_absolute (hostOk : Str → Bool) (u scheme host rest : Str) (h : AbsoluteUrl u scheme host rest)
    (hok : hostOk host = true) : urlparse hostOk u = .ok (scheme.map Char.toLower, host) := by
  have hsc : ∀ c ∈ scheme, schemeChar c = true := by
    intro c hc
    unfold schemeChar
    have := h.chars c hc
    simp only [Bool.or_eq_true, Bool.and_eq_true, decide_eq_true_eq]
    rcases this with h | h | h | h | h | h <;> simp [h]
  have hcolon : ∀ c ∈ scheme, c ≠ ':' := by
    intro c hc e
    have := hsc c hc
    rw [e] at this; exact absurd this (by decide)
  obtain ⟨c0, s0, hs0, hl⟩ := h.letter
  have hc0 : asciiLetter c0 = true := by
    unfold asciiLetter
    simpa only [Bool.or_eq_true, Bool.and_eq_true, decide_eq_true_eq] using hl
  have hbig : ¬ (c0.toNat ≤ 32) := by
    intro hle
    unfold asciiLetter at hc0
    simp only [Bool.or_eq_true, Bool.and_eq_true, decide_eq_true_eq, Char.le_def] at hc0
    have hn : ∀ (a b : Char), a.val ≤ b.val → a.toNat ≤ b.toNat := fun _ _ h => h
    rcases hc0 with ⟨h1, _⟩ | ⟨h1, _⟩
    · have h2 := hn _ _ h1
      have : ('a' : Char).toNat = 97 := rfl
      omega
    · have h2 := hn _ _ h1
      have : ('A' : Char).toNat = 65 := rfl
      omega
  have hdrop : u.dropWhile (fun c => decide (c.toNat ≤ 32)) = u := by
    rw [h.eq, hs0, List.cons_append, List.dropWhile_cons]
    rw [if_neg (by simpa using hbig)]
  have hfil : u.filter (fun c => c ≠ '\t' && c ≠ '\r' && c ≠ '\n') = u := by
    rw [List.filter_eq_self]
    intro c hc
    have := h.printing c hc
    simp [this.1, this.2.1, this.2.2]
  have htake : u.takeWhile (fun c => decide (c ≠ ':')) = scheme := by
    rw [h.eq, List.takeWhile_append_of_pos (by intro c hc; simpa using hcolon c hc)]
    simp
  have hsplit : splitScheme u = (scheme.map Char.toLower, '/' :: '/' :: (host ++ rest)) := by
    unfold splitScheme
    simp only [htake]
    have hlen : scheme.length < u.length := by rw [h.eq]; simp
    have hany : scheme.head?.any asciiLetter = true := by rw [hs0]; exact hc0
    rw [if_pos (by rw [decide_eq_true hlen, hany, List.all_eq_true.2 hsc]; rfl)]
    have : u.drop (scheme.length + 1) = '/' :: '/' :: (host ++ rest) := by
      rw [h.eq, List.drop_append, List.drop_eq_nil_of_le (Nat.le_succ _), Nat.add_sub_cancel_left]; rfl
    rw [this]
  have hhost : (host ++ rest).takeWhile (fun c => c ≠ '/' && c ≠ '?' && c ≠ '#') = host := by
    rw [List.takeWhile_append_of_pos]
    · have : rest.takeWhile (fun c => c ≠ '/' && c ≠ '?' && c ≠ '#') = [] := by
        cases hr : rest with
        | nil => rfl
        | cons c s =>
          have := h.after
          rw [hr] at this
          rcases this with hx | hx | hx | hx
          · cases hx
          all_goals (cases Option.some.inj hx; simp)
      rw [this, List.append_nil]
    · intro c hc
      have := h.ends c hc
      simp [this.1, this.2.1, this.2.2.1]
  unfold urlparse
  simp only [hdrop, hfil, hsplit, hhost]
  have hb1 : host.contains '[' = false := by
    cases hb : host.contains '[' with
    | false => rfl
    | true => exact absurd rfl (h.ends '[' (List.contains_iff_mem.mp hb)).2.2.2.1
  have hb2 : host.contains ']' = false := by
    cases hb : host.contains ']' with
    | false => rfl
    | true => exact absurd rfl (h.ends ']' (List.contains_iff_mem.mp hb)).2.2.2.2
  rw [hb1, hb2, hok]
  rfl

/-- C64, exactly: the check of the URIs in the member list passes if each has a scheme and *no* host, which is
the opposite of what is asked for.
Missing: the property itself (`C64_negation_rejected`). -/
theorem C64_accepts_exactly_partial (hostOk : Str → Bool) (b : VBag) (want : Nat) (r : Results) (text : Str)
    (hv : infoVersion b.info ≠ some py!"0.2") (h : validateHead hostOk b want none = .ok r)
    (hd : b.tree.isdir (comps (tagDirOf b)) = true)
    (hf : b.tree.read (tagFile (tagDirOf b) py!"member-bags.tsv") = some text) :
    Reports r ERROR py!"4.1-2" true ↔ ∀ row ∈ memberRows text, ∀ u, row[1]? = some u → u ≠ [] →
      ∃ scheme, urlparse hostOk u = .ok (scheme, []) ∧ scheme ≠ [] := by
  obtain ⟨l, mem, look, agg, hp, rfl⟩ := returned_parts h
  have hlf : listFile (infoVersion b.info) = py!"member-bags.tsv" := by unfold listFile; rw [if_neg hv]
  have hfd : ∀ text, rows (listFields (infoVersion b.info)) text = memberRows text := by
    intro text; unfold listFields memberRows; rw [if_neg hv]
  have hm := hp.mem
  cases hm with
  | noDir hd' => rw [hd'] at hd; cases hd
  | noFile _ hf' => rw [hlf, hf] at hf'; cases hf'
  | file text' s hd' hf' hu hs =>
    rw [hlf, hf] at hf'
    cases Option.some.inj hf'
    rw [hfd] at hs hu
    rw [reports_mem hp ERROR py!"4.1-2" true (by decide),
      member_check b.name s ERROR py!"4.1-2" true (decide (s.badurl = [])) (lineComment s.badurl)
        (by simp [memberIssues]) (by decide), decide_eq_true_iff, hs.badurl]
    constructor
    · intro hc row hr u h1 h2
      obtain ⟨⟨sc, nl⟩, hp⟩ := hu row hr u h1 h2
      obtain ⟨ha, hb⟩ := hc.2 row hr u h1 h2 _ hp
      dsimp only at ha hb
      rw [hb] at hp
      exact ⟨sc, hp, ha⟩
    · intro hc
      refine ⟨rfl, fun row hr u h1 h2 p hp => ?_⟩
      obtain ⟨sc, hp', hs'⟩ := hc row hr u h1 h2
      rw [hp'] at hp
      cases Except.ok.inj hp
      exact ⟨hs', rfl⟩

/-- C64 is false: a head bag whose member list gives an absolute URL, with a host as any `http` URL has, is
reported as having a bad one. -/
theorem C64_negation_rejected (hostOk : Str → Bool) (b : VBag) (want : Nat) (r : Results) (text : Str)
    (hv : infoVersion b.info ≠ some py!"0.2") (h : validateHead hostOk b want none = .ok r)
    (hd : b.tree.isdir (comps (tagDirOf b)) = true)
    (hf : b.tree.read (tagFile (tagDirOf b) py!"member-bags.tsv") = some text)
    (row : List Str) (hr : row ∈ memberRows text) (u scheme host rest : Str) (hu : row[1]? = some u)
    (hurl : AbsoluteUrl u scheme host rest) (hok : hostOk host = true) :
    ¬ Reports r ERROR py!"4.1-2" true := by
  rw [C64_accepts_exactly_partial hostOk b want r text hv h hd hf]
  intro hc
  have hn : u ≠ [] := by rw [hurl.eq]; simp
  obtain ⟨sc, hp, _⟩ := hc row hr u hu hn
  rw [urlparse_absolute hostOk u scheme host rest hurl hok] at hp
  exact hurl.named (congrArg Prod.snd (Except.ok.inj hp))

theorem noValue_iff {info : Info} {key : Str} : NoValue info key ↔ hasValue info key = false := by
  unfold NoValue hasValue InfoVal.truthy
  cases dget info key with
  | none => simp
  | some v => cases v <;> simp

/-- C64, for the reference of the aggregation: its check fails exactly if the last value given has no
scheme or no host. -/
theorem C64_reference (hostOk : Str → Bool) (b : VBag) (want : Nat) (r : Results)
    (h : validateHead hostOk b want none = .ok r) (hr : ¬ NoValue b.info py!"Multibag-Reference") :
    Reports r ERROR py!"3-Reference-val" false ↔
      ¬ ∃ scheme host, urlparse hostOk (lastValue b.info py!"Multibag-Reference") = .ok (scheme, host) ∧
        scheme ≠ [] ∧ host ≠ [] := by
  rw [noValue_iff, Bool.not_eq_false] at hr
  obtain ⟨l, mem, look, agg, hp, rfl⟩ := returned_parts h
  rw [reports_reference hp ERROR py!"3-Reference-val" false (by decide)]
  have hl : referenceIssues hostOk b = [⟨py!"3-Reference", REC, true, []⟩,
     ⟨py!"3-Reference-val", ERROR, decide (lastValue b.info py!"Multibag-Reference" ≠ []), []⟩,
     ⟨py!"3-Reference-val", ERROR, match urlparse hostOk (lastValue b.info py!"Multibag-Reference") with
        | .ok (s, h) => s ≠ [] && h ≠ []
        | .error _ => false, []⟩] := by
    unfold referenceIssues; rw [hr]; rfl
  have hempty : urlparse hostOk [] = .ok ([], []) := rfl
  rw [hl]
  constructor
  · rintro ⟨i, hi, h1, h2, h3⟩ ⟨sc, ho, hu, ha, hb⟩
    simp only [List.mem_cons, List.not_mem_nil, or_false] at hi
    rcases hi with rfl | rfl | rfl
    · cases h1
    · rw [decide_eq_false_iff_not, Classical.not_not] at h3
      rw [h3, hempty] at hu
      cases Except.ok.inj hu
      exact ha rfl
    · dsimp only at h3
      rw [hu] at h3
      simp [ha, hb] at h3
  · intro hc
    refine ⟨_, List.mem_cons_of_mem _ (List.mem_cons_of_mem _ (List.mem_cons_self ..)), rfl, rfl, ?_⟩
    dsimp only
    cases hu : urlparse hostOk (lastValue b.info py!"Multibag-Reference") with
    | error e => rfl
    | ok p =>
      obtain ⟨s, o⟩ := p
      dsimp only
      rw [Bool.and_eq_false_iff]
      by_cases ha : s = []
      · left; simp [ha]
      · right
        by_cases hb : o = []
        · simp [hb]
        · exact absurd ⟨s, o, hu, ha, hb⟩ hc

/-! ## C65 -/

/-- C65 is false: whatever single value Multibag-Version has, the check of its value passes, be the
profile known or not. -/
theorem C65_negation_any_version (hostOk : Str → Bool) (b : VBag) (want : Nat) (r : Results) (v : Str)
    (h : validateHead hostOk b want none = .ok r) (hv : dget b.info py!"Multibag-Version" = some (.one v))
    (hn : v ≠ []) :
    Reports r ERROR py!"3-Version-val" true ∧ ¬ Reports r ERROR py!"3-Version-val" false ∧
      ¬ Reports r ERROR py!"3-Version" false ∧ ¬ Reports r WARN py!"3-Version" false := by
  obtain ⟨l, mem, look, agg, hp, rfl⟩ := returned_parts h
  have hi : infoVersion b.info = some v := by unfold infoVersion; rw [hv]
  have hl : versionIssues b (infoVersion b.info) = [⟨py!"3-Version", ERROR, true, []⟩, ⟨py!"3-Version", WARN, true, []⟩,
      ⟨py!"3-Version-val", ERROR, true, []⟩] := by
    unfold versionIssues hasValue
    rw [hv, hi]
    dsimp only
    rw [if_neg hn]
    simp [InfoVal.truthy, hn]
  rw [reports_version hp _ _ _ (by decide), reports_version hp _ _ _ (by decide), reports_version hp _ _ _ (by decide),
    reports_version hp _ _ _ (by decide), hl]
  decide

/-- C65: a repeated Multibag-Version always fails, whatever its values. -/
theorem C65_negation_repeated (hostOk : Str → Bool) (b : VBag) (want : Nat) (r : Results) (vs : List Str)
    (h : validateHead hostOk b want none = .ok r) (hv : dget b.info py!"Multibag-Version" = some (.many vs))
    (hn : vs ≠ []) : Reports r ERROR py!"3-Version-val" false ∧ ¬ Reports r ERROR py!"3-Version-val" true := by
  obtain ⟨l, mem, look, agg, hp, rfl⟩ := returned_parts h
  have hl : versionIssues b (infoVersion b.info) = [⟨py!"3-Version", ERROR, true, []⟩, ⟨py!"3-Version", WARN, false, []⟩,
      ⟨py!"3-Version-val", ERROR, false, []⟩] := by
    unfold versionIssues hasValue
    rw [hv]
    dsimp only
    rw [if_neg hn]
    simp [InfoVal.truthy, hn]
  rw [reports_version hp _ _ _ (by decide), reports_version hp _ _ _ (by decide), hl]
  decide

/-- C65, for the version: no value, or an empty one, is reported.
Missing: values that are no version (`C65_negation_any_version`). -/
theorem C65_missing_partial (hostOk : Str → Bool) (b : VBag) (want : Nat) (r : Results)
    (h : validateHead hostOk b want none = .ok r) :
    Reports r ERROR py!"3-Version" false ↔ NoValue b.info py!"Multibag-Version" := by
  rw [noValue_iff]
  obtain ⟨l, mem, look, agg, hp, rfl⟩ := returned_parts h
  rw [reports_version hp _ _ _ (by decide)]
  constructor
  · rintro ⟨i, hi, h1, h2, h3⟩
    unfold versionIssues at hi
    rcases List.mem_cons.mp hi with rfl | hi
    · exact h3
    · exfalso
      split at hi
      · cases hi
      · split at hi
        · cases hi
        · simp only [List.mem_cons, List.not_mem_nil, or_false] at hi
          rcases hi with rfl | rfl
          · cases h1
          · exact absurd h2 (by show py!"3-Version-val" ≠ _; decide)
      · split at hi
        · cases hi
        · simp only [List.mem_cons, List.not_mem_nil, or_false] at hi
          rcases hi with rfl | rfl
          · cases h1
          · exact absurd h2 (by show py!"3-Version-val" ≠ _; decide)
  · intro hv
    exact ⟨_, List.mem_cons_self .., rfl, rfl, hv⟩

/-- C65: called on its own with the version to expect, the check passes exactly for this version. -/
theorem C65_given_version (b : VBag) (want : Nat) (v expected : Str)
    (hv : dget b.info py!"Multibag-Version" = some (.one v)) (hn : v ≠ []) :
    Reports (validateVersion b (some expected) { want := want }) ERROR py!"3-Version-val" true ↔ v = expected := by
  have hl : versionIssues b (some expected) = [⟨py!"3-Version", ERROR, true, []⟩, ⟨py!"3-Version", WARN, true, []⟩,
      ⟨py!"3-Version-val", ERROR, some expected == some v, []⟩] := by
    unfold versionIssues hasValue
    rw [hv]
    dsimp only
    rw [if_neg hn]
    simp [InfoVal.truthy, hn]
  rw [step_version, hl, reports_add want _ _ ERROR py!"3-Version-val" true ?_ (fun i h => h) (fun i h _ => h)]
  · constructor
    · rintro ⟨i, hi, h1, h2, h3⟩
      simp only [List.mem_cons, List.not_mem_nil, or_false] at hi
      rcases hi with rfl | rfl | rfl
      · exact absurd h2 (by show py!"3-Version" ≠ _; decide)
      · cases h1
      · have := beq_iff_eq.mp h3
        exact (Option.some.inj this).symm
    · intro e; subst e
      exact ⟨_, List.mem_cons_of_mem _ (List.mem_cons_of_mem _ (List.mem_cons_self ..)), rfl, rfl, by simp⟩
  · intro i hi
    simp only [List.mem_cons, List.not_mem_nil, or_false] at hi
    rcases hi with rfl | rfl | rfl
    · exact known_error
    · exact known_warn
    · exact known_error

/-- The sample head bag meets the hypotheses of C64 to C66: it has version 0.4, a tag directory and the lists. -/
example : infoVersion Sample.validHead.info ≠ some py!"0.2" ∧
    Sample.validHead.tree.isdir (comps (tagDirOf Sample.validHead)) = true ∧
    Sample.validHead.tree.read (tagFile (tagDirOf Sample.validHead) py!"member-bags.tsv") = some py!"m1\tdoi:10/1\nhead\n" ∧
    Sample.validHead.tree.read (tagFile (tagDirOf Sample.validHead) py!"file-lookup.tsv") =
      some py!"data/a\thead\ndata/b\tm1\n" ∧
    memberRows py!"m1\tdoi:10/1\nhead\n" = [[py!"m1", py!"doi:10/1"], [py!"head"]] ∧
    dget Sample.validHead.info py!"Multibag-Version" = some (.one py!"0.4") :=
  ⟨by decide +kernel, by decide +kernel, by decide +kernel, by decide +kernel, by decide +kernel, by decide +kernel⟩

/-! ## C66 is false -/

/-- C66 is false: a head bag can pass all checks although its lookup list places a file in a bag that is not
listed as a member. -/
theorem C66_negation_unlisted : ∃ (b : VBag) (r : Results) (members places : Str) (row : List Str),
    validateHead (fun _ => true) b ALL none = .ok r ∧ r.ok = true ∧
    b.tree.read [py!"multibag", py!"member-bags.tsv"] = some members ∧
    b.tree.read [py!"multibag", py!"file-lookup.tsv"] = some places ∧
    row ∈ lookupRows places ∧ ∀ m ∈ memberRows members, m.head? ≠ row[1]? := by
  obtain ⟨r, hr, hok⟩ := Sample.results_of_check (f := fun r => r.ok)
    (r := validateHead (fun _ => true) { Sample.validHead with
      tree := dset Sample.validHead.tree [py!"multibag", py!"file-lookup.tsv"]
        (.file py!"data/a\thead\ndata/b\tm7\n") } ALL none) (by decide +kernel)
  exact ⟨_, r, py!"m1\tdoi:10/1\nhead\n", py!"data/a\thead\ndata/b\tm7\n", [py!"data/b", py!"m7"], hr, hok, rfl, rfl,
    by decide +kernel, by decide +kernel⟩

end Verif
