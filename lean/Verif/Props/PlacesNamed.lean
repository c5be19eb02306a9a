import Verif.Props.LinesNamed
/-!
# The lines of a lookup list that a validation names
-/

namespace Verif.Spec

/-- The fields of the `i`-th line of a lookup list, counted from 0, unless it is blank. -/
def placeAt (version : Option Str) (lines : List Str) (i : Nat) : Option (List Str) :=
  (lines[i]?).bind fun line =>
    if strip line = [] then none
    else some ((if version = some py!"0.2" then splitWs line else splitOn '\t' line).map strip)

/-- A line is about a path that a line before it is about. -/
def placedAgain (version : Option Str) (lines : List Str) (i : Nat) : Bool :=
  (placeAt version lines i).any fun row =>
    (List.range i).any fun j => (placeAt version lines j).any fun row' => row'.head?.getD [] == row.head?.getD []

/-- A line has not two fields. -/
def notTwo (version : Option Str) (lines : List Str) (i : Nat) : Bool :=
  (placeAt version lines i).any fun row => decide (row.length ≠ 2)

/-- A line says that a file is in this bag, which has no such file. -/
def notHere (b : VBag) (version : Option Str) (lines : List Str) (i : Nat) : Bool :=
  (placeAt version lines i).any fun row => decide (row[1]? = some b.name) && !b.tree.isfile (comps (row.head?.getD []))

end Verif.Spec

namespace Verif
open Spec

theorem placeAt_left {version : Option Str} {pre : List Str} {l : Str} {i : Nat} (h : i < pre.length) :
    placeAt version (pre ++ [l]) i = placeAt version pre i := by
  unfold placeAt; rw [List.getElem?_append_left h]

theorem placeAt_last (version : Option Str) (pre : List Str) (l : Str) :
    placeAt version (pre ++ [l]) pre.length =
      if strip l = [] then none else some ((placesFields version l).map strip) := by
  unfold placeAt placesFields
  simp only [List.getElem?_append_right (Nat.le_refl _), Nat.sub_self, List.getElem?_cons_zero, Option.bind_some]
  split
  · rfl
  · split <;> rfl

theorem placedAgain_left {version : Option Str} {pre : List Str} {l : Str} {i : Nat} (h : i < pre.length) :
    placedAgain version (pre ++ [l]) i = placedAgain version pre i := by
  unfold placedAgain
  rw [placeAt_left h]
  congr 1
  funext row
  rw [Bool.eq_iff_iff, List.any_eq_true, List.any_eq_true]
  constructor <;> rintro ⟨j, hj, e⟩ <;> refine ⟨j, hj, ?_⟩ <;>
    simpa only [placeAt_left (Nat.lt_trans (List.mem_range.1 hj) h)] using e

/-- What has been found after some lines. -/
structure AfterPlaces (b : VBag) (version : Option Str) (pre : List Str) (s : LookupScan) : Prop where
  line : s.line = pre.length
  paths : ∀ x, x ∈ s.paths ↔ ∃ j, j < pre.length ∧ ∃ row, placeAt version pre j = some row ∧ row.head?.getD [] = x
  again : s.replicated = linesThat pre.length (placedAgain version pre)
  bad : s.badfmt = linesThat pre.length (notTwo version pre)
  missing : s.missing = linesThat pre.length (notHere b version pre)

theorem afterPlaces_step {b : VBag} {version : Option Str} {pre : List Str} {s : LookupScan} (l : Str)
    (h : AfterPlaces b version pre s) : AfterPlaces b version (pre ++ [l]) (scanLookup (placesFields version) b s l) := by
  have hlen : (pre ++ [l]).length = pre.length + 1 := by simp
  have L1 := linesThat_snoc (n := pre.length) (p := placedAgain version (pre ++ [l])) (fun i hi => placedAgain_left hi)
  have L2 := linesThat_snoc (n := pre.length) (p := notTwo version (pre ++ [l])) (q := notTwo version pre)
    (fun i hi => by unfold notTwo; rw [placeAt_left hi])
  have L3 := linesThat_snoc (n := pre.length) (p := notHere b version (pre ++ [l])) (q := notHere b version pre)
    (fun i hi => by unfold notHere; rw [placeAt_left hi])
  rw [← h.again] at L1
  rw [← h.bad] at L2
  rw [← h.missing] at L3
  have hlast := placeAt_last version pre l
  have hpaths : ∀ x, (∃ j, j < (pre ++ [l]).length ∧ ∃ row, placeAt version (pre ++ [l]) j = some row ∧ row.head?.getD [] = x) ↔
      x ∈ s.paths ∨ ∃ row, placeAt version (pre ++ [l]) pre.length = some row ∧ row.head?.getD [] = x := by
    intro x
    rw [h.paths, hlen]
    constructor
    · rintro ⟨j, hj, row, hr, e⟩
      rcases Nat.lt_succ_iff_lt_or_eq.1 hj with hj | rfl
      · exact .inl ⟨j, hj, row, by rw [← placeAt_left hj]; exact hr, e⟩
      · exact .inr ⟨row, hr, e⟩
    · rintro (⟨j, hj, row, hr, e⟩ | ⟨row, hr, e⟩)
      · exact ⟨j, by omega, row, by rw [placeAt_left hj]; exact hr, e⟩
      · exact ⟨pre.length, by omega, row, hr, e⟩
  unfold scanLookup
  simp only
  split
  · next hb =>
    rw [if_pos hb] at hlast
    refine ⟨by simp [h.line], fun x => ?_, ?_, ?_, ?_⟩
    · rw [hpaths, hlast]; simp
    · rw [hlen, L1]; simp [placedAgain, hlast]
    · rw [hlen, L2]; simp [notTwo, hlast]
    · rw [hlen, L3]; simp [notHere, hlast]
  · next hb =>
    rw [if_neg hb] at hlast
    generalize (placesFields version l).map strip = row at hlast
    have hm : placedAgain version (pre ++ [l]) pre.length = decide (row.head?.getD [] ∈ s.paths) := by
      rw [Bool.eq_iff_iff, decide_eq_true_iff, h.paths]
      unfold placedAgain
      rw [hlast]
      simp only [Option.any_some, List.any_eq_true, List.mem_range]
      constructor
      · rintro ⟨j, hj, e⟩
        rw [placeAt_left hj, Option.any_eq_true] at e
        obtain ⟨r', h1, h2⟩ := e
        exact ⟨j, hj, r', h1, by simpa using h2⟩
      · rintro ⟨j, hj, r', h1, h2⟩
        exact ⟨j, hj, by rw [placeAt_left hj, h1]; simpa using h2⟩
    have h2 : notTwo version (pre ++ [l]) pre.length = decide (row.length ≠ 2) := by unfold notTwo; rw [hlast]; rfl
    have h3 : notHere b version (pre ++ [l]) pre.length =
        (decide (row[1]? = some b.name) && !b.tree.isfile (comps (row.head?.getD []))) := by unfold notHere; rw [hlast]; rfl
    rw [hm] at L1
    rw [h2] at L2
    rw [h3] at L3
    have hp : ∀ x, (∃ j, j < (pre ++ [l]).length ∧ ∃ row, placeAt version (pre ++ [l]) j = some row ∧ row.head?.getD [] = x) ↔
        x ∈ s.paths ∨ x = row.head?.getD [] := by
      intro x
      rw [hpaths, hlast]
      simp [eq_comm]
    have hl := h.line
    by_cases c1 : row.head?.getD [] ∈ s.paths <;> by_cases c2 : row.length ≠ 2 <;>
      by_cases c3 : (decide (row[1]? = some b.name) && !b.tree.isfile (comps (row.head?.getD []))) = true <;>
      simp only [c1, c2, c3, if_true, if_false, decide_true, decide_false, Bool.false_eq_true, List.append_nil,
        ne_eq, not_true_eq_false, not_false_eq_true] at L1 L2 L3 ⊢ <;>
      refine ⟨by simp [hl], fun x => ?_, by rw [hlen, L1]; try rw [hl], by rw [hlen, L2]; try rw [hl],
        by rw [hlen, L3]; try rw [hl]⟩ <;>
      rw [hp] <;> first
        | exact ⟨.inl, fun h => h.elim id fun e => e ▸ c1⟩
        | simp

/-- **C66**: the checks of a lookup list, in any profile version, tell the numbers of the lines that fail them, all of up to
four and the first three of more: those that have not two fields, those that say a file is in this bag which is not, and
those about a path that was listed before. -/
theorem C66_lookup_lines {b : VBag} {version : Option Str} {out r : Results} {text : Str}
    (hd : b.tree.isdir (comps (tagDirOf b)) = true)
    (hf : b.tree.read (tagFile (tagDirOf b) (if version = some py!"0.2" then py!"group-directory.txt" else py!"file-lookup.tsv")) =
      some text)
    (h : validateFileLookup b version out = .ok r) {lines : List Str} (hl : lines = textLines .universal text)
    {again bad missing : List Nat} (ha : again = linesThat lines.length (placedAgain version lines))
    (hb : bad = linesThat lines.length (notTwo version lines)) (hm : missing = linesThat lines.length (notHere b version lines)) :
    r.warnings = out.warnings ++ [⟨py!"4.2-3", WARN, decide (again = []), called again⟩] ∧
    r.errors = out.errors ++ [⟨py!"3-Tag-Directory", ERROR, true, []⟩, ⟨py!"4.0-2", ERROR, true, []⟩,
      ⟨py!"4.2-1", ERROR, decide (bad = []), called bad⟩, ⟨py!"4.2-2", ERROR, decide (missing = []), called missing⟩] := by
  have hn : tagDirOf b ≠ [] := by
    intro hn
    unfold validateFileLookup at h
    rw [assertedDir_eq, if_pos hn] at h
    cases h
  have hh : dmem b.info py!"Multibag-Head-Version" = true := by
    cases hh : dmem b.info py!"Multibag-Head-Version" with
    | true => rfl
    | false =>
      unfold validateFileLookup at h
      rw [assertedDir_eq, if_neg hn, hh] at h
      cases h
  rw [fileLookup_eq _ _ _ hn hh, hd, if_neg (by decide)] at h
  unfold validateLookupFile at h
  rw [show placesFile version = (if version = some py!"0.2" then py!"group-directory.txt" else py!"file-lookup.tsv") from rfl, hf] at h
  simp only at h
  have hA : ∀ (ls pre : List Str) (s : LookupScan), AfterPlaces b version pre s →
      AfterPlaces b version (pre ++ ls) (ls.foldl (scanLookup (placesFields version) b) s) := by
    intro ls
    induction ls with
    | nil => intro pre s h; rw [List.append_nil]; exact h
    | cons l ls ih =>
      intro pre s h
      have := ih (pre ++ [l]) _ (afterPlaces_step l h)
      rwa [List.append_assoc] at this
  have hA := hA (textLines .universal text) [] {} ⟨rfl, fun x => by simp, rfl, rfl, rfl⟩
  rw [List.nil_append, ← hl] at hA
  rw [← hl] at h
  split at h
  · cases h
  · cases h
    rw [ha, hb, hm, ← hA.again, ← hA.bad, ← hA.missing, ← lineComment_called, ← lineComment_called, ← lineComment_called]
    simp [Results.err, Results.warn, Results.recommend]

/-- A head bag whose lookup list has a line with one field, a path listed again and a file that is not there. -/
def Sample.oddPlaces : VBag := { Sample.validHead with
  tree := dset Sample.validHead.tree [py!"multibag", py!"file-lookup.tsv"]
    (.file py!"data/a\thead\n\ndata/b\ndata/a\tm1\ndata/c\thead\n") }

/-- It meets the hypotheses. -/
example : ∃ r, validateFileLookup Sample.oddPlaces (some py!"0.4") { want := ALL } = .ok r ∧
    r.warnings = [⟨py!"4.2-3", WARN, false, [py!"line 4"]⟩] ∧
    ⟨py!"4.2-2", ERROR, false, [py!"line 5"]⟩ ∈ r.errors := by
  obtain ⟨r, hr, -⟩ := Sample.results_of_check (f := fun _ => true)
    (r := validateFileLookup Sample.oddPlaces (some py!"0.4") { want := ALL }) (by decide +kernel)
  obtain ⟨h1, h2⟩ := C66_lookup_lines (text := py!"data/a\thead\n\ndata/b\ndata/a\tm1\ndata/c\thead\n")
    (by decide +kernel) (by decide +kernel) hr rfl (again := [4]) (bad := [3]) (missing := [5])
    (by decide +kernel) (by decide +kernel) (by decide +kernel)
  refine ⟨r, hr, h1.trans (by decide +kernel), ?_⟩
  rw [h2]
  have : called [5] = [py!"line 5"] := by decide +kernel
  rw [this]
  simp

end Verif
