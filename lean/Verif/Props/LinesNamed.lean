import Verif.Props.ValidateHead
/-!
# The lines that a validation names
-/

namespace Verif.Spec

/-- The fields of a line of a member list, unless the line is blank. -/
def lineFields (version : Option Str) (line : Str) : Option (List Str) :=
  if strip line = [] then none
  else some ((if version = some py!"0.2" then splitWs (strip line) else splitOn '\t' (strip line)).map strip)

/-- The fields of the `i`-th line, counted from 0. -/
def fieldsAt (version : Option Str) (lines : List Str) (i : Nat) : Option (List Str) := (lines[i]?).bind (lineFields version)

/-- The numbers of the lines, counted from 1, of which something holds. -/
def linesThat (n : Nat) (p : Nat → Bool) : List Nat := ((List.range n).filter p).map (· + 1)

/-- A line names a bag that a line before it names. -/
def namesAgain (version : Option Str) (lines : List Str) (i : Nat) : Bool :=
  (fieldsAt version lines i).any fun row =>
    (List.range i).any fun j => (fieldsAt version lines j).any fun row' => row'.head?.getD [] == row.head?.getD []

/-- A line has more than two fields, which only profile 0.2 minds. -/
def tooLong (version : Option Str) (lines : List Str) (i : Nat) : Bool :=
  (fieldsAt version lines i).any fun row => decide (version = some py!"0.2") && decide (row.length > 2)

/-- A line has a URI without a scheme, or with a network location. -/
def oddUri (hostOk : Str → Bool) (version : Option Str) (lines : List Str) (i : Nat) : Bool :=
  (fieldsAt version lines i).any fun row =>
    match row[1]?.getD [] with
    | [] => false
    | u => match urlparse hostOk u with
      | .ok (scheme, netloc) => scheme = [] || netloc ≠ []
      | .error _ => false

/-- How some lines are called: all of up to four, the first three of more. -/
def called : List Nat → List Str
  | [] => []
  | [a] => [py!"line " ++ natStr a]
  | [a, b] => [py!"lines " ++ natStr a ++ py!", " ++ natStr b]
  | [a, b, c] => [py!"lines " ++ natStr a ++ py!", " ++ natStr b ++ py!", " ++ natStr c]
  | [a, b, c, d] => [py!"lines " ++ natStr a ++ py!", " ++ natStr b ++ py!", " ++ natStr c ++ py!", " ++ natStr d]
  | a :: b :: c :: _ => [py!"lines " ++ natStr a ++ py!", " ++ natStr b ++ py!", " ++ natStr c ++ py!", ..."]

end Verif.Spec

namespace Verif
open Spec

theorem lineComment_called (l : List Nat) : lineComment l = called l := by
  match l with
  | [] => rfl
  | [a] => simp [lineComment, called, joinWith]
  | [a, b] => simp [lineComment, called, joinWith]
  | [a, b, c] => simp [lineComment, called, joinWith]
  | [a, b, c, d] => simp [lineComment, called, joinWith]
  | a :: b :: c :: d :: e :: l => simp [lineComment, called, joinWith]

theorem fieldsAt_left {version : Option Str} {pre : List Str} {l : Str} {i : Nat} (h : i < pre.length) :
    fieldsAt version (pre ++ [l]) i = fieldsAt version pre i := by
  unfold fieldsAt; rw [List.getElem?_append_left h]

theorem fieldsAt_last (version : Option Str) (pre : List Str) (l : Str) :
    fieldsAt version (pre ++ [l]) pre.length = lineFields version l := by
  unfold fieldsAt; simp

theorem namesAgain_left {version : Option Str} {pre : List Str} {l : Str} {i : Nat} (h : i < pre.length) :
    namesAgain version (pre ++ [l]) i = namesAgain version pre i := by
  unfold namesAgain
  rw [fieldsAt_left h]
  congr 1
  funext row
  rw [Bool.eq_iff_iff, List.any_eq_true, List.any_eq_true]
  constructor <;> rintro ⟨j, hj, e⟩ <;> refine ⟨j, hj, ?_⟩ <;>
    simpa only [fieldsAt_left (Nat.lt_trans (List.mem_range.1 hj) h)] using e

theorem linesThat_snoc {n : Nat} {p q : Nat → Bool} (h : ∀ i, i < n → p i = q i) :
    linesThat (n + 1) p = linesThat n q ++ if p n then [n + 1] else [] := by
  unfold linesThat
  rw [List.range_succ, List.filter_append, List.map_append]
  congr 1
  · congr 1
    exact List.filter_congr fun i hi => h i (List.mem_range.1 hi)
  · simp only [List.filter_cons, List.filter_nil]
    split <;> simp

/-- How a line is split. -/
def splitOf (version : Option Str) : Str → List Str := if version = some py!"0.2" then splitWs else splitOn '\t'

theorem lineFields_eq (version : Option Str) (l : Str) (h : strip l ≠ []) :
    lineFields version l = some ((splitOf version (strip l)).map strip) := by
  unfold lineFields splitOf
  rw [if_neg h]
  split <;> rfl

/-- What has been found after some lines. -/
structure After (hostOk : Str → Bool) (version : Option Str) (pre : List Str) (s : MemberScan) : Prop where
  line : s.line = pre.length
  found : ∀ x, x ∈ s.found ↔ ∃ j, j < pre.length ∧ ∃ row, fieldsAt version pre j = some row ∧ row.head?.getD [] = x
  again : s.replicated = linesThat pre.length (namesAgain version pre)
  long : s.badfmt = linesThat pre.length (tooLong version pre)
  odd : s.badurl = linesThat pre.length (oddUri hostOk version pre)

theorem checkUrl_ok {hostOk : Str → Bool} {url : Str} {line : Nat} {bad bad' : List Nat}
    (h : checkUrl hostOk url line bad = .ok bad') :
    bad' = bad ++ if (match url with
      | [] => false
      | u => match urlparse hostOk u with
        | .ok (scheme, netloc) => (scheme = [] || netloc ≠ [] : Bool)
        | .error _ => false) then [line] else [] := by
  unfold checkUrl at h
  cases url with
  | nil => simp at h; simp [h]
  | cons c cs =>
    rw [if_neg (by simp)] at h
    cases hu : urlparse hostOk (c :: cs) with
    | error e => rw [hu] at h; cases h
    | ok r =>
      obtain ⟨a, b⟩ := r
      rw [hu] at h
      cases h
      simp only [hu]
      split <;> simp

theorem after_step {hostOk : Str → Bool} {version : Option Str} {name : Str} {pre : List Str} {s s' : MemberScan} {l : Str}
    (h : After hostOk version pre s) (e : scanMember hostOk (splitOf version) (tooManyOf version) name s l = .ok s') :
    After hostOk version (pre ++ [l]) s' := by
  have hlen : (pre ++ [l]).length = pre.length + 1 := by simp
  have L1 := linesThat_snoc (n := pre.length) (p := namesAgain version (pre ++ [l])) (fun i hi => namesAgain_left hi)
  have L2 := linesThat_snoc (n := pre.length) (p := tooLong version (pre ++ [l])) (q := tooLong version pre)
    (fun i hi => by unfold tooLong; rw [fieldsAt_left hi])
  have L3 := linesThat_snoc (n := pre.length) (p := oddUri hostOk version (pre ++ [l])) (q := oddUri hostOk version pre)
    (fun i hi => by unfold oddUri; rw [fieldsAt_left hi])
  rw [← h.again] at L1
  rw [← h.long] at L2
  rw [← h.odd] at L3
  have hfound : ∀ x, (∃ j, j < (pre ++ [l]).length ∧ ∃ row, fieldsAt version (pre ++ [l]) j = some row ∧ row.head?.getD [] = x) ↔
      x ∈ s.found ∨ ∃ row, lineFields version l = some row ∧ row.head?.getD [] = x := by
    intro x
    rw [h.found, hlen]
    constructor
    · rintro ⟨j, hj, row, hr, e⟩
      rcases Nat.lt_succ_iff_lt_or_eq.1 hj with hj | rfl
      · exact .inl ⟨j, hj, row, by rw [← fieldsAt_left hj]; exact hr, e⟩
      · exact .inr ⟨row, by rw [← fieldsAt_last]; exact hr, e⟩
    · rintro (⟨j, hj, row, hr, e⟩ | ⟨row, hr, e⟩)
      · exact ⟨j, by omega, row, by rw [fieldsAt_left hj]; exact hr, e⟩
      · exact ⟨pre.length, by omega, row, by rw [fieldsAt_last]; exact hr, e⟩
  unfold scanMember at e
  simp only at e
  split at e
  · next hb =>
    cases e
    have hn : lineFields version l = none := by unfold lineFields; rw [if_pos hb]
    refine ⟨by simp [h.line], fun x => ?_, ?_, ?_, ?_⟩
    · rw [hfound, hn]; simp
    · rw [hlen, L1]; simp [namesAgain, fieldsAt_last, hn]
    · rw [hlen, L2]; simp [tooLong, fieldsAt_last, hn]
    · rw [hlen, L3]; simp [oddUri, fieldsAt_last, hn]
  · next hb =>
    have hn := lineFields_eq version l hb
    generalize (splitOf version (strip l)).map strip = row at hn e
    have hm : namesAgain version (pre ++ [l]) pre.length = decide (row.head?.getD [] ∈ s.found) := by
      rw [Bool.eq_iff_iff, decide_eq_true_iff, h.found]
      unfold namesAgain
      rw [fieldsAt_last, hn]
      simp only [Option.any_some, List.any_eq_true, List.mem_range]
      constructor
      · rintro ⟨j, hj, e⟩
        rw [fieldsAt_left hj, Option.any_eq_true] at e
        obtain ⟨r', h1, h2⟩ := e
        exact ⟨j, hj, r', h1, by simpa using h2⟩
      · rintro ⟨j, hj, r', h1, h2⟩
        exact ⟨j, hj, by rw [fieldsAt_left hj, h1]; simpa using h2⟩
    have ht : tooLong version (pre ++ [l]) pre.length = tooManyOf version row := by
      unfold tooLong tooManyOf
      rw [fieldsAt_last, hn]
      split <;> simp_all
    have ho : oddUri hostOk version (pre ++ [l]) pre.length = (match row[1]?.getD [] with
      | [] => false
      | u => match urlparse hostOk u with
        | .ok (scheme, netloc) => (scheme = [] || netloc ≠ [] : Bool)
        | .error _ => false) := by
      unfold oddUri
      rw [fieldsAt_last, hn]
      rfl
    rw [hm] at L1
    rw [ht] at L2
    rw [ho] at L3
    split at e
    · cases e
    · next bad hbad =>
      have hbad := checkUrl_ok hbad
      cases e
      refine ⟨?_, fun x => ?_, ?_, ?_, ?_⟩
      · split <;> simp [h.line]
      · rw [hfound, hn]
        simp only [Option.some.injEq, exists_eq_left']
        split
        · next hin => exact ⟨.inl, fun h => h.elim id fun e => e ▸ hin⟩
        · simp [eq_comm]
      · rw [hlen, L1]
        split
        · next hin => simp [hin, h.line]
        · next hin => simp [hin]
      · rw [hlen, L2]
        split <;> split <;> simp_all [h.line]
      · rw [hlen, L3, hbad]
        by_cases hin : row.head?.getD [] ∈ s.found <;> (simp only [if_pos, if_neg, hin, h.line, not_false_eq_true]; rfl)

theorem after_scan {hostOk : Str → Bool} {version : Option Str} {name : Str} (ls : List Str) : ∀ {pre : List Str}
    {s s' : MemberScan}, After hostOk version pre s →
    scanMembers hostOk (splitOf version) (tooManyOf version) name ls s = .ok s' → After hostOk version (pre ++ ls) s' := by
  induction ls with
  | nil => intro pre s s' h e; cases e; rw [List.append_nil]; exact h
  | cons l ls ih =>
    intro pre s s' h e
    unfold scanMembers at e
    split at e
    · cases e
    · next s1 h1 =>
      have := ih (after_step h h1) e
      rwa [List.append_assoc] at this

/-- **C66**: the checks of a member list, in any profile version, tell the numbers of the lines that fail them, all of up to
four and the first three of more: those that are too long, those with an odd URI, and those that list a bag again. -/
theorem C66_lines {hostOk : Str → Bool} {b : VBag} {version : Option Str} {out r : Results} {text : Str}
    (hd : b.tree.isdir (comps (tagDirOf b)) = true)
    (hf : b.tree.read (tagFile (tagDirOf b) (if version = some py!"0.2" then py!"group-members.txt" else py!"member-bags.tsv")) =
      some text)
    (h : validateMemberBags hostOk b version out = .ok r) {lines : List Str} (hl : lines = textLines .universal text)
    {again long odd : List Nat} (ha : again = linesThat lines.length (namesAgain version lines))
    (hlo : long = linesThat lines.length (tooLong version lines)) (ho : odd = linesThat lines.length (oddUri hostOk version lines)) :
    r.warnings = out.warnings ++ [⟨py!"4.1-5", WARN, decide (again = []), called again⟩] ∧
    ∃ listed last, r.errors = out.errors ++ [⟨py!"3-Tag-Directory", ERROR, true, []⟩, ⟨py!"4.0-1", ERROR, true, []⟩,
      ⟨py!"4.1-1", ERROR, decide (long = []), called long⟩, ⟨py!"4.1-2", ERROR, decide (odd = []), called odd⟩,
      ⟨py!"4.1-3", ERROR, listed, []⟩, ⟨py!"4.1-4", ERROR, last, []⟩] := by
  have hn : tagDirOf b ≠ [] := by
    intro hn
    unfold validateMemberBags at h
    rw [assertedDir_eq, if_pos hn] at h
    cases h
  have hh : dmem b.info py!"Multibag-Head-Version" = true := by
    cases hh : dmem b.info py!"Multibag-Head-Version" with
    | true => rfl
    | false =>
      unfold validateMemberBags at h
      rw [assertedDir_eq, if_neg hn, hh] at h
      cases h
  rw [memberBags_eq _ _ _ _ hn hh, hd, if_neg (by decide)] at h
  unfold validateMemberFile at h
  rw [show listFile version = (if version = some py!"0.2" then py!"group-members.txt" else py!"member-bags.tsv") from rfl, hf] at h
  simp only at h
  split at h
  · cases h
  · next s hs =>
    cases h
    have hA := after_scan (version := version) _ (pre := []) ⟨rfl, fun x => by simp, rfl, rfl, rfl⟩ hs
    rw [List.nil_append, ← hl] at hA
    rw [report_eq, err_add, add_add]
    rw [ha, hlo, ho, ← hA.again, ← hA.long, ← hA.odd, ← lineComment_called, ← lineComment_called, ← lineComment_called]
    exact ⟨by simp [Results.add, memberIssues, ERROR, WARN], s.foundme, decide (s.last = some b.name),
      by simp [Results.add, memberIssues, ERROR, WARN]⟩

/-- A head bag whose member list has a blank line, bags listed again and URIs with hosts. -/
def Sample.listedAgain : VBag := { Sample.validHead with
  tree := dset Sample.validHead.tree [py!"multibag", py!"member-bags.tsv"]
    (.file py!"m1\nm1\thttp://host/m1.zip\n\nhead\nm1\tdoi:1\nhead\tm1.zip\n") }

theorem Sample.listedAgain_ends : ∃ r, validateMemberBags (fun _ => true) Sample.listedAgain (some py!"0.4") { want := ALL } = .ok r :=
  let ⟨r, hr, _⟩ := Sample.results_of_check (f := fun _ => true)
    (r := validateMemberBags (fun _ => true) Sample.listedAgain (some py!"0.4") { want := ALL }) (by decide +kernel)
  ⟨r, hr⟩

/-- It meets the hypotheses: lines 2, 5 and 6 list bags again, lines 2 and 6 have odd URIs. -/
example : ∃ r, validateMemberBags (fun _ => true) Sample.listedAgain (some py!"0.4") { want := ALL } = .ok r ∧
    r.warnings = [⟨py!"4.1-5", WARN, false, [py!"lines 2, 5, 6"]⟩] ∧
    ⟨py!"4.1-2", ERROR, false, [py!"lines 2, 6"]⟩ ∈ r.errors := by
  obtain ⟨r, hr⟩ := Sample.listedAgain_ends
  obtain ⟨h1, p, q, h2⟩ := C66_lines (text := py!"m1\nm1\thttp://host/m1.zip\n\nhead\nm1\tdoi:1\nhead\tm1.zip\n")
    (by decide +kernel) (by decide +kernel) hr rfl (again := [2, 5, 6]) (long := []) (odd := [2, 6])
    (by decide +kernel) (by decide +kernel) (by decide +kernel)
  refine ⟨r, hr, h1.trans (by decide +kernel), ?_⟩
  rw [h2]
  have : called [2, 6] = [py!"lines 2, 6"] := by decide +kernel
  rw [this]
  simp

/-- In profile 0.2 the second and third line of this are too long. -/
example : linesThat 3 (tooLong (some py!"0.2") [py!"a b", py!"a  b c", py!"a\tb c d"]) = [2, 3] := by decide +kernel

end Verif
