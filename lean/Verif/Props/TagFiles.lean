import Verif.Lemmas.TagFiles
import Verif.Lemmas.Runs
/-!
# C03-C08, C10, C11: the text formats of the tag files
-/

namespace Verif

open Spec

/-- C03: a clean member record is formatted without error, and the line parses
as the same record. -/
theorem C03_member_line_roundtrip (m : MemberInfo) (h : CleanMember m) :
    ∃ line, m.format = .ok line ∧ parseLine03 line = .ok m := by
  obtain ⟨b, h1, _, _, _, _, h2⟩ := format_clean h
  exact ⟨_, h1, h2⟩

example : CleanMember ⟨py!"bag one", some py!"ark:/88434/x", some py!"# the first", []⟩ :=
  ⟨clean_of_check (by decide), fun u h => by injection h with h; subst h; exact clean_of_check (by decide),
   fun u h => by injection h with h; subst h; exact clean_of_check (by decide), by simp, rfl⟩

/-- C03: the exact text of the line. -/
theorem C03_member_line_text (m : MemberInfo) (h : CleanMember m) :
    m.format = .ok (m.name
      ++ (match m.uri with | some u => '\t' :: u | none => [])
      ++ (match m.comment with | some c => py!"\t# " ++ c | none => [])
      ++ ['\n']) := by
  rw [format_eq (fun s hs => (h.uri s hs).nonempty) (fun s hs => (h.comment s hs).nonempty) h.info]
  unfold fieldsOf
  cases m.uri <;> cases m.comment <;> simp [joinWith]

example : (⟨py!"b1", some py!"ark:/1", some py!"c", []⟩ : MemberInfo).format = .ok py!"b1\tark:/1\t# c\n" :=
  C03_member_line_text ⟨py!"b1", some py!"ark:/1", some py!"c", []⟩ ⟨clean_of_check (by decide),
    fun u h => by injection h with h; subst h; exact clean_of_check (by decide),
    fun u h => by injection h with h; subst h; exact clean_of_check (by decide), by simp, rfl⟩

/-- C04: parsing a line succeeds with a record exactly when the record is the
meaning of the tab-separated fields of the stripped line. -/
theorem C04_parse_meaning (line : Str) (m : MemberInfo) :
    parseLine03 line = .ok m ↔ MemberFields (splitOn '\t' (strip line)) m :=
  ⟨fields_of_parseLine03, parseLine03_of_fields⟩

example : MemberFields [py!"b", py!"u", py!"i", py!"#! c "] ⟨py!"b", some py!"u", some py!"! c", [py!"i"]⟩ :=
  .uriComment _ _ [py!"i"] _ _ (by simp)
    ⟨0, [], [' '], by decide, by simp [Blank], by simp [Blank, isSpace], strip_eq_self_iff.1 (by decide), by simp⟩

/-- C04: parsing fails, with `MultibagError`, exactly on blank lines. -/
theorem C04_parse_error (line : Str) : parseLine03 line = .error .multibagError ↔ Blank line := by
  rw [← parseLine03_error_iff]
  constructor
  · intro h; exact ⟨_, h⟩
  · rintro ⟨e, he⟩; rw [he, parseLine03_error_kind he]

/-- C05 is false of the code: a record with extra fields can be read but
writing it back always raises `NameError`. -/
theorem C05_info_cannot_be_written (m : MemberInfo) (h : m.info ≠ []) :
    m.format = .error .nameError := by
  simp [MemberInfo.format, h]

example : (⟨py!"b1", none, none, [py!"i"]⟩ : MemberInfo).format = .error .nameError :=
  C05_info_cannot_be_written _ (by simp)

/-- C05 refuted: the line `b<TAB>u<TAB>x` is read but cannot be written. -/
theorem C05_negation :
    ¬ (∀ line m, parseLine03 line = .ok m →
        ∃ l, m.format = .ok l ∧ parseLine03 l = .ok m) := by
  intro h
  obtain ⟨l, hl, _⟩ := h py!"b\tu\tx" ⟨py!"b", some py!"u", none, [py!"x"]⟩ (by decide)
  revert hl
  simp [MemberInfo.format]

/-- C05 also fails without extra fields: an empty comment is not kept. -/
theorem C05_negation_empty_comment :
    ∃ line m, parseLine03 line = .ok m ∧ m.info = [] ∧
      ∀ l, m.format = .ok l → parseLine03 l ≠ .ok m := by
  refine ⟨py!"b\t#", ⟨py!"b", none, some [], []⟩, by decide, rfl, ?_⟩
  intro l hl
  have : l = py!"b\n" := by
    simp [MemberInfo.format, truthy] at hl; exact hl.symm
  subst this
  decide

/-- C05, the part that holds: a record read from any line, without extra fields
and with neither an empty URI nor an empty comment, is written and read back
unchanged.  Missing: extra fields (never writable), empty URI and comment. -/
theorem C05_rewrite_partial (line : Str) (m : MemberInfo) (h : parseLine03 line = .ok m)
    (hi : m.info = []) (hu : m.uri ≠ some []) (hc : m.comment ≠ some []) :
    ∃ l, m.format = .ok l ∧ parseLine03 l = .ok m := by
  have hf := fields_of_parseLine03 h
  have hu' : ∀ s, m.uri = some s → s ≠ [] := by rintro s hs rfl; exact hu hs
  have hc' : ∀ s, m.comment = some s → s ≠ [] := by rintro s hs rfl; exact hc hs
  refine ⟨_, format_eq hu' hc' hi, ?_⟩
  have hts := trimmed_strip line
  have hnt : ∀ f ∈ splitOn '\t' (strip line), '\t' ∉ f := fun f hf => sep_not_mem_splitOn hf
  have hjoin := joinWith_splitOn '\t' (strip line)
  generalize splitOn '\t' (strip line) = fs at hf hnt hjoin
  -- the name starts without whitespace, the last field ends without
  have hname : ∀ c, m.name.head? = some c → isSpace c = false := by
    intro c hc
    apply hts.1 c
    rw [← hjoin]
    have : ∃ r, fs = m.name :: r := by cases hf <;> exact ⟨_, rfl⟩
    obtain ⟨r, rfl⟩ := this
    cases r with
    | nil => exact hc
    | cons y ys => rw [joinWith_cons (by simp), List.append_assoc, List.head?_append, hc]; rfl
  have hcom : ∀ t, m.comment = some t → Trimmed t := by
    intro t ht
    cases hf with
    | name | uri => simp at ht
    | nameComment n k text hn hk => simp at ht; subst ht; exact hk.choose_spec.choose_spec.choose_spec.2.2.2.1
    | uriComment n u info k text hn hk =>
      simp at ht; subst ht; exact hk.choose_spec.choose_spec.choose_spec.2.2.2.1
  have hnn : m.name ≠ [] := by cases hf <;> assumption
  have hh : ∀ u, m.uri = some u → m.comment = none → u.head? ≠ some '#' := by
    intro u hu hcn
    cases hf with
    | name | nameComment => simp at hu
    | uriComment => simp at hcn
    | uri n u' info hn hl =>
      simp at hu hi
      subst hu; subst hi
      exact hl u' (by simp)
  have hfn := memberFields_fieldsOf hnn hcom hh hi
  have hne : ∀ f ∈ fieldsOf m, f ≠ [] := by
    intro f hf
    simp only [fieldsOf, List.mem_cons, List.mem_append, Option.mem_toList, Option.map_eq_some_iff] at hf
    rcases hf with rfl | hf | ⟨c, _, rfl⟩
    · exact hnn
    · exact hu' f hf
    · simp
  have htab : ∀ f ∈ fieldsOf m, '\t' ∉ f := by
    intro f hf'
    simp only [fieldsOf, List.mem_cons, List.mem_append, Option.mem_toList, Option.map_eq_some_iff] at hf'
    rcases hf' with rfl | hu | ⟨c, hc, rfl⟩
    · exact hnt _ (by cases hf <;> simp)
    · exact hnt _ (by cases hf <;> simp_all)
    · have : ∃ k ∈ fs, Comment k c := by
        cases hf with
        | name | uri => simp at hc
        | nameComment n k text hn hk => simp at hc; subst hc; exact ⟨k, by simp, hk⟩
        | uriComment n u info k text hn hk => simp at hc; subst hc; exact ⟨k, by simp, hk⟩
      obtain ⟨k, hk, hkc⟩ := this
      have hk' := hnt k hk
      obtain ⟨i, a, b, rfl, _⟩ := hkc
      simp at hk' ⊢
      exact hk'.2.1
  have htrim : Trimmed (joinWith ['\t'] (fieldsOf m)) := by
    apply trimmed_joinWith hne
    · intro f hf; simp [fieldsOf] at hf; subst hf; exact hname
    · intro f hf'
      cases hcm : m.comment with
      | some c =>
        have hfe : f = py!"# " ++ c := by
          simp [fieldsOf, hcm] at hf'
          cases hu2 : m.uri <;> simp [hu2] at hf' <;> exact hf'.symm
        subst hfe
        intro x hx
        rw [List.getLast?_append] at hx
        cases hq : c.getLast? with
        | none => simp at hq; exact absurd hq (hc' c hcm)
        | some q => exact (hcom c hcm).2 x (by simpa [hq] using hx)
      | none =>
        have hlast : f ∈ fs.getLast? ∧ fs ≠ [] := by
          cases hf with
          | name n hn => simpa [fieldsOf] using hf'
          | nameComment | uriComment => simp at hcm
          | uri n u info hn hl =>
            simp at hi; subst hi
            simpa [fieldsOf] using hf'
        intro x hx
        apply hts.2 x
        rw [← hjoin]
        obtain ⟨init, rfl⟩ := List.getLast?_eq_some_iff.1 (Option.mem_def.1 hlast.1)
        clear hnt hjoin hf hlast hf'
        induction init with
        | nil => exact hx
        | cons y ys ih =>
          rw [List.cons_append, joinWith_cons (by simp), List.getLast?_append, ih]; rfl
  apply parseLine03_of_fields
  rw [strip_append_space (by simp [isSpace]), strip_of_trimmed htrim,
    splitOn_joinWith (by simp [fieldsOf]) htab]
  exact hfn

example : parseLine03 py!"  b \tu\t#  c \n" = .ok ⟨py!"b ", some py!"u", some py!"c", []⟩ := by decide

/-- C06: the text written for a list of clean members is read back, by either
kind of reader, as the same list in the same order.  (The first name must not
start with a byte order mark, which the reader drops.) -/
theorem C06_members_roundtrip (mode : TextMode) (ms : List MemberInfo)
    (h : ∀ m ∈ ms, CleanMember m) (hbom : ∀ m ∈ ms.head?, m.name.head? ≠ some bom) :
    ∃ text, membersText ms = .ok text ∧ readMembers03 mode text = .ok ms := by
  obtain ⟨ls, h1, h2⟩ := membersText_clean h
  refine ⟨_, h1, ?_⟩
  unfold readMembers03
  rw [textLines_flatten mode ls, readRecords_eq_mapM, filter_nonblank_lines]
  · exact forall₂_map_left (forall₂_imp (fun _ _ h => h.2.2.2.2.2) h2)
  · intro l hl
    obtain ⟨m, _, hm⟩ := forall₂_mem_left h2 hl
    exact ⟨hm.2.2.1, hm.2.2.2.1⟩
  · intro l hl
    obtain ⟨m, _, hm⟩ := forall₂_mem_left h2 hl
    exact hm.2.1
  · intro l hl
    cases h2 with
    | nil => simp at hl
    | cons hm _ => simp at hl; subst hl; rw [hm.2.2.2.2.1]; exact hbom _ (by simp)

example : ∃ text, membersText [⟨py!"b1", some py!"ark:/1", none, []⟩, ⟨py!"b 2", none, none, []⟩] = .ok text ∧
    readMembers03 .universal text = .ok [⟨py!"b1", some py!"ark:/1", none, []⟩, ⟨py!"b 2", none, none, []⟩] := by
  refine C06_members_roundtrip _ _ ?_ (by decide)
  intro m hm
  simp only [List.mem_cons, List.not_mem_nil, or_false] at hm
  rcases hm with rfl | rfl
  · exact ⟨clean_of_check (by decide), fun u h => by injection h with h; subst h; exact clean_of_check (by decide),
      (fun u h => by cases h), by simp, rfl⟩
  · exact ⟨clean_of_check (by decide), (fun u h => by cases h), (fun u h => by cases h), by simp, rfl⟩

/-- C07: the text written for a file lookup with clean paths and bag names is
read back as the same pairs in the same order. -/
theorem C07_lookup_roundtrip (mode : TextMode) (d : List (Str × Str))
    (h : ∀ p ∈ d, Clean p.1 ∧ Clean p.2) (hbom : ∀ p ∈ d.head?, p.1.head? ≠ some bom) :
    readLookup03 mode (lookupText d) = .ok d := by
  have key : ∀ p ∈ d, parseFileLookup03 (p.1 ++ '\t' :: p.2 ++ ['\n']) = .ok p ∧
      strip (p.1 ++ '\t' :: p.2 ++ ['\n']) = p.1 ++ '\t' :: p.2 ∧
      (∀ c ∈ p.1 ++ '\t' :: p.2, isBreak c = false) := by
    intro p hp
    obtain ⟨h1, h2⟩ := h p hp
    have ht : Trimmed (p.1 ++ '\t' :: p.2) := by
      apply trimmed_append h1.nonempty (by simp) h1.noouter.1
      intro c hc
      rw [List.getLast?_cons] at hc
      cases hq : p.2.getLast? with
      | none => simp at hq; exact absurd hq h2.nonempty
      | some q => exact h2.noouter.2 c (by simpa [hq] using hc)
    have hs : strip (p.1 ++ '\t' :: p.2 ++ ['\n']) = p.1 ++ '\t' :: p.2 := by
      rw [strip_append_space (by simp [isSpace]), strip_of_trimmed ht]
    refine ⟨?_, hs, ?_⟩
    · unfold parseFileLookup03
      rw [hs, splitOn_append_sep _ h1.notab, splitOn_noSep h2.notab]
    · intro c hc
      simp at hc
      rcases hc with hc | rfl | hc
      · exact h1.nobreak c hc
      · decide
      · exact h2.nobreak c hc
  have e : lookupText d = ((d.map (fun p => p.1 ++ '\t' :: p.2)).map (· ++ ['\n'])).flatten := by
    simp [lookupText, List.map_map, Function.comp_def]
  unfold readLookup03
  rw [e, textLines_flatten, readRecords_eq_mapM, filter_nonblank_lines]
  · rw [List.map_map]
    exact forall₂_map_self (fun p hp => (key p hp).1)
  · intro l hl
    obtain ⟨p, hp, rfl⟩ := List.mem_map.1 hl
    exact ⟨(key p hp).2.1, by simp⟩
  · intro l hl
    obtain ⟨p, hp, rfl⟩ := List.mem_map.1 hl
    exact (key p hp).2.2
  · intro l hl
    cases d with
    | nil => simp at hl
    | cons p r =>
      simp at hl; subst hl
      rw [List.head?_append]
      have := hbom p (by simp)
      cases hq : p.1.head? with
      | none => simp; decide
      | some q => rw [hq] at this; simpa using this

example : readLookup03 .codecs (lookupText [(py!"data/a b", py!"m1"), (py!"data/c", py!"m 2")]) =
    .ok [(py!"data/a b", py!"m1"), (py!"data/c", py!"m 2")] := by
  refine C07_lookup_roundtrip _ _ ?_ (by decide)
  intro m hm
  simp only [List.mem_cons, List.not_mem_nil, or_false] at hm
  rcases hm with rfl | rfl <;> exact ⟨clean_of_check (by decide), clean_of_check (by decide)⟩

example : Clean py!"data/trial 1.json" ∧ Clean py!"bag.1" :=
  ⟨clean_of_check (by decide), clean_of_check (by decide)⟩

/-- C08: the text written for a list of clean paths is read back as the same
list (whatever the order in which the set was enumerated). -/
theorem C08_deleted_roundtrip (mode : TextMode) (ps : List Str)
    (h : ∀ p ∈ ps, Clean p) (hbom : ∀ p ∈ ps.head?, p.head? ≠ some bom) :
    readDeleted mode (deletedText ps) = ps := by
  have key : ∀ p ∈ ps, strip (p ++ ['\n']) = p := by
    intro p hp
    rw [strip_append_space (by simp [isSpace]), strip_of_trimmed (h p hp).noouter]
  unfold readDeleted deletedText
  rw [textLines_flatten mode ps (fun p hp => (h p hp).nobreak) hbom, List.filterMap_map]
  apply filterMap_self
  intro p hp
  simp only [Function.comp, parseDeleted04, key p hp, ne_eq, (h p hp).nonempty,
    not_false_eq_true, if_true]

example : readDeleted .codecs (deletedText [py!"data/a b", py!"data/c"]) = [py!"data/a b", py!"data/c"] := by
  refine C08_deleted_roundtrip _ _ ?_ (by decide)
  intro m hm
  simp only [List.mem_cons, List.not_mem_nil, or_false] at hm
  rcases hm with rfl | rfl <;> exact clean_of_check (by decide)

/-- C10, member-bags.tsv: reading yields one record for each non-blank line, in
order, each the meaning of its line; it never fails. -/
theorem C10_members_complete (mode : TextMode) (text : Str) :
    ∃ ms, readMembers03 mode text = .ok ms ∧
      Forall₂ (fun line m => MemberFields (splitOn '\t' (strip line)) m)
        ((textLines mode text).filter (fun l => strip l ≠ [])) ms := by
  cases h : readMembers03 mode text with
  | error e =>
    exfalso
    obtain ⟨l, _, hb, he⟩ := readRecords_error.1 ⟨e, h⟩
    exact hb (blank_iff.1 ((parseLine03_error_iff l).1 he))
  | ok ms =>
    exact ⟨ms, rfl, forall₂_imp (fun _ _ h => fields_of_parseLine03 h) (readRecords_eq_mapM.1 h)⟩

/-- C10, file-lookup.tsv: reading succeeds exactly when every non-blank line has
at least two fields, and then yields the first two fields of each, in order. -/
theorem C10_lookup_complete (mode : TextMode) (text : Str) (rs : List (Str × Str)) :
    readLookup03 mode text = .ok rs ↔
      Forall₂ (fun line (r : Str × Str) => ∃ more, splitOn '\t' (strip line) = r.1 :: r.2 :: more)
        ((textLines mode text).filter (fun l => strip l ≠ [])) rs := by
  unfold readLookup03
  rw [readRecords_eq_mapM]
  have key : ∀ line (r : Str × Str), parseFileLookup03 line = .ok r ↔
      ∃ more, splitOn '\t' (strip line) = r.1 :: r.2 :: more := by
    intro line r
    unfold parseFileLookup03
    obtain ⟨x, y⟩ := r
    constructor
    · intro h
      split at h
      · rename_i a b t e
        injection h with h; injection h with h1 h2
        subst h1; subst h2
        exact ⟨t, e⟩
      · cases h
    · rintro ⟨more, e⟩
      rw [e]
  exact ⟨forall₂_imp (fun _ _ => (key _ _).1), forall₂_imp (fun _ _ => (key _ _).2)⟩

/-- C10, file-lookup.tsv: reading raises exactly when some non-blank line has no
inner tab. -/
theorem C10_lookup_error (mode : TextMode) (text : Str) :
    (∃ e, readLookup03 mode text = .error e) ↔
      ∃ line ∈ textLines mode text, ¬ Blank line ∧ '\t' ∉ strip line := by
  unfold readLookup03
  rw [readRecords_error]
  have key : ∀ line, (∃ e, parseFileLookup03 line = .error e) ↔ '\t' ∉ strip line := by
    intro line
    unfold parseFileLookup03
    constructor
    · rintro ⟨e, he⟩
      split at he
      · cases he
      · rename_i hne
        cases hs : splitOn '\t' (strip line) with
        | nil => exact absurd hs (splitOn_ne_nil _ _)
        | cons a t =>
          cases t with
          | nil => exact (splitOn_eq_singleton hs).1
          | cons b t => exact absurd hs (hne a b t)
    · intro h
      rw [splitOn_noSep h]
      exact ⟨_, rfl⟩
  constructor
  · rintro ⟨l, hl, hb, he⟩
    exact ⟨l, hl, fun h => hb (blank_iff.1 h), (key l).1 he⟩
  · rintro ⟨l, hl, hb, he⟩
    exact ⟨l, hl, fun h => hb (blank_iff.2 h), (key l).2 he⟩

example : ∃ line ∈ textLines .codecs py!"data/a\tb\n\ndata/c\n", ¬ Blank line ∧ '\t' ∉ strip line :=
  ⟨py!"data/c\n", by decide, by rw [blank_iff]; decide, by decide⟩

/-- C11: a name and URI separated by any number of blanks, with any surrounding
whitespace, are read from a group-members.txt line; further fields are ignored. -/
theorem C11_group_members_line (name uri a b : Str) (n : Nat)
    (hn : name ≠ []) (hu : uri ≠ []) (hn' : ∀ c ∈ name, isSpace c = false)
    (hu' : ∀ c ∈ uri, isSpace c = false) (ha : Blank a) (hb : Blank b) :
    parseLine02 (a ++ (name ++ List.replicate (n+1) ' ' ++ uri) ++ b)
      = .ok ⟨name, some uri, none, []⟩
    ∧ parseLine02 (a ++ name ++ b) = .ok ⟨name, none, none, []⟩ := by
  have t1 : Trimmed (name ++ List.replicate (n+1) ' ' ++ uri) := by
    rw [List.append_assoc]
    apply trimmed_append hn (by simp [hu])
    · exact fun c hc => hn' c (List.mem_of_mem_head? hc)
    · intro c hc
      apply hu' c
      rw [List.getLast?_append] at hc
      cases hq : uri.getLast? with
      | none => simp at hq; contradiction
      | some q => rw [hq] at hc; simp at hc; subst hc; exact List.mem_of_getLast? hq
  have t2 : Trimmed name :=
    ⟨fun c hc => hn' c (List.mem_of_mem_head? hc), fun c hc => hn' c (List.mem_of_getLast? hc)⟩
  have hs : ' ' ∉ name := fun h => by have := hn' _ h; revert this; decide
  have hs' : ' ' ∉ uri := fun h => by have := hu' _ h; revert this; decide
  constructor
  · unfold parseLine02
    rw [strip_surround ha hb, strip_of_trimmed t1, splitRuns_sep n hs, splitRunsAux_noSep _ hs']
    simp [hn]
  · unfold parseLine02
    rw [strip_surround ha hb, strip_of_trimmed t2, splitRuns, splitRunsAux_noSep _ hs]
    simp [hn]

example : parseLine02 py!" b1  ark:/1\n" = .ok ⟨py!"b1", some py!"ark:/1", none, []⟩ :=
  (C11_group_members_line py!"b1" py!"ark:/1" py!" " py!"\n" 1 (by decide) (by decide) (by decide) (by decide)
    (by unfold Blank; decide) (by unfold Blank; decide)).1

/-- C11: a path and bag name separated by any number of blanks are read from a
group-directory.txt line. -/
theorem C11_group_directory_line (path bag a b : Str) (n : Nat)
    (hn : path ≠ []) (hu : bag ≠ []) (hn' : ∀ c ∈ path, isSpace c = false)
    (hu' : ∀ c ∈ bag, isSpace c = false) (ha : Blank a) (hb : Blank b) :
    parseGroupDirectory (a ++ (path ++ List.replicate (n+1) ' ' ++ bag) ++ b) = .ok (path, bag) := by
  have t1 : Trimmed (path ++ List.replicate (n+1) ' ' ++ bag) := by
    rw [List.append_assoc]
    apply trimmed_append hn (by simp [hu])
    · exact fun c hc => hn' c (List.mem_of_mem_head? hc)
    · intro c hc
      apply hu' c
      rw [List.getLast?_append] at hc
      cases hq : bag.getLast? with
      | none => simp at hq; contradiction
      | some q => rw [hq] at hc; simp at hc; subst hc; exact List.mem_of_getLast? hq
  have hs : ' ' ∉ path := fun h => by have := hn' _ h; revert this; decide
  have hs' : ' ' ∉ bag := fun h => by have := hu' _ h; revert this; decide
  unfold parseGroupDirectory
  rw [strip_surround ha hb, strip_of_trimmed t1, splitRuns_sep n hs, splitRunsAux_noSep _ hs']

example : parseGroupDirectory py!" data/t1.json   bag2\n" = .ok (py!"data/t1.json", py!"bag2") := by
  decide

/-- C11 does not extend to paths with blanks: the second word of the path is
taken for the bag name. -/
theorem C11_blank_in_path :
    parseGroupDirectory py!"data/trial 1.json bag2\n" = .ok (py!"data/trial", py!"1.json") := by
  decide

end Verif
