import Verif.Spec.TagFiles
import Verif.Py.ListX
/-!
# Lemmas about the tag file formats
-/

namespace Verif

open Spec

/-- A decidable form of `Clean`, for concrete cases. -/
theorem clean_of_check {s : Str} (h : (s ≠ [] ∧ '\t' ∉ s ∧ (∀ c ∈ s, isBreak c = false) ∧ strip s = s)) :
    Clean s := ⟨h.1, h.2.1, h.2.2.1, strip_eq_self_iff.1 h.2.2.2⟩

theorem blank_iff {s : Str} : Blank s ↔ strip s = [] := strip_eq_nil_iff.symm

theorem isSpace_tab : isSpace '\t' = true := by decide
theorem isSpace_nl : isSpace '\n' = true := by decide

theorem trimmed_append {a b : Str} (ha : a ≠ []) (hb : b ≠ [])
    (h1 : ∀ c, a.head? = some c → isSpace c = false)
    (h2 : ∀ c, b.getLast? = some c → isSpace c = false) : Trimmed (a ++ b) := by
  refine ⟨?_, ?_⟩
  · intro c hc; apply h1 c
    cases a with
    | nil => contradiction
    | cons x xs => simpa using hc
  · intro c hc; apply h2 c
    rw [List.getLast?_append] at hc
    cases h : b.getLast? with
    | none => simp at h; contradiction
    | some y => simpa [h] using hc

/-- Comment fields: removing the hash marks and the whitespace gives the text. -/
theorem comment_text {k text : Str} (h : Comment k text) :
    startsWith ['#'] k = true ∧ strip (lstripBy (fun c => c = '#') k) = text := by
  obtain ⟨i, a, b, rfl, ha, hb, ht, hh⟩ := h
  refine ⟨by simp [startsWith, List.replicate_succ], ?_⟩
  have h1 : lstripBy (fun c => c = '#') (List.replicate (i+1) '#' ++ (a ++ text ++ b)) = a ++ text ++ b := by
    unfold lstripBy
    rw [dropWhile_append_all (by intro c hc; simpa using List.eq_of_mem_replicate hc)]
    apply dropWhile_eq_self_of_head
    intro c hc
    simp only [decide_eq_false_iff_not]
    rintro rfl
    cases a with
    | nil =>
      simp only [List.nil_append] at hc
      cases text with
      | nil =>
        simp only [List.nil_append] at hc
        have := hb '#' (List.mem_of_mem_head? hc)
        revert this; decide
      | cons x xs => simp at hc; subst hc; exact hh rfl rfl
    | cons x xs =>
      simp at hc; subst hc
      have := ha '#' (by simp)
      revert this; decide
  rw [h1, strip_surround ha hb, strip_of_trimmed ht]

theorem comment_of_startsWith {k : Str} (h : startsWith ['#'] k = true) :
    Comment k (strip (lstripBy (fun c => c = '#') k)) := by
  obtain ⟨t, ht, ht'⟩ := lstripBy_suffix (fun c => c = '#') k
  have hrep : t = List.replicate t.length '#' := by
    apply List.eq_replicate_iff.2
    exact ⟨rfl, fun c hc => by simpa using ht' c hc⟩
  obtain ⟨a, b, hab, ha, hb⟩ := strip_decomp (lstripBy (fun c => c = '#') k)
  have hlen : t ≠ [] := by
    rintro rfl
    cases k with
    | nil => simp [startsWith] at h
    | cons x xs =>
      simp [startsWith] at h
      subst h
      simp only [lstripBy, List.dropWhile_cons, decide_true, if_true, List.nil_append] at ht
      have := (List.dropWhile_sublist (fun c => decide (c = '#')) (l := xs)).length_le
      rw [← ht] at this
      simp at this
      omega
  obtain ⟨i, hi⟩ : ∃ i, t.length = i + 1 := ⟨t.length - 1, by
    have := List.length_pos_iff.2 hlen; omega⟩
  refine ⟨i, a, b, ?_, ha, hb, trimmed_strip _, ?_⟩
  · rw [← hab, ← hi, ← hrep]; exact ht
  · rintro rfl hh
    have : (lstripBy (fun c => c = '#') k).head? = some '#' := by
      rw [hab, List.nil_append, List.head?_append, hh]; rfl
    have := dropWhile_head_not (p := fun c => decide (c = '#')) '#' this
    simp at this

theorem startsWith_hash (k : Str) : startsWith ['#'] k = true ↔ k.head? = some '#' := by
  cases k with
  | nil => simp [startsWith]
  | cons x xs =>
    simp only [startsWith, List.isPrefixOf, List.head?_cons, Option.some.injEq, Bool.and_true,
      beq_iff_eq]
    exact eq_comm

theorem head_ne_of_not_startsWith {k : Str} (h : startsWith ['#'] k = false) :
    k.head? ≠ some '#' := by
  intro e; rw [(startsWith_hash k).2 e] at h; cases h

theorem not_startsWith_of_head_ne {k : Str} (h : k.head? ≠ some '#') :
    startsWith ['#'] k = false := by
  cases e : startsWith ['#'] k with
  | false => rfl
  | true => exact absurd ((startsWith_hash k).1 e) h

theorem parseLine03_of_fields {line : Str} {m : MemberInfo}
    (h : MemberFields (splitOn '\t' (strip line)) m) : parseLine03 line = .ok m := by
  unfold parseLine03
  generalize splitOn '\t' (strip line) = fs at h
  cases h with
  | name n hn => simp [hn]
  | nameComment n k text hn hk =>
    obtain ⟨h1, h2⟩ := comment_text hk
    simp [hn, h1, h2]
  | uri n u info hn hl =>
    simp only [hn, if_false]
    cases hg : (u :: info).getLast? with
    | none => simp at hg
    | some l =>
      simp only [not_startsWith_of_head_ne (hl l (by simp [hg]))]
      simp
  | uriComment n u info k text hn hk =>
    obtain ⟨h1, h2⟩ := comment_text hk
    have e1 : (u :: (info ++ [k])).getLast? = some k := by
      rw [← List.cons_append, List.getLast?_append]; simp
    have e2 : (u :: (info ++ [k])).dropLast = u :: info := by
      rw [← List.cons_append, List.dropLast_concat]
    simp only [List.cons_append, hn, if_false, e1, h1, if_true, h2, e2]

theorem fields_of_parseLine03 {line : Str} {m : MemberInfo}
    (h : parseLine03 line = .ok m) : MemberFields (splitOn '\t' (strip line)) m := by
  unfold parseLine03 at h
  generalize splitOn '\t' (strip line) = fs at h
  cases fs with
  | nil => simp at h
  | cons n fs =>
    simp only at h
    by_cases hn : n = []
    · simp [hn] at h
    simp only [hn, if_false] at h
    cases hg : fs.getLast? with
    | none =>
      have : fs = [] := List.getLast?_eq_none_iff.1 hg
      subst this
      simp at h; subst h
      exact .name n hn
    | some l =>
      obtain ⟨init, rfl⟩ := List.getLast?_eq_some_iff.1 hg
      simp only [hg] at h
      cases hs : startsWith ['#'] l with
      | true =>
        simp only [hs, if_true, List.dropLast_concat] at h
        cases init with
        | nil => simp at h; subst h; exact .nameComment n l _ hn (comment_of_startsWith hs)
        | cons u info =>
          simp at h; subst h
          exact .uriComment n u info l _ hn (comment_of_startsWith hs)
      | false =>
        simp only [hs, Bool.false_eq_true, if_false] at h
        have hk := head_ne_of_not_startsWith hs
        cases init with
        | nil =>
          simp at h; subst h
          exact .uri n l [] hn (by simpa using hk)
        | cons u info =>
          simp at h; subst h
          refine .uri n u (info ++ [l]) hn ?_
          intro k hk'
          rw [← List.cons_append, List.getLast?_append] at hk'
          simp at hk'; subst hk'; exact hk

theorem splitOn_head_eq_nil {s : Str} (ht : Trimmed s) {n : Str} {fs : List Str}
    (h : splitOn '\t' s = n :: fs) : n = [] ↔ s = [] := by
  constructor
  · rintro rfl
    cases s with
    | nil => rfl
    | cons x xs =>
      exfalso
      by_cases hx : x = '\t'
      · subst hx
        have := ht.1 '\t' rfl
        revert this; decide
      · rw [splitOn_cons_ne _ hx] at h
        simp at h
  · rintro rfl
    simp [splitOn] at h
    exact h.1

/-- Parsing fails exactly on blank lines. -/
theorem parseLine03_error_iff (line : Str) :
    (∃ e, parseLine03 line = .error e) ↔ Blank line := by
  rw [blank_iff]
  unfold parseLine03
  have hne := splitOn_ne_nil '\t' (strip line)
  cases hs : splitOn '\t' (strip line) with
  | nil => contradiction
  | cons n fs =>
    have hh := splitOn_head_eq_nil (trimmed_strip line) hs
    simp only
    by_cases hn : n = []
    · simp only [hn, if_true]
      exact ⟨fun _ => hh.1 hn, fun _ => ⟨_, rfl⟩⟩
    · simp only [hn, if_false]
      constructor
      · rintro ⟨e, he⟩
        exfalso
        revert he
        split <;> split <;> simp
      · intro h; exact absurd (hh.2 h) hn

theorem parseLine03_error_kind {line : Str} {e : PyErr} (h : parseLine03 line = .error e) :
    e = .multibagError := by
  unfold parseLine03 at h
  split at h
  · simpa using h.symm
  · split at h
    · simpa using h.symm
    · revert h; split <;> split <;> simp

end Verif

namespace Verif

open Spec

/-! ## Formatting -/

theorem joinWith_ne_nil {sep : Str} {fs : List Str} (hne : fs ≠ []) (h : ∀ f ∈ fs, f ≠ []) :
    joinWith sep fs ≠ [] := by
  cases fs with
  | nil => contradiction
  | cons x xs =>
    have hx := h x (by simp)
    cases xs with
    | nil => exact hx
    | cons y ys => rw [joinWith_cons (by simp)]; simp [hx]

theorem trimmed_joinWith {sep : Str} {fs : List Str} (h : ∀ f ∈ fs, f ≠ [])
    (h1 : ∀ f ∈ fs.head?, ∀ c, f.head? = some c → isSpace c = false)
    (h2 : ∀ f ∈ fs.getLast?, ∀ c, f.getLast? = some c → isSpace c = false) :
    Trimmed (joinWith sep fs) := by
  induction fs with
  | nil => exact ⟨by simp [joinWith], by simp [joinWith]⟩
  | cons x xs ih =>
    cases xs with
    | nil => exact ⟨h1 x (by simp), h2 x (by simp)⟩
    | cons y ys =>
      rw [joinWith_cons (by simp), List.append_assoc]
      have hj : joinWith sep (y :: ys) ≠ [] :=
        joinWith_ne_nil (by simp) (fun f hf => h f (by simp [hf]))
      have hlast : ∀ c, (joinWith sep (y :: ys)).getLast? = some c → isSpace c = false := by
        -- generalise the induction: only the end of the joined text matters
        have key : ∀ (l : List Str), l ≠ [] → (∀ f ∈ l, f ≠ []) →
            (joinWith sep l).getLast? = (l.getLast?.bind List.getLast?) := by
          intro l
          induction l with
          | nil => simp
          | cons a as ih' =>
            intro _ hl
            cases as with
            | nil => simp [joinWith]
            | cons b bs =>
              rw [joinWith_cons (by simp), List.getLast?_append, ih' (by simp) (fun f hf => hl f (by simp [hf]))]
              obtain ⟨init, last, e⟩ : ∃ init last, b :: bs = init ++ [last] :=
                exists_concat (by simp)
              have hne : last ≠ [] := hl last (by rw [e]; simp)
              have e2 : (a :: b :: bs).getLast? = some last := by
                rw [e, ← List.cons_append, List.getLast?_append]; simp
              have e3 : (b :: bs).getLast? = some last := by rw [e, List.getLast?_append]; simp
              rw [e2, e3]
              cases hq : last.getLast? with
              | none => simp at hq; contradiction
              | some q => simp [hq]
        intro c hc
        rw [key (y :: ys) (by simp) (fun f hf => h f (by simp [hf]))] at hc
        cases hq : (y :: ys).getLast? with
        | none => simp at hq
        | some q =>
          rw [hq] at hc
          simp at hc
          apply h2 q _ c hc
          rw [List.getLast?_cons_cons, hq]; simp
      apply trimmed_append (h x (by simp)) (by simp [hj]) (h1 x (by simp))
      intro c hc
      apply hlast c
      rw [List.getLast?_append] at hc
      cases hq : (joinWith sep (y :: ys)).getLast? with
      | none => simp at hq; exact absurd hq hj
      | some q => simpa [hq] using hc

/-- The fields that `format` puts in a line. -/
def fieldsOf (m : MemberInfo) : List Str :=
  m.name :: (m.uri.toList ++ (m.comment.map (fun c => py!"# " ++ c)).toList)

theorem truthy_of_ne {o : Option Str} (h : ∀ s, o = some s → s ≠ []) : truthy o = o.isSome := by
  cases o with
  | none => rfl
  | some s => cases s with
    | nil => exact absurd rfl (h [] rfl)
    | cons => rfl

theorem format_eq {m : MemberInfo} (hu : ∀ s, m.uri = some s → s ≠ [])
    (hc : ∀ s, m.comment = some s → s ≠ []) (hi : m.info = []) :
    m.format = .ok (joinWith ['\t'] (fieldsOf m) ++ ['\n']) := by
  unfold MemberInfo.format fieldsOf
  rw [truthy_of_ne hu, truthy_of_ne hc]
  cases hu' : m.uri <;> cases hc' : m.comment <;>
    simp [hi, joinWith]

theorem memberFields_fieldsOf {m : MemberInfo} (hn : m.name ≠ [])
    (hc : ∀ c, m.comment = some c → Trimmed c)
    (hh : ∀ u, m.uri = some u → m.comment = none → u.head? ≠ some '#')
    (hi : m.info = []) : MemberFields (fieldsOf m) m := by
  obtain ⟨name, uri, comment, info⟩ := m
  simp at hi hn hc hh
  subst hi
  have hcm : ∀ c, Trimmed c → Comment (py!"# " ++ c) c := fun c h =>
    ⟨0, [' '], [], by simp, by simp [Blank, isSpace], by simp [Blank], h, by simp⟩
  cases uri with
  | none =>
    cases comment with
    | none => exact .name name hn
    | some c => exact .nameComment name _ c hn (hcm c (hc c rfl))
  | some u =>
    cases comment with
    | none => exact .uri name u [] hn (by simpa using hh u rfl)
    | some c => exact .uriComment name u [] _ c hn (hcm c (hc c rfl))

theorem clean_fieldsOf {m : MemberInfo} (h : CleanMember m) :
    (∀ f ∈ fieldsOf m, f ≠ []) ∧ (∀ f ∈ fieldsOf m, '\t' ∉ f) ∧
    (∀ f ∈ fieldsOf m, ∀ c ∈ f, isBreak c = false) ∧
    (∀ f ∈ (fieldsOf m).head?, ∀ c, f.head? = some c → isSpace c = false) ∧
    (∀ f ∈ (fieldsOf m).getLast?, ∀ c, f.getLast? = some c → isSpace c = false) := by
  obtain ⟨hn, hu, hc, -, -⟩ := h
  obtain ⟨name, uri, comment, info⟩ := m
  simp only at hn hu hc
  have hcom : ∀ c, Clean c → (py!"# " ++ c ≠ []) ∧ ('\t' ∉ py!"# " ++ c) ∧
      (∀ x ∈ py!"# " ++ c, isBreak x = false) ∧
      (∀ x, (py!"# " ++ c).getLast? = some x → isSpace x = false) := by
    intro c hc
    refine ⟨by simp, by simp [hc.notab], ?_, ?_⟩
    · intro x hx
      simp at hx
      rcases hx with rfl | rfl | hx
      · decide
      · decide
      · exact hc.nobreak x hx
    · intro x hx
      rw [List.getLast?_append] at hx
      cases hq : c.getLast? with
      | none => simp at hq; exact absurd hq hc.nonempty
      | some q => exact hc.noouter.2 x (by simpa [hq] using hx)
  refine ⟨?_, ?_, ?_, ?_, ?_⟩
  · intro f hf
    simp [fieldsOf] at hf
    rcases hf with rfl | hf | ⟨c, hc', rfl⟩
    · exact hn.nonempty
    · exact (hu f hf).nonempty
    · simp
  · intro f hf
    simp [fieldsOf] at hf
    rcases hf with rfl | hf | ⟨c, hc', rfl⟩
    · exact hn.notab
    · exact (hu f hf).notab
    · exact (hcom c (hc c hc')).2.1
  · intro f hf
    simp [fieldsOf] at hf
    rcases hf with rfl | hf | ⟨c, hc', rfl⟩
    · exact hn.nobreak
    · exact (hu f hf).nobreak
    · exact (hcom c (hc c hc')).2.2.1
  · intro f hf
    simp [fieldsOf] at hf
    subst hf
    exact hn.noouter.1
  · intro f hf
    cases comment with
    | some c =>
      simp [fieldsOf] at hf
      have : f = '#' :: ' ' :: c := by
        cases uri <;> simp at hf <;> exact hf.symm
      subst this
      exact (hcom c (hc c rfl)).2.2.2
    | none =>
      cases uri with
      | none => simp [fieldsOf] at hf; subst hf; exact hn.noouter.2
      | some u => simp [fieldsOf] at hf; subst hf; exact (hu u rfl).noouter.2

theorem mem_joinWith {c : Char} {sep : Str} {fs : List Str} (h : c ∈ joinWith sep fs) :
    c ∈ sep ∨ ∃ f ∈ fs, c ∈ f := by
  induction fs with
  | nil => simp [joinWith] at h
  | cons x xs ih =>
    cases xs with
    | nil => exact .inr ⟨x, by simp, h⟩
    | cons y ys =>
      rw [joinWith_cons (by simp)] at h
      simp only [List.mem_append] at h
      rcases h with (h | h) | h
      · exact .inr ⟨x, by simp, h⟩
      · exact .inl h
      · rcases ih h with h | ⟨f, hf, h⟩
        · exact .inl h
        · exact .inr ⟨f, by simp [List.mem_cons.1 hf], h⟩

/-- A clean record is formatted as one line, which parses as the record. -/
theorem format_clean {m : MemberInfo} (h : CleanMember m) :
    ∃ body, m.format = .ok (body ++ ['\n']) ∧ (∀ c ∈ body, isBreak c = false) ∧
      strip (body ++ ['\n']) = body ∧ body ≠ [] ∧ body.head? = m.name.head? ∧
      parseLine03 (body ++ ['\n']) = .ok m := by
  obtain ⟨h1, h2, h3, h4, h5⟩ := clean_fieldsOf h
  have hf := format_eq (m := m) (fun s hs => (h.uri s hs).nonempty)
    (fun s hs => (h.comment s hs).nonempty) h.info
  have ht := trimmed_joinWith (sep := ['\t']) h1 h4 h5
  have hs : strip (joinWith ['\t'] (fieldsOf m) ++ ['\n']) = joinWith ['\t'] (fieldsOf m) := by
    rw [strip_append_space (by simp [isSpace]), strip_of_trimmed ht]
  refine ⟨_, hf, ?_, hs, joinWith_ne_nil (by simp [fieldsOf]) h1, ?_, ?_⟩
  · intro c hc
    rcases mem_joinWith hc with hc | ⟨f, hf, hc⟩
    · simp at hc; subst hc; decide
    · exact h3 f hf c hc
  · have hn := h.name.nonempty
    unfold fieldsOf
    generalize (m.uri.toList ++ (m.comment.map (fun c => py!"# " ++ c)).toList) = r
    cases r with
    | nil => simp [joinWith]
    | cons y ys =>
      rw [joinWith_cons (by simp)]
      cases hm : m.name with
      | nil => contradiction
      | cons => simp
  · apply parseLine03_of_fields
    rw [hs, splitOn_joinWith (by simp [fieldsOf]) h2]
    exact memberFields_fieldsOf h.name.nonempty (fun c hc => (h.comment c hc).noouter) h.hash h.info

/-! ## Reading whole files -/

theorem readRecords_eq_mapM {α : Type} {parse : Str → Except PyErr α} {ls : List Str} {rs : List α} :
    readRecords parse ls = .ok rs ↔
      Forall₂ (fun l r => parse l = .ok r) (ls.filter (fun l => strip l ≠ [])) rs := by
  induction ls generalizing rs with
  | nil =>
    simp only [readRecords, List.filter_nil, Except.ok.injEq]
    constructor
    · rintro rfl; exact .nil
    · intro h; cases h; rfl
  | cons l ls ih =>
    simp only [readRecords]
    by_cases hb : strip l = []
    · simp [hb, ih]
    · simp only [ne_eq, hb, not_false_eq_true, if_true, decide_true, List.filter_cons]
      cases hp : parse l with
      | error e =>
        simp only [reduceCtorEq, false_iff]
        intro h
        cases h with
        | cons h1 _ => rw [hp] at h1; cases h1
      | ok r =>
        simp only
        cases hr : readRecords parse ls with
        | error e =>
          simp only [reduceCtorEq, false_iff]
          intro h
          cases h with
          | cons _ h2 => have := ih.2 h2; rw [hr] at this; cases this
        | ok rs' =>
          simp only [Except.ok.injEq]
          constructor
          · rintro rfl; exact .cons hp (ih.1 hr)
          · intro h
            cases h with
            | cons h1 h2 =>
              rw [hp] at h1; injection h1 with h1
              have := ih.2 h2; rw [hr] at this; injection this with this
              rw [h1, this]

theorem readRecords_error {α : Type} {parse : Str → Except PyErr α} {ls : List Str} :
    (∃ e, readRecords parse ls = .error e) ↔
      ∃ l ∈ ls, strip l ≠ [] ∧ ∃ e, parse l = .error e := by
  induction ls with
  | nil => simp [readRecords]
  | cons l ls ih =>
    simp only [readRecords]
    by_cases hb : strip l = []
    · simp [hb, ih]
    · simp only [ne_eq, hb, not_false_eq_true, if_true, List.mem_cons, exists_eq_or_imp, true_and]
      cases hp : parse l with
      | error e => simp
      | ok r =>
        cases hr : readRecords parse ls with
        | error e => rw [hr] at ih; simp at ih ⊢; exact ih
        | ok rs => rw [hr] at ih; simp at ih ⊢; exact ih

theorem textLines_universal (ls : List Str) (hb : ∀ l ∈ ls, ∀ c ∈ l, isNl c = false) :
    textLines .universal (ls.map (· ++ ['\n'])).flatten = ls.map (· ++ ['\n']) := by
  simp only [textLines]
  rw [translateNl_clean, linesOf_flatten (by decide) ls hb]
  intro hc
  obtain ⟨l, hl, hcl⟩ := List.mem_flatten.1 hc
  obtain ⟨e, he, rfl⟩ := List.mem_map.1 hl
  rcases List.mem_append.1 hcl with h' | h'
  · exact absurd (hb e he _ h') (by decide)
  · simp at h'

/-- Lines written one by one are read back by either kind of reader. -/
theorem textLines_flatten (mode : TextMode) (ls : List Str)
    (hb : ∀ l ∈ ls, ∀ c ∈ l, isBreak c = false)
    (hbom : ∀ l ∈ ls.head?, l.head? ≠ some bom) :
    textLines mode (ls.map (· ++ ['\n'])).flatten = ls.map (· ++ ['\n']) := by
  cases mode with
  | codecs =>
    simp only [textLines]
    have : dropBom (ls.map (· ++ ['\n'])).flatten = (ls.map (· ++ ['\n'])).flatten := by
      cases ls with
      | nil => rfl
      | cons l ls =>
        cases l with
        | nil => rfl
        | cons x xs =>
          have := hbom (x :: xs) (by simp)
          simp at this
          simp [dropBom, this]
    rw [this]
    exact linesOf_flatten (by decide) ls hb
  | universal =>
    refine textLines_universal ls (fun l hl c hc => ?_)
    cases e : isNl c with
    | false => rfl
    | true => have := isNl_isBreak e; rw [hb l hl c hc] at this; cases this

theorem membersText_clean {ms : List MemberInfo} (h : ∀ m ∈ ms, CleanMember m) :
    ∃ ls, membersText ms = .ok (ls.map (· ++ ['\n'])).flatten ∧
      Forall₂ (fun l m => m.format = .ok (l ++ ['\n']) ∧ (∀ c ∈ l, isBreak c = false) ∧
        strip (l ++ ['\n']) = l ∧ l ≠ [] ∧ l.head? = m.name.head? ∧
        parseLine03 (l ++ ['\n']) = .ok m) ls ms := by
  induction ms with
  | nil => exact ⟨[], rfl, .nil⟩
  | cons m ms ih =>
    obtain ⟨ls, h1, h2⟩ := ih (fun m hm => h m (by simp [hm]))
    obtain ⟨l, hl⟩ := format_clean (h m (by simp))
    refine ⟨l :: ls, ?_, .cons hl h2⟩
    simp [membersText, hl.1, h1]

theorem filter_nonblank_lines {ls : List Str} (h : ∀ l ∈ ls, strip (l ++ ['\n']) = l ∧ l ≠ []) :
    (ls.map (· ++ ['\n'])).filter (fun l => strip l ≠ []) = ls.map (· ++ ['\n']) := by
  rw [List.filter_eq_self]
  intro l hl
  obtain ⟨l', hl', rfl⟩ := List.mem_map.1 hl
  obtain ⟨h1, h2⟩ := h l' hl'
  simp [h1, h2]

end Verif
