import Verif.Lemmas.Refold
import Verif.Model.Apply
/-!
# The bag-info.txt of an output bag is readable
-/

namespace Verif

open Spec

theorem Spec.OneLineValue.foldable {s : Str} (h : OneLineValue s) : Foldable s :=
  ⟨⟨s, [], by simp, h.1, by simp⟩, h.2⟩

theorem Spec.OneLineValue.reread {s : Str} (h : OneLineValue s) : reread s = s := by
  have := reread_lines (l0 := s) (ls := []) (no_nl h.1) (by simp)
  simpa [joinWith, strip_of_trimmed h.2] using this

theorem Spec.OneLineValue.mk_label {n : Str} (h : OneLineValue n) (hc : ':' ∉ n) (hn : n ≠ []) : LoadedLabel n :=
  ⟨hn, hc, h.1, h.2⟩

theorem trimmed_glue {x s : Str} (hx : Trimmed x) (hs : s ≠ []) (hs' : Trimmed s) : Trimmed (x ++ s) := by
  refine ⟨fun c hc => ?_, fun c hc => ?_⟩
  · cases x with
    | nil => exact hs'.1 c hc
    | cons a x => exact hx.1 c hc
  · refine hs'.2 c ?_
    rw [List.getLast?_append] at hc
    cases hg : s.getLast? with
    | none => exact absurd (List.getLast?_eq_none_iff.1 hg) hs
    | some w => rw [hg] at hc; simpa using hc

theorem continuation_append {l s : Str} (hl : Continuation l) (hs : ∀ c ∈ s, isNl c = false) : Continuation (l ++ s) := by
  refine ⟨?_, ?_, fun hb => hl.nonblank (fun c hc => hb c (List.mem_append_left _ hc))⟩
  · intro c hc
    rcases List.mem_append.1 hc with hc | hc
    · exact hl.nobreak c hc
    · exact hs c hc
  · have := hl.indent
    cases l with
    | nil => simp at this
    | cons a l => simpa using this

theorem foldable_append {x s : Str} (hx : Foldable x) (hs : s ≠ []) (hs' : OneLineValue s) : Foldable (x ++ s) := by
  refine ⟨?_, trimmed_glue hx.trimmed hs hs'.2⟩
  obtain ⟨l0, ls, rfl, h0, h1⟩ := hx.lines
  by_cases hne : ls = []
  · subst hne
    refine ⟨l0 ++ s, [], by simp, ?_, by simp⟩
    intro c hc
    rcases List.mem_append.1 hc with hc | hc
    · exact h0 c hc
    · exact hs'.1 c hc
  · obtain ⟨init, last, rfl⟩ := exists_concat hne
    refine ⟨l0, init ++ [last ++ s], by simp, h0, ?_⟩
    intro l hl
    rcases List.mem_append.1 hl with hl | hl
    · exact h1 l (List.mem_append_left _ hl)
    · rw [List.mem_singleton.1 hl]
      exact continuation_append (h1 last (by simp)) hs'.1

theorem foldable_senderDesc : Foldable senderDesc := by
  refine ⟨⟨py!"This bag is part of a Multibag aggregation. (See Multibag-Reference for a ",
    [py!"   description of the Multibag profile.)  The aggregation was formed by splitting",
     py!"   the source bag (whose ID is set as the Bag-Group-Identifier) into multibag ",
     py!"   member bags."], by decide +kernel, by decide +kernel, ?_⟩, ⟨by decide +kernel, by decide +kernel⟩⟩
  intro l hl
  simp only [List.mem_cons, List.not_mem_nil, or_false] at hl
  have nb : ∀ {l : Str} {c : Char}, c ∈ l → isSpace c = false → ¬ Blank l := by
    intro l c hc hs hb
    rw [hb c hc] at hs; cases hs
  rcases hl with rfl | rfl | rfl
  · exact ⟨by decide +kernel, rfl, nb (c := 'd') (by decide +kernel) rfl⟩
  · exact ⟨by decide +kernel, rfl, nb (c := 't') (by decide +kernel) rfl⟩
  · exact ⟨by decide +kernel, rfl, nb (c := 'm') (by decide +kernel) rfl⟩

theorem label_source {k : Str} (h : LoadedLabel k) : LoadedLabel (py!"Multibag-Source-" ++ k) := by
  refine ⟨by simp, ?_, ?_, trimmed_glue ⟨by decide, by decide⟩ h.nonempty h.noouter⟩
  · intro hm
    rcases List.mem_append.1 hm with hm | hm
    · revert hm; decide
    · exact h.nocolon hm
  · intro c hc
    rcases List.mem_append.1 hc with hc | hc
    · exact (show ∀ c ∈ py!"Multibag-Source-", isNl c = false by decide) c hc
    · exact h.nobreak c hc

theorem oneLine_digits {s : Str} (h : ∀ c ∈ s, c.isDigit = true ∨ c = '.') : OneLineValue s := by
  have hsp : ∀ c : Char, (c.isDigit = true ∨ c = '.') → isSpace c = false ∧ isNl c = false := by
    intro c hc
    rcases hc with hc | rfl
    · have h1 : 48 ≤ c.toNat ∧ c.toNat ≤ 57 := by
        unfold Char.isDigit at hc
        simp only [Bool.and_eq_true, decide_eq_true_eq] at hc
        exact ⟨hc.1, hc.2⟩
      constructor
      · unfold isSpace
        simp only [Bool.or_eq_false_iff, Bool.and_eq_false_iff, decide_eq_false_iff_not, beq_eq_false_iff_ne, ne_eq]
        refine ⟨?_, ?_⟩ <;> omega
      · unfold isNl
        simp only [Bool.or_eq_false_iff, beq_eq_false_iff_ne, ne_eq]
        constructor <;> (rintro rfl; revert h1; decide)
    · decide
  refine ⟨fun c hc => (hsp c (h c hc)).2, fun c hc => ?_, fun c hc => ?_⟩
  · exact (hsp c (h c (List.mem_of_mem_head? hc))).1
  · exact (hsp c (h c (List.mem_of_getLast? hc))).1

theorem oneLine_oxum (a b : Nat) : OneLineValue (natStr a ++ '.' :: natStr b) := by
  refine oneLine_digits (fun c hc => ?_)
  rcases List.mem_append.1 hc with hc | hc
  · exact .inl (isDigit_natStr hc)
  · rcases List.mem_cons.1 hc with hc | hc
    · exact .inr hc
    · exact .inl (isDigit_natStr hc)

/-- Fields that can be written. -/
def Writable (fs : List (Str × Str)) : Prop := ∀ f ∈ fs, LoadedLabel f.1 ∧ Foldable f.2

theorem writable_append {a b : List (Str × Str)} (ha : Writable a) (hb : Writable b) : Writable (a ++ b) := by
  intro f hf
  rcases List.mem_append.1 hf with hf | hf
  · exact ha f hf
  · exact hb f hf

theorem writable_cons {k v : Str} {b : List (Str × Str)} (h1 : LoadedLabel k) (h2 : Foldable v) (hb : Writable b) :
    Writable ((k, v) :: b) := by
  intro f hf
  rcases List.mem_cons.1 hf with rfl | hf
  · exact ⟨h1, h2⟩
  · exact hb f hf

theorem writable_map {k : Str} {vs : List Str} (h1 : LoadedLabel k) (h2 : ∀ v ∈ vs, Foldable v) :
    Writable (vs.map (fun x => (k, x))) := by
  intro f hf
  obtain ⟨v, hv, rfl⟩ := List.mem_map.1 hf
  exact ⟨h1, h2 v hv⟩

theorem writable_infoFields {nopass : List Str} {n : Str} {size count : Nat} {e : Str × InfoVal} {l : List (Str × Str)}
    (h : infoFields nopass n size count e = .ok l) (hn : OneLineValue n) (hk : LoadedLabel e.1)
    (hv : ∀ v ∈ e.2.values, Foldable v) : Writable l := by
  obtain ⟨k, v⟩ := e
  simp only at hk hv
  simp only [infoFields] at h
  split at h
  · cases h; intro f hf; cases hf
  split at h
  · cases h; exact writable_cons hk hn.foldable (writable_map (label_source hk) hv)
  split at h
  · cases h; exact writable_cons hk foldable_senderDesc (writable_map (label_source hk) hv)
  split at h
  · split at h
    · cases h
    · next x xs e =>
      cases h
      rw [e] at hv
      refine writable_append (writable_map (label_source hk) hv) (writable_cons hk ?_ (writable_map ?_ hv))
      · refine foldable_append (hv x List.mem_cons_self) (by simp) ⟨?_, ?_⟩
        · intro c hc
          rcases List.mem_append.1 hc with hc | hc
          · exact (show ∀ c ∈ py!"/mbag:", isNl c = false by decide) c hc
          · exact hn.1 c hc
        · by_cases hne : n = []
          · subst hne; exact ⟨by decide, by decide⟩
          · exact trimmed_glue ⟨by decide, by decide⟩ hne hn.2
      · exact ⟨by decide, by decide, by decide, by decide, by decide⟩
  split at h
  · cases h; exact writable_map (label_source hk) hv
  split at h
  · cases h
    exact writable_cons hk (oneLine_oxum size count).foldable (fun f hf => by cases hf)
  · cases h; exact writable_map hk hv

theorem writable_infoBody {nopass : List Str} {n : Str} {size count : Nat} {info : Info} {l : List (Str × Str)}
    (h : infoBody nopass n size count info = .ok l) (hn : OneLineValue n)
    (hi : ∀ e ∈ info, LoadedLabel e.1 ∧ ∀ v ∈ e.2.values, Foldable v) : Writable l := by
  induction info generalizing l with
  | nil => cases h; intro f hf; cases hf
  | cons e info ih =>
    unfold infoBody at h
    split at h
    · cases h
    · next a ha =>
      split at h
      · cases h
      · next r hr =>
        cases h
        obtain ⟨h1, h2⟩ := hi e List.mem_cons_self
        exact writable_append (writable_infoFields ha hn h1 h2) (ih hr (fun e he => hi e (List.mem_cons_of_mem _ he)))

theorem writable_bagInfoFields {S : Source} {o : ApplyOpts} {n : Str} {ishead : Bool} {size count : Nat}
    {fs : List (Str × Str)} (h : bagInfoFields S o n ishead size count = .ok fs) (hn : OneLineValue n)
    (hi : ∀ e ∈ S.info, LoadedLabel e.1 ∧ ∀ v ∈ e.2.values, Foldable v)
    (hv : OneLineValue o.headVersion) (hd : ∀ d ∈ o.deprecates, OneLineValue (deprecateValue d)) : Writable fs := by
  have lab : ∀ k : Str, k = py!"Multibag-Version" ∨ k = py!"Multibag-Tag-Directory" ∨ k = py!"Multibag-Head-Version" ∨
      k = py!"Multibag-Head-Deprecates" → LoadedLabel k := by
    rintro k (rfl | rfl | rfl | rfl) <;> exact ⟨by decide, by decide, by decide, by decide, by decide⟩
  have one : ∀ v : Str, v = CURRENT_VERSION ∨ v = py!"multibag" → Foldable v := by
    rintro v (rfl | rfl) <;> exact OneLineValue.foldable ⟨by decide, by decide, by decide⟩
  unfold bagInfoFields at h
  split at h
  · cases h
  · next body hb =>
    cases h
    refine writable_append (a := (_, _) :: body) ?_ ?_
    · exact writable_cons (lab _ (.inl rfl)) (one _ (.inl rfl)) (writable_infoBody hb hn hi)
    · refine writable_cons (lab _ (.inr (.inl rfl))) (one _ (.inr rfl)) ?_
      split
      · refine writable_cons (lab _ (.inr (.inr (.inl rfl)))) hv.foldable ?_
        intro f hf
        obtain ⟨d, hd', rfl⟩ := List.mem_map.1 hf
        exact ⟨lab _ (.inr (.inr (.inr rfl))), (hd d hd').foldable⟩
      · intro f hf; cases hf

/-- The values of loaded metadata. -/
theorem loadTags_values {fs : List (Str × Str)} (h : Writable fs) :
    ∀ e ∈ loadTags fs, LoadedLabel e.1 ∧ ∀ v ∈ e.2.values, Foldable v := by
  intro e he
  have hg := dget_of_mem (nodup_loadTags fs) he
  have hv : e.2.values = valuesOf fs e.1 := by
    rw [← fields_loadTags]; unfold fields; rw [hg]
  have hm : ∀ v ∈ valuesOf fs e.1, (e.1, v) ∈ fs := by
    intro v hv
    unfold valuesOf at hv
    obtain ⟨f, hf, rfl⟩ := List.mem_map.1 hv
    obtain ⟨h1, h2⟩ := List.mem_filter.1 hf
    rw [← of_decide_eq_true h2]; exact h1
  have hne : e.2.values ≠ [] := by
    have := loaded_loadTags fs e.1 e.2 hg
    intro hc
    cases hv2 : e.2 with
    | one v => rw [hv2] at hc; cases hc
    | many l =>
      rw [hv2] at hc this
      simp only [InfoVal.values] at hc
      rw [hc] at this; simp at this
  rw [hv] at hne
  obtain ⟨v, hv'⟩ := List.exists_mem_of_ne_nil _ hne
  refine ⟨(h _ (hm v hv')).1, fun w hw => (h _ (hm w (hv ▸ hw))).2⟩

end Verif
