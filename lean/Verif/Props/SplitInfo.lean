import Verif.Lemmas.BagInfo
/-!
# C40: metadata of the output bags (multibag/split.py:335-375)

`fields` are the label-value lines of an output bag's bag-info.txt, as
`bagInfoFields` gives them for a source with metadata `S.info`.
-/

namespace Verif
open Verif.Spec

/-- `Multibag-` and the rest of a label. -/
def multibagLabel (k : Str) : Prop := startsWith py!"Multibag-" k = true

instance (k : Str) : Decidable (multibagLabel k) := inferInstanceAs (Decidable (_ = true))

section
variable {S : Source} {o : ApplyOpts} {n : Str} {ishead : Bool} {size count : Nat} {fs : List (Str × Str)}

theorem valuesOf_bagInfo (h : bagInfoFields S o n ishead size count = .ok fs) (k : Str) :
    valuesOf fs k = (if py!"Multibag-Version" = k then [CURRENT_VERSION] else []) ++
      (S.info.flatMap (fun e => contributes o.nopass n size count e k) ++
      ((if py!"Multibag-Tag-Directory" = k then [py!"multibag"] else []) ++
        valuesOf (if ishead then headFields o.headVersion o.deprecates else []) k)) := by
  unfold bagInfoFields at h
  split at h
  · cases h
  · rename_i body hb
    cases h
    rw [List.cons_append, valuesOf_cons, valuesOf_append, valuesOf_cons, valuesOf_infoBody hb]
    simp only
    split <;> split <;> simp

theorem startsWith_append (a b : Str) : startsWith a (a ++ b) = true := by
  unfold startsWith; rw [List.isPrefixOf_iff_prefix]; exact List.prefix_append _ _

/-- What an item contributes to a label. -/
theorem contributes_eq (nopass : List Str) (e : Str × InfoVal) (k : Str) :
    contributes nopass n size count e k =
      if startsWith py!"Multibag-" e.1 || e.1 ∈ nopass then []
      else if e.1 = py!"Internal-Sender-Identifier" then
        (if e.1 = k then [n] else []) ++ (if py!"Multibag-Source-" ++ e.1 = k then e.2.values else [])
      else if e.1 = py!"Internal-Sender-Description" then
        (if e.1 = k then [senderDesc] else []) ++ (if py!"Multibag-Source-" ++ e.1 = k then e.2.values else [])
      else if e.1 = py!"External-Identifier" then
        (match e.2.values with
        | [] => []
        | x :: xs => (if py!"Multibag-Source-" ++ e.1 = k then x :: xs else []) ++
            ((if e.1 = k then [x ++ (py!"/mbag:" ++ n)] else []) ++
            (if py!"Bag-Group-Identifier" = k then x :: xs else [])))
      else if e.1 = py!"Bag-Size" then
        (if py!"Multibag-Source-" ++ e.1 = k then e.2.values else [])
      else if e.1 = py!"Payload-Oxum" then
        (if e.1 = k then [natStr size ++ '.' :: natStr count] else [])
      else (if e.1 = k then e.2.values else []) := by
  obtain ⟨name, v⟩ := e
  unfold contributes infoFields
  simp only
  by_cases h1 : (startsWith py!"Multibag-" name || decide (name ∈ nopass)) = true
  · rw [if_pos h1, if_pos h1]; rfl
  rw [if_neg h1, if_neg h1]
  by_cases h2 : name = py!"Internal-Sender-Identifier"
  · rw [if_pos h2, if_pos h2]; simp only [valuesOf_cons, valuesOf_map]; split <;> simp
  rw [if_neg h2, if_neg h2]
  by_cases h3 : name = py!"Internal-Sender-Description"
  · rw [if_pos h3, if_pos h3]; simp only [valuesOf_cons, valuesOf_map]; split <;> simp
  rw [if_neg h3, if_neg h3]
  by_cases h4 : name = py!"External-Identifier"
  · rw [if_pos h4, if_pos h4]
    cases v.values with
    | nil => rfl
    | cons x xs =>
      simp only [valuesOf_append, valuesOf_cons, valuesOf_map]
      by_cases h7 : py!"Multibag-Source-" ++ name = k <;> by_cases h8 : name = k <;>
        by_cases h9 : py!"Bag-Group-Identifier" = k <;> simp only [h7, h8, h9, if_true, if_false] <;> simp
  rw [if_neg h4, if_neg h4]
  by_cases h5 : name = py!"Bag-Size"
  · rw [if_pos h5, if_pos h5]; simp only [valuesOf_map]
  rw [if_neg h5, if_neg h5]
  by_cases h6 : name = py!"Payload-Oxum"
  · rw [if_pos h6, if_pos h6]; simp only [valuesOf_cons]; split <;> simp [valuesOf]
  rw [if_neg h6, if_neg h6]
  simp only [valuesOf_map]

/-- Only the four source labels give rise to new multibag labels. -/
theorem contributes_multibag {nopass : List Str} {e : Str × InfoVal} {k : Str} (hk : multibagLabel k)
    (h : contributes nopass n size count e k ≠ []) :
    (e.1 = py!"Internal-Sender-Identifier" ∨ e.1 = py!"Internal-Sender-Description" ∨
      e.1 = py!"External-Identifier" ∨ e.1 = py!"Bag-Size") ∧ k = py!"Multibag-Source-" ++ e.1 ∧
    contributes nopass n size count e k = e.2.values ∧ e.1 ∉ nopass := by
  rw [contributes_eq] at h ⊢
  split at h
  · exact absurd rfl h
  rename_i h1
  rw [if_neg h1]
  simp only [Bool.or_eq_true, decide_eq_true_eq, not_or] at h1
  have hne : e.1 ≠ k := by rintro e'; rw [e'] at h1; exact h1.1 hk
  have hbg : py!"Bag-Group-Identifier" ≠ k := by rintro rfl; revert hk; decide
  simp only [if_neg hne] at h ⊢
  split at h
  · rename_i e1
    rw [if_pos e1]
    simp only [List.nil_append] at h ⊢
    split at h
    · rename_i e2; rw [if_pos e2]; exact ⟨.inl e1, e2.symm, rfl, h1.2⟩
    · exact absurd rfl h
  split at h
  · rename_i e0 e1
    rw [if_neg e0, if_pos e1]
    simp only [List.nil_append] at h ⊢
    split at h
    · rename_i e2; rw [if_pos e2]; exact ⟨.inr (.inl e1), e2.symm, rfl, h1.2⟩
    · exact absurd rfl h
  split at h
  · rename_i e00 e0 e1
    rw [if_neg e00, if_neg e0, if_pos e1]
    cases hv : e.2.values with
    | nil => rw [hv] at h; exact absurd rfl h
    | cons x xs =>
      rw [hv] at h
      simp only [if_neg hbg, List.append_nil] at h ⊢
      split at h
      · rename_i e2; rw [if_pos e2]; exact ⟨.inr (.inr (.inl e1)), e2.symm, rfl, h1.2⟩
      · exact absurd rfl h
  split at h
  · rename_i e000 e00 e0 e1
    rw [if_neg e000, if_neg e00, if_neg e0, if_pos e1]
    split at h
    · rename_i e2; rw [if_pos e2]; exact ⟨.inr (.inr (.inr e1)), e2.symm, rfl, h1.2⟩
    · exact absurd rfl h
  split at h
  · exact absurd rfl h
  · exact absurd rfl h

theorem flatMap_multibag_nil {info : Info} {nopass : List Str} {k : Str} (hk : multibagLabel k)
    (h : ∀ x, k ≠ py!"Multibag-Source-" ++ x) :
    info.flatMap (fun e => contributes nopass n size count e k) = [] := by
  rw [List.flatMap_eq_nil_iff]
  intro e _
  apply Classical.byContradiction
  intro hc
  obtain ⟨_, h2, _⟩ := contributes_multibag hk hc
  exact h _ h2

theorem source_ne {k : Str} (h : (py!"Multibag-Source-").isPrefixOf k = false) : ∀ x, k ≠ py!"Multibag-Source-" ++ x := by
  rintro x rfl
  have : (py!"Multibag-Source-").isPrefixOf (py!"Multibag-Source-" ++ x) = true := by
    rw [List.isPrefixOf_iff_prefix]; exact List.prefix_append _ _
  rw [this] at h; cases h

theorem valuesOf_head (k : Str) (hk : k ≠ py!"Multibag-Head-Version") (hk' : k ≠ py!"Multibag-Head-Deprecates") :
    valuesOf (if ishead then headFields o.headVersion o.deprecates else []) k = [] := by
  cases ishead with
  | false => rfl
  | true =>
    simp only [if_true, headFields]
    rw [valuesOf_cons, if_neg (fun e => hk e.symm)]
    have : (o.deprecates.map (fun d => (py!"Multibag-Head-Deprecates", deprecateValue d))) =
        (o.deprecates.map deprecateValue).map (fun x => (py!"Multibag-Head-Deprecates", x)) := by
      rw [List.map_map]; rfl
    rw [this, valuesOf_map, if_neg (fun e => hk' e.symm)]

/-- C40: every output bag states the multibag version and its tag directory, once, whatever
the source said. -/
theorem C40_version (h : bagInfoFields S o n ishead size count = .ok fs) :
    valuesOf fs py!"Multibag-Version" = [py!"0.4"] ∧
    valuesOf fs py!"Multibag-Tag-Directory" = [py!"multibag"] := by
  constructor
  · rw [valuesOf_bagInfo h, flatMap_multibag_nil (show multibagLabel _ by decide) (source_ne rfl),
      valuesOf_head _ (by decide) (by decide)]
    decide
  · rw [valuesOf_bagInfo h, flatMap_multibag_nil (show multibagLabel _ by decide) (source_ne rfl),
      valuesOf_head _ (by decide) (by decide)]
    decide

theorem head_marks (h : bagInfoFields S o n ishead size count = .ok fs) :
    valuesOf fs py!"Multibag-Head-Version" = (if ishead then [o.headVersion] else []) ∧
    valuesOf fs py!"Multibag-Head-Deprecates" = (if ishead then o.deprecates.map deprecateValue else []) := by
  have e : (o.deprecates.map (fun d => (py!"Multibag-Head-Deprecates", deprecateValue d))) =
      (o.deprecates.map deprecateValue).map (fun x => (py!"Multibag-Head-Deprecates", x)) := by
    rw [List.map_map]; rfl
  constructor
  · rw [valuesOf_bagInfo h, flatMap_multibag_nil (show multibagLabel _ by decide) (source_ne rfl),
      if_neg (by decide), if_neg (by decide)]
    cases ishead with
    | false => rfl
    | true =>
      simp only [if_true, headFields, List.nil_append]
      rw [valuesOf_cons, if_pos rfl, e, valuesOf_map, if_neg (by decide)]
  · rw [valuesOf_bagInfo h, flatMap_multibag_nil (show multibagLabel _ by decide) (source_ne rfl),
      if_neg (by decide), if_neg (by decide)]
    cases ishead with
    | false => rfl
    | true =>
      simp only [if_true, headFields, List.nil_append]
      rw [valuesOf_cons, if_neg (by simp), e, valuesOf_map, if_pos rfl]

/-- How a deprecation is written: the version, and after a comma the identifier, if one is given. -/
def Spec.deprecation (version : Str) : Option Str → Str
  | none => version
  | some id => version ++ py!"," ++ id

/-- C40: only the head bag is marked with a head version and deprecations, and these are
those of the plan, not those of the source. -/
theorem C40_head_marks (h : bagInfoFields S o n ishead size count = .ok fs) :
    valuesOf fs py!"Multibag-Head-Version" = (if ishead then [o.headVersion] else []) ∧
    valuesOf fs py!"Multibag-Head-Deprecates" =
      (if ishead then o.deprecates.map (fun x => Spec.deprecation x.1 x.2) else []) := by
  have e : (fun x : Str × Option Str => Spec.deprecation x.1 x.2) = deprecateValue := by
    funext x
    obtain ⟨v, i⟩ := x
    cases i with
    | none => rfl
    | some i => simp [Spec.deprecation, deprecateValue]
  rw [e]
  exact head_marks h

/-- C40: the source's own multibag fields are dropped: any other multibag label in the output is
`Multibag-Source-L` for one of four labels `L` of the source. -/
theorem C40_multibag_dropped (h : bagInfoFields S o n ishead size count = .ok fs) (k : Str)
    (hk : multibagLabel k) (hv : valuesOf fs k ≠ []) :
    k = py!"Multibag-Version" ∨ k = py!"Multibag-Tag-Directory" ∨ k = py!"Multibag-Head-Version" ∨
    k = py!"Multibag-Head-Deprecates" ∨ k = py!"Multibag-Source-Internal-Sender-Identifier" ∨
    k = py!"Multibag-Source-Internal-Sender-Description" ∨ k = py!"Multibag-Source-External-Identifier" ∨
    k = py!"Multibag-Source-Bag-Size" := by
  rw [valuesOf_bagInfo h] at hv
  by_cases h1 : py!"Multibag-Version" = k
  · exact .inl h1.symm
  by_cases h2 : py!"Multibag-Tag-Directory" = k
  · exact .inr (.inl h2.symm)
  by_cases h3 : k = py!"Multibag-Head-Version"
  · exact .inr (.inr (.inl h3))
  by_cases h4 : k = py!"Multibag-Head-Deprecates"
  · exact .inr (.inr (.inr (.inl h4)))
  rw [if_neg h1, if_neg h2, valuesOf_head k h3 h4] at hv
  simp only [List.nil_append, List.append_nil, Ne, List.flatMap_eq_nil_iff, Classical.not_forall] at hv
  obtain ⟨e, _, hc⟩ := hv
  obtain ⟨h5, rfl, _⟩ := contributes_multibag hk hc
  rcases h5 with h5 | h5 | h5 | h5 <;> rw [h5] <;> simp

/-- A passed-on source label. -/
def Passed (o : ApplyOpts) (k : Str) : Prop := ¬ multibagLabel k ∧ k ∉ o.nopass

/-- C40: the source's identifiers, description and size are recorded under
`Multibag-Source-…`. -/
theorem C40_renamed (hn : (dkeys S.info).Nodup) (h : bagInfoFields S o n ishead size count = .ok fs) (k : Str)
    (hk : k = py!"Internal-Sender-Identifier" ∨ k = py!"Internal-Sender-Description" ∨
      k = py!"External-Identifier" ∨ k = py!"Bag-Size") (hp : k ∉ o.nopass) :
    valuesOf fs (py!"Multibag-Source-" ++ k) = Verif.fields S.info k := by
  have hml : multibagLabel (py!"Multibag-Source-" ++ k) := by
    have : py!"Multibag-Source-" ++ k = py!"Multibag-" ++ (py!"Source-" ++ k) := by simp
    unfold multibagLabel
    rw [this]; exact startsWith_append _ _
  rw [valuesOf_bagInfo h, if_neg (by simp), if_neg (by simp), valuesOf_head _ (by simp) (by simp)]
  simp only [List.nil_append, List.append_nil]
  rw [flatMap_key S.info hn k InfoVal.values]
  · unfold Verif.fields; cases dget S.info _ <;> rfl
  · intro v _
    rw [contributes_eq]
    simp only
    have h1 : (startsWith py!"Multibag-" k || decide (k ∈ o.nopass)) = false := by
      simp only [hp, decide_false, Bool.or_false]
      rcases hk with rfl | rfl | rfl | rfl <;> decide
    rw [h1]
    simp only [Bool.false_eq_true, if_false]
    have hne : k ≠ py!"Multibag-Source-" ++ k := by
      intro e
      have := congrArg List.length e
      simp only [List.length_append, List.length_cons, List.length_nil] at this
      omega
    rcases hk with rfl | rfl | rfl | rfl
    · rw [if_pos rfl, if_neg hne, if_pos trivial]; rfl
    · rw [if_neg (by decide), if_pos rfl, if_neg hne, if_pos trivial]; rfl
    · rw [if_neg (by decide), if_neg (by decide), if_pos rfl]
      cases v.values with
      | nil => rfl
      | cons x xs => simp
    · rw [if_neg (by decide), if_neg (by decide), if_neg (by decide), if_pos rfl, if_pos trivial]
  · intro e _ hek
    apply Classical.byContradiction
    intro hc
    obtain ⟨_, h2, _⟩ := contributes_multibag hml hc
    exact hek (List.append_cancel_left h2).symm

/-- C40: identification of the output bag itself. -/
theorem C40_identifiers (hn : (dkeys S.info).Nodup) (h : bagInfoFields S o n ishead size count = .ok fs) :
    (py!"Internal-Sender-Identifier" ∈ dkeys S.info → py!"Internal-Sender-Identifier" ∉ o.nopass →
      valuesOf fs py!"Internal-Sender-Identifier" = [n]) ∧
    (py!"External-Identifier" ∉ o.nopass → valuesOf fs py!"External-Identifier" =
      ((Verif.fields S.info py!"External-Identifier").head?.map (fun x => x ++ py!"/mbag:" ++ n)).toList) ∧
    valuesOf fs py!"Bag-Size" = [] := by
  have base : ∀ k, k = py!"Internal-Sender-Identifier" ∨ k = py!"External-Identifier" ∨ k = py!"Bag-Size" →
      valuesOf fs k = S.info.flatMap (fun e => contributes o.nopass n size count e k) := by
    intro k hk
    rw [valuesOf_bagInfo h]
    rcases hk with rfl | rfl | rfl <;>
      (rw [if_neg (by decide), if_neg (by decide), valuesOf_head _ (by decide) (by decide)]; simp)
  have other : ∀ k, k = py!"Internal-Sender-Identifier" ∨ k = py!"External-Identifier" ∨ k = py!"Bag-Size" →
      ∀ e : Str × InfoVal, e.1 ≠ k → contributes o.nopass n size count e k = [] := by
    intro k hk e hne
    rw [contributes_eq]
    have hs : py!"Multibag-Source-" ++ e.1 ≠ k := by
      rintro rfl; rcases hk with hk | hk | hk <;> simp at hk
    have hb : py!"Bag-Group-Identifier" ≠ k := by
      rintro rfl; rcases hk with hk | hk | hk <;> simp at hk
    simp only [if_neg hne, if_neg hs, if_neg hb]
    cases e.2.values <;> simp
  refine ⟨?_, ?_, ?_⟩
  · intro hm hp
    rw [base _ (.inl rfl), flatMap_key S.info hn _ (fun _ => [n])]
    · obtain ⟨v, hv⟩ := mem_dkeys_iff.1 hm
      rw [hv]
    · intro v _
      rw [contributes_eq]
      simp only [hp, decide_false, Bool.or_false]
      rw [if_neg (by decide), if_pos trivial, if_pos trivial, if_neg (by decide)]
      rfl
    · intro e _ hne; exact other _ (.inl rfl) e hne
  · intro hp
    rw [base _ (.inr (.inl rfl)), flatMap_key S.info hn _
      (fun v => (v.values.head?.map (fun x => x ++ py!"/mbag:" ++ n)).toList)]
    · unfold Verif.fields
      cases dget S.info py!"External-Identifier" <;> rfl
    · intro v _
      rw [contributes_eq]
      simp only [hp, decide_false, Bool.or_false]
      rw [if_neg (by decide), if_neg (by decide), if_neg (by decide), if_pos trivial]
      cases v.values with
      | nil => rfl
      | cons x xs => simp
    · intro e _ hne; exact other _ (.inr (.inl rfl)) e hne
  · rw [base _ (.inr (.inr rfl)), List.flatMap_eq_nil_iff]
    intro e _
    by_cases hne : e.1 = py!"Bag-Size"
    · rw [contributes_eq, hne]
      split
      · rfl
      rw [if_neg (by decide), if_neg (by decide), if_neg (by decide), if_pos rfl, if_neg (by decide)]
    · exact other _ (.inr (.inr rfl)) e hne

/-- C40: all other metadata is passed on unchanged, except what the caller asked to leave out. -/
theorem C40_passed_on (hn : (dkeys S.info).Nodup) (h : bagInfoFields S o n ishead size count = .ok fs) (k : Str)
    (hp : Passed o k) (h1 : k ≠ py!"Internal-Sender-Identifier") (h2 : k ≠ py!"Internal-Sender-Description")
    (h3 : k ≠ py!"External-Identifier") (h4 : k ≠ py!"Bag-Size") (h5 : k ≠ py!"Payload-Oxum")
    (h6 : k ≠ py!"Bag-Group-Identifier") : valuesOf fs k = Verif.fields S.info k := by
  have hm : ∀ x : Str, multibagLabel x → x ≠ k := by rintro x hx rfl; exact hp.1 hx
  rw [valuesOf_bagInfo h, if_neg (hm _ (by decide)), if_neg (hm _ (by decide)),
    valuesOf_head _ (fun e => hm _ (by decide) e.symm) (fun e => hm _ (by decide) e.symm)]
  simp only [List.nil_append, List.append_nil]
  rw [flatMap_key S.info hn k InfoVal.values]
  · unfold Verif.fields; cases dget S.info _ <;> rfl
  · intro v _
    rw [contributes_eq]
    simp only
    have : (startsWith py!"Multibag-" k || decide (k ∈ o.nopass)) = false := by
      have := hp.1
      unfold multibagLabel at this
      simp [this, hp.2]
    rw [this]
    simp [h1, h2, h3, h4, h5]
  · intro e _ hne
    rw [contributes_eq]
    have hs : py!"Multibag-Source-" ++ e.1 ≠ k := by
      apply hm
      have : py!"Multibag-Source-" ++ e.1 = py!"Multibag-" ++ (py!"Source-" ++ e.1) := by simp
      unfold multibagLabel
      rw [this]; exact startsWith_append _ _
    simp only [if_neg hne, if_neg hs, if_neg (fun e => h6 (Eq.symm e) : py!"Bag-Group-Identifier" ≠ k)]
    cases e.2.values <;> simp

/-- C40: labels the caller asked to leave out are left out. -/
theorem C40_nopass (h : bagInfoFields S o n ishead size count = .ok fs) (k : Str) (hp : k ∈ o.nopass)
    (hm : ¬ multibagLabel k) (h6 : k ≠ py!"Bag-Group-Identifier") : valuesOf fs k = [] := by
  have hm : ∀ x : Str, multibagLabel x → x ≠ k := by rintro x hx rfl; exact hm hx
  rw [valuesOf_bagInfo h, if_neg (hm _ (by decide)), if_neg (hm _ (by decide)),
    valuesOf_head _ (fun e => hm _ (by decide) e.symm) (fun e => hm _ (by decide) e.symm)]
  simp only [List.nil_append, List.append_nil, List.flatMap_eq_nil_iff]
  intro e _
  rw [contributes_eq]
  by_cases hne : e.1 = k
  · rw [if_pos (by simp [hne, hp])]
  · have hs : py!"Multibag-Source-" ++ e.1 ≠ k := by
      apply hm
      have : py!"Multibag-Source-" ++ e.1 = py!"Multibag-" ++ (py!"Source-" ++ e.1) := by simp
      unfold multibagLabel
      rw [this]; exact startsWith_append _ _
    simp only [if_neg hne, if_neg hs, if_neg (fun e => h6 (Eq.symm e) : py!"Bag-Group-Identifier" ≠ k)]
    cases e.2.values <;> simp

/-- C40: the group identifier names the source bag. -/
theorem C40_group (hn : (dkeys S.info).Nodup) (h : bagInfoFields S o n ishead size count = .ok fs)
    (hp : py!"External-Identifier" ∉ o.nopass) (hb : py!"Bag-Group-Identifier" ∉ dkeys S.info) :
    valuesOf fs py!"Bag-Group-Identifier" = Verif.fields S.info py!"External-Identifier" := by
  rw [valuesOf_bagInfo h, if_neg (by decide), if_neg (by decide), valuesOf_head _ (by decide) (by decide)]
  simp only [List.nil_append, List.append_nil]
  rw [flatMap_key S.info hn py!"External-Identifier" InfoVal.values]
  · unfold Verif.fields; cases dget S.info _ <;> rfl
  · intro v _
    rw [contributes_eq]
    simp only [hp, decide_false, Bool.or_false]
    rw [if_neg (by decide), if_neg (by decide), if_neg (by decide), if_pos trivial]
    cases v.values with
    | nil => rfl
    | cons x xs => simp
  · intro e he hne
    rw [contributes_eq]
    have h1 : e.1 ≠ py!"Bag-Group-Identifier" := by
      intro h; apply hb; rw [← h]; exact List.mem_map_of_mem (f := Prod.fst) he
    have hs : py!"Multibag-Source-" ++ e.1 ≠ py!"Bag-Group-Identifier" := by simp
    simp only [if_neg h1, if_neg hs, if_neg hne]
    simp

/-- The number of bytes and files written into bag-info.txt (C38 uses this). -/
theorem valuesOf_oxum (hn : (dkeys S.info).Nodup) (h : bagInfoFields S o n ishead size count = .ok fs)
    (hp : py!"Payload-Oxum" ∉ o.nopass) :
    valuesOf fs py!"Payload-Oxum" =
      if py!"Payload-Oxum" ∈ dkeys S.info then [natStr size ++ '.' :: natStr count] else [] := by
  rw [valuesOf_bagInfo h, if_neg (by decide), if_neg (by decide), valuesOf_head _ (by decide) (by decide)]
  simp only [List.nil_append, List.append_nil]
  rw [flatMap_key S.info hn py!"Payload-Oxum" (fun _ => [natStr size ++ '.' :: natStr count])]
  · cases hg : dget S.info py!"Payload-Oxum" with
    | none => rw [if_neg (dget_eq_none_iff.1 hg)]
    | some v => rw [if_pos (mem_dkeys_iff.2 ⟨v, hg⟩)]
  · intro v _
    rw [contributes_eq]
    simp only [hp, decide_false, Bool.or_false]
    rw [if_neg (by decide), if_neg (by decide), if_neg (by decide), if_neg (by decide), if_neg (by decide), if_pos trivial,
      if_pos trivial]
  · intro e _ hne
    rw [contributes_eq]
    have hs : py!"Multibag-Source-" ++ e.1 ≠ py!"Payload-Oxum" := by simp
    simp only [if_neg hne, if_neg hs, if_neg (show py!"Bag-Group-Identifier" ≠ py!"Payload-Oxum" by decide)]
    cases e.2.values <;> simp

end

/-- The hypotheses are met by a bag with identifiers, size, description and multibag fields. -/
example : ∃ fs, bagInfoFields
    { tree := [], info := [(py!"External-Identifier", .many [py!"ark:/1", py!"doi:2"]),
        (py!"Multibag-Version", .one py!"0.2"), (py!"Bag-Size", .one py!"3 kB"),
        (py!"Internal-Sender-Identifier", .one py!"s1"), (py!"Payload-Oxum", .one py!"9.9"),
        (py!"Contact-Name", .one py!"A. N. Other")] }
      { nopass := [py!"Contact-Name"] } py!"b1" true 12 2 = .ok fs ∧
    valuesOf fs py!"External-Identifier" = [py!"ark:/1/mbag:b1"] ∧
    valuesOf fs py!"Payload-Oxum" = [py!"12.2"] ∧
    valuesOf fs py!"Contact-Name" = [] := ⟨_, rfl, by decide, by decide, by decide⟩

/-! ## C77: repeated labels -/

/-- C77: for every bag-info.txt, the head version and profile version reported are the last values
given; without any, the head version is an error and the profile version the current one. -/
theorem C77_last_value (fs : List (Str × Str)) (tree : Tree) :
    (HeadBag.open tree (loadTags fs)).headVersion =
      (match (valuesOf fs py!"Multibag-Head-Version").getLast? with
       | some v => .ok v
       | none => .error .multibagError) ∧
    profileVersion (loadTags fs) = ((valuesOf fs py!"Multibag-Version").getLast?).getD py!"0.4" ∧
    tagDir (loadTags fs) = ((valuesOf fs py!"Multibag-Tag-Directory").getLast?).getD py!"multibag" := by
  refine ⟨infoItem_loadTags fs _, ?_, tagDir_loadTags fs⟩
  unfold profileVersion
  rw [infoItem_loadTags]
  cases (valuesOf fs py!"Multibag-Version").getLast? <;> rfl

/-- C77: clean label-value pairs are read from bag-info.txt as they were written, in either
mode of reading. -/
theorem C77_fields_roundtrip (mode : TextMode) (fs : List (Str × Str)) (h : ∀ f ∈ fs, CleanTag f)
    (hbom : ∀ f ∈ fs.head?, f.1.head? ≠ some bom) : parseTags mode (fieldsText fs) = .ok fs :=
  parseTags_fieldsText mode fs h hbom

example : parseTags .codecs (fieldsText [(py!"Multibag-Version", py!"0.4"), (py!"A", []), (py!"B", py!"x: y"),
    (py!"A", py!"z")]) = .ok [(py!"Multibag-Version", py!"0.4"), (py!"A", []), (py!"B", py!"x: y"), (py!"A", py!"z")] ∧
    loadTags [(py!"A", []), (py!"B", py!"x: y"), (py!"A", py!"z")] =
      [(py!"A", .many [[], py!"z"]), (py!"B", .one py!"x: y")] := by decide

end Verif
