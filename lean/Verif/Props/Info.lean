import Verif.Model.Info
/-!
# Properties of `update_info`
-/

namespace Verif

/-! ## Fields after each assignment -/

theorem fields_dset (info : Info) (k k' : Str) (v : InfoVal) :
    fields (dset info k v) k' = if k = k' then v.values else fields info k' := by
  unfold fields
  rw [dget_dset]
  by_cases h : k = k'
  · simp [h]
  · rw [if_neg h, if_neg h]

theorem fields_ddel (info : Info) (k k' : Str) :
    fields (ddel info k) k' = if k = k' then [] else fields info k' := by
  unfold fields
  rw [dget_ddel]
  by_cases h : k = k'
  · simp [h]
  · rw [if_neg h, if_neg h]

theorem fields_dsetDefault (info : Info) (k k' : Str) (v : InfoVal) :
    fields (dsetDefault info k v) k' =
      if k = k' ∧ dget info k = none then v.values else fields info k' := by
  unfold dsetDefault dmem
  cases h : dget info k with
  | some w => simp
  | none => simp [fields_dset]

theorem dget_dsetDefault (info : Info) (k k' : Str) (v : InfoVal) :
    dget (dsetDefault info k v) k' = if k = k' ∧ dget info k = none then some v else dget info k' := by
  unfold dsetDefault dmem
  cases h : dget info k with
  | some w => simp
  | none => simp [dget_dset]

/-- The description paragraphs after `update_info`. -/
def withAbout (ps : List Str) : List Str :=
  if ps.any (fun p => contains ABOUT_MORSEL p) then ps else ps ++ [ABOUT_MBAG]

theorem withAbout_nil : withAbout [] = [ABOUT_MBAG] := rfl

theorem about_has_morsel : contains ABOUT_MORSEL ABOUT_MBAG = true := by decide

theorem withAbout_idem (ps : List Str) : withAbout (withAbout ps) = withAbout ps := by
  unfold withAbout
  by_cases h : (ps.any fun p => contains ABOUT_MORSEL p) = true
  · rw [if_pos h, if_pos h]
  · rw [if_neg h, if_pos]
    simp [about_has_morsel]

theorem fields_addAbout (info : Info) (k : Str) :
    fields (addAbout info) k =
      if py!"Internal-Sender-Description" = k then withAbout (fields info k) else fields info k := by
  unfold addAbout
  cases h : dget info py!"Internal-Sender-Description" with
  | none =>
    simp only [fields_dset]
    by_cases e : py!"Internal-Sender-Description" = k
    · subst e
      rw [if_pos rfl, if_pos rfl]
      unfold fields
      rw [h]; rfl
    · rw [if_neg e, if_neg e]
  | some v =>
    simp only [fields_dset]
    by_cases e : py!"Internal-Sender-Description" = k
    · subst e
      rw [if_pos rfl, if_pos rfl]
      unfold fields
      rw [h]; rfl
    · rw [if_neg e, if_neg e]

/-! ## C20 -/

/-- The tags that `update_info` may change. -/
def Spec.touchedTags : List Str :=
  [py!"Multibag-Head-Version", py!"Multibag-Version", py!"Multibag-Tag-Directory", py!"Multibag-Reference",
   py!"Internal-Sender-Description", py!"Bag-Count", py!"Bag-Size"]

/-- C20: `update_info` leaves every unrelated field as it is. -/
theorem C20_preserves (size : (Str → List Str) → Str) (version : Option Str) (profver : Str) (info : Info)
    (k : Str) (hk : k ∉ Spec.touchedTags) : fields (updateInfo size version profver info) k = fields info k := by
  simp only [Spec.touchedTags, List.mem_cons, List.not_mem_nil, or_false, not_or] at hk
  obtain ⟨h1, h2, h3, h4, h5, h6, h7⟩ := hk
  have n : ∀ {a b : Str}, b ≠ a → ¬ a = b := fun h e => h e.symm
  unfold updateInfo headInfo
  simp only [fields_dset, fields_ddel, fields_dsetDefault, fields_addAbout, if_neg (n h2), if_neg (n h4),
    if_neg (n h5), if_neg (n h6), if_neg (n h7)]
  rw [if_neg (fun h => n h1 h.1), if_neg (fun h => n h3 h.1)]
  cases version with
  | none => simp only [fields_dset, if_neg (n h2)]
  | some v =>
    simp only
    by_cases hv : v = []
    · simp only [hv, if_true, fields_dset, if_neg (n h2)]
    · simp only [hv, if_false, fields_dset, if_neg (n h2), if_neg (n h1)]

/-- C20: the multibag fields after `update_info`; the head version and the tag
directory keep their values unless a version is given, and get defaults if absent. -/
theorem C20_sets_fields (size : (Str → List Str) → Str) (version : Option Str) (profver : Str) (info : Info) :
    let info' := updateInfo size version profver info
    fields info' py!"Multibag-Version" = [profver] ∧
    fields info' py!"Multibag-Reference" = [CURRENT_REFERENCE] ∧
    fields info' py!"Multibag-Tag-Directory" =
      (if py!"Multibag-Tag-Directory" ∈ dkeys info then fields info py!"Multibag-Tag-Directory" else [py!"multibag"]) ∧
    fields info' py!"Multibag-Head-Version" =
      (match version with
      | some (c :: cs) => [c :: cs]
      | _ => if py!"Multibag-Head-Version" ∈ dkeys info then fields info py!"Multibag-Head-Version" else [py!"1"]) ∧
    fields info' py!"Bag-Count" = [] ∧ (∃ s, fields info' py!"Bag-Size" = [s]) := by
  intro info'
  have e1 : ∀ (i : Info) (k : Str), (if k ∈ dkeys i then fields i k else ([] : List Str)) = fields i k := by
    intro i k
    by_cases h : k ∈ dkeys i
    · rw [if_pos h]
    · rw [if_neg h]; unfold fields; rw [dget_eq_none_iff.2 h]
  have hnone : ∀ k, (k ∈ dkeys info) = ¬ (dget info k = none) := by
    intro k
    rw [dget_eq_none_iff]; simp
  refine ⟨?_, ?_, ?_, ?_, ?_, ?_⟩
  · simp [info', updateInfo, headInfo, fields_dset, fields_ddel, fields_dsetDefault, fields_addAbout, InfoVal.values]
  · simp [info', updateInfo, headInfo, fields_dset, fields_ddel, fields_dsetDefault, fields_addAbout, InfoVal.values]
  · simp only [hnone]
    simp only [info', updateInfo, headInfo, fields_dset, fields_ddel, fields_dsetDefault, fields_addAbout]
    cases version with
    | none => by_cases h : dget info py!"Multibag-Tag-Directory" = none <;> simp [dget_dset, fields_dset, h, InfoVal.values]
    | some v =>
      by_cases hv : v = [] <;> by_cases h : dget info py!"Multibag-Tag-Directory" = none <;>
        simp [dget_dset, fields_dset, h, hv, InfoVal.values]
  · simp only [hnone]
    simp only [info', updateInfo, headInfo, fields_dset, fields_ddel, fields_dsetDefault, fields_addAbout]
    cases version with
    | none =>
      by_cases h : dget info py!"Multibag-Head-Version" = none <;>
        simp [dget_dset, dget_dsetDefault, fields_dset, h, InfoVal.values]
    | some v =>
      cases v with
      | nil =>
        by_cases h : dget info py!"Multibag-Head-Version" = none <;>
          simp [dget_dset, dget_dsetDefault, fields_dset, h, InfoVal.values]
      | cons c cs => simp [dget_dset, dget_dsetDefault, fields_dset, InfoVal.values]
  · simp [info', updateInfo, headInfo, fields_dset, fields_ddel]
  · exact ⟨_, by simp only [info', updateInfo, headInfo, fields_dset, if_true]; rfl⟩

/-- C20: the text about multibags is appended to the description, unless a paragraph
already has it; the paragraphs that were there stay, in order. -/
theorem C20_about_once (size : (Str → List Str) → Str) (version : Option Str) (profver : Str) (info : Info) :
    fields (updateInfo size version profver info) py!"Internal-Sender-Description" =
      (if ∃ p ∈ fields info py!"Internal-Sender-Description",
          contains py!"complies with the Multibag BagIt profile" p = true
        then fields info py!"Internal-Sender-Description"
        else fields info py!"Internal-Sender-Description" ++ [ABOUT_MBAG]) := by
  have hb : fields (updateInfo size version profver info) py!"Internal-Sender-Description" =
      withAbout (fields info py!"Internal-Sender-Description") := by
    simp only [updateInfo, headInfo, fields_dset, fields_ddel, fields_addAbout, fields_dsetDefault]
    cases version with
    | none => simp [fields_dset]
    | some v => by_cases hv : v = [] <;> simp [fields_dset, hv]
  rw [hb]
  unfold withAbout
  by_cases h : ((fields info py!"Internal-Sender-Description").any fun p => contains ABOUT_MORSEL p) = true
  · rw [if_pos h, if_pos]
    rw [List.any_eq_true] at h; exact h
  · rw [if_neg h, if_neg]
    rw [List.any_eq_true] at h; exact h

/-- C20: a second `update_info` with the same arguments changes nothing in bag-info,
for every way of computing the size from what was saved. -/
theorem C20_idempotent (size : (Str → List Str) → Str) (version : Option Str) (profver : Str) (info : Info)
    (k : Str) :
    fields (updateInfo size version profver (updateInfo size version profver info)) k =
      fields (updateInfo size version profver info) k := by
  -- all fields but the size
  have main : ∀ k, k ≠ py!"Bag-Size" →
      fields (updateInfo size version profver (updateInfo size version profver info)) k =
      fields (updateInfo size version profver info) k := by
    intro k hk
    by_cases hm : k ∈ Spec.touchedTags
    · have g := C20_sets_fields size version profver info
      have g' := C20_sets_fields size version profver (updateInfo size version profver info)
      have ha := C20_about_once size version profver info
      simp only at g g'
      obtain ⟨g1, g2, g3, g4, g5, _⟩ := g
      obtain ⟨k1, k2, k3, k4, k5, _⟩ := g'
      have hkey : ∀ (i : Info) (k : Str), fields i k ≠ [] → k ∈ dkeys i := by
        intro i k h
        refine Classical.byContradiction (fun hc => h ?_)
        unfold fields; rw [dget_eq_none_iff.2 hc]
      have hkeep : ∀ (i : Info) (k : Str) (x : Str), k ∈ dkeys i → k ∈ dkeys (dset i x (.one [])) := by
        intro i k x h; rw [mem_dkeys_dset]; exact .inr h
      simp only [Spec.touchedTags, List.mem_cons, List.not_mem_nil, or_false] at hm
      have htag : py!"Multibag-Tag-Directory" ∈ dkeys (updateInfo size version profver info) := by
        simp only [updateInfo, headInfo, mem_dkeys_dset, dkeys_ddel, List.mem_filter]
        right
        simp only [mem_dkeys_iff, addAbout]
        have : ∀ (i : Info) v, ∃ w, dget (dsetDefault (dsetDefault i py!"Multibag-Tag-Directory" v)
            py!"Multibag-Head-Version" (.one py!"1")) py!"Multibag-Tag-Directory" = some w := by
          intro i v
          rw [dget_dsetDefault, if_neg (by simp), dget_dsetDefault]
          by_cases h : dget i py!"Multibag-Tag-Directory" = none
          · exact ⟨v, by simp [h]⟩
          · obtain ⟨w, hw⟩ := Option.ne_none_iff_exists'.1 h
            exact ⟨w, by simp [hw]⟩
        split <;> simp [dget_dset, this]
      have hver : py!"Multibag-Head-Version" ∈ dkeys (updateInfo size version profver info) := by
        simp only [updateInfo, headInfo, mem_dkeys_dset, dkeys_ddel, List.mem_filter]
        right
        simp only [mem_dkeys_iff, addAbout]
        have : ∀ (i : Info) v, ∃ w, dget (dsetDefault i
            py!"Multibag-Head-Version" v) py!"Multibag-Head-Version" = some w := by
          intro i v
          rw [dget_dsetDefault]
          by_cases h : dget i py!"Multibag-Head-Version" = none
          · exact ⟨v, by simp [h]⟩
          · obtain ⟨w, hw⟩ := Option.ne_none_iff_exists'.1 h
            exact ⟨w, by simp [hw]⟩
        split <;> simp [dget_dset, this]
      rcases hm with rfl | rfl | rfl | rfl | rfl | rfl | rfl
      · rw [k4]
        cases version with
        | none => simp only [if_pos hver]
        | some v =>
          cases v with
          | nil => simp only [if_pos hver]
          | cons c cs => simp only at g4 ⊢; rw [g4]
      · rw [k1, g1]
      · rw [k3, if_pos htag]
      · rw [k2, g2]
      · rw [C20_about_once, if_pos]
        rw [ha]
        by_cases h : ∃ p ∈ fields info py!"Internal-Sender-Description",
          contains py!"complies with the Multibag BagIt profile" p = true
        · rw [if_pos h]; exact h
        · rw [if_neg h]; exact ⟨ABOUT_MBAG, by simp, about_has_morsel⟩
      · rw [k5, g5]
      · exact absurd rfl hk
    · exact C20_preserves size version profver _ k hm
  by_cases hk : k = py!"Bag-Size"
  · subst hk
    -- the saved fields other than the size agree, so the size does
    have hsz : ∀ i, ∃ j : Info, updateInfo size version profver i = dset j py!"Bag-Size" (.one (size (fields j))) ∧
        fields j = fun k => if k = py!"Bag-Size" then [] else fields (updateInfo size version profver i) k := by
      intro i
      refine ⟨_, rfl, ?_⟩
      funext k
      by_cases e : k = py!"Bag-Size"
      · subst e; rw [if_pos rfl]; unfold headInfo; rw [fields_ddel, if_pos rfl]
      · rw [if_neg e]
        conv => rhs; unfold updateInfo
        simp only [fields_dset]
        rw [if_neg (fun h => e h.symm)]
    obtain ⟨j, hj, fj⟩ := hsz info
    obtain ⟨j', hj', fj'⟩ := hsz (updateInfo size version profver info)
    have : fields j' = fields j := by
      rw [fj, fj']
      funext k
      by_cases e : k = py!"Bag-Size"
      · simp [e]
      · rw [if_neg e, if_neg e, main k e]
    rw [hj', fields_dset, if_pos rfl, this, hj, fields_dset, if_pos rfl]
  · exact main k hk

/-- A concrete case: an unrelated tag, an old size, an existing description. -/
example :
    let info : Info := [(py!"Contact-Name", .one py!"x"), (py!"Bag-Size", .one py!"3 B"),
      (py!"Internal-Sender-Description", .one py!"mine")]
    fields (updateInfo (fun _ => py!"9 B") none py!"0.4" info) py!"Internal-Sender-Description" =
      [py!"mine", ABOUT_MBAG] ∧
    fields (updateInfo (fun _ => py!"9 B") none py!"0.4" info) py!"Contact-Name" = [py!"x"] ∧
    fields (updateInfo (fun _ => py!"9 B") none py!"0.4" info) py!"Bag-Size" = [py!"9 B"] := by
  decide +kernel

end Verif
