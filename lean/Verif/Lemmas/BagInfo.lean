import Verif.Spec.BagInfo
import Verif.Lemmas.TagFiles
import Verif.Model.Apply
/-!
# Lemmas about bag-info.txt
-/

namespace Verif
open Verif.Spec

/-! ## Loading -/

theorem fields_addTag (info : Info) (f : Str × Str) (k : Str) :
    fields (addTag info f) k = if k = f.1 then fields info k ++ [f.2] else fields info k := by
  unfold addTag
  by_cases hk : k = f.1
  · subst hk
    rw [if_pos rfl]
    cases h : dget info f.1 with
    | none => simp [fields, dget_dset, h, InfoVal.values]
    | some v => cases v <;> simp [fields, dget_dset, h, InfoVal.values]
  · rw [if_neg hk]
    have hk' : f.1 ≠ k := fun e => hk e.symm
    cases h : dget info f.1 with
    | none => simp [fields, dget_dset, hk']
    | some v => cases v <;> simp [fields, dget_dset, hk']

theorem fields_foldl (fs : List (Str × Str)) (info : Info) (k : Str) :
    fields (fs.foldl addTag info) k = fields info k ++ valuesOf fs k := by
  induction fs generalizing info with
  | nil => simp [valuesOf]
  | cons f fs ih =>
    rw [List.foldl_cons, ih, fields_addTag]
    unfold valuesOf
    by_cases hk : f.1 = k
    · simp [hk]
    · rw [if_neg (fun e => hk e.symm), List.filter_cons, if_neg (by simpa using hk)]

theorem fields_loadTags (fs : List (Str × Str)) (k : Str) : fields (loadTags fs) k = valuesOf fs k := by
  rw [loadTags, fields_foldl]; simp [fields, dget]

/-- The values in memory: one string, or a list of two or more. -/
def Loaded (info : Info) : Prop := ∀ k v, dget info k = some v →
  match v with | .one _ => True | .many l => 2 ≤ l.length

theorem loaded_addTag {info : Info} (h : Loaded info) (f : Str × Str) : Loaded (addTag info f) := by
  intro k v hv
  unfold addTag at hv
  cases hg : dget info f.1 with
  | none =>
    rw [hg] at hv
    simp only [dget_dset] at hv
    split at hv
    · cases hv; trivial
    · exact h k v hv
  | some w =>
    cases w with
    | one x =>
      rw [hg] at hv
      simp only [dget_dset] at hv
      split at hv
      · cases hv; simp
      · exact h k v hv
    | many l =>
      rw [hg] at hv
      simp only [dget_dset] at hv
      split at hv
      · cases hv
        have := h f.1 _ hg
        simp only [List.length_append, List.length_singleton]
        simp only at this
        omega
      · exact h k v hv

theorem loaded_loadTags (fs : List (Str × Str)) : Loaded (loadTags fs) := by
  have : ∀ info, Loaded info → Loaded (fs.foldl addTag info) := by
    induction fs with
    | nil => intro info h; exact h
    | cons f fs ih => intro info h; exact ih _ (loaded_addTag h f)
  exact this [] (by intro k v h; cases h)

theorem dmem_addTag (info : Info) (f : Str × Str) (k : Str) : dmem (addTag info f) k = true ↔ dmem info k = true ∨ f.1 = k := by
  unfold dmem addTag
  by_cases hk : f.1 = k
  · cases dget info f.1 with
    | none => simp [dget_dset, hk]
    | some v => cases v <;> simp [dget_dset, hk]
  · cases dget info f.1 with
    | none => simp [dget_dset, hk]
    | some v => cases v <;> simp [dget_dset, hk]

/-- The labels of a metadata file are those of its lines. -/
theorem dmem_loadTags (fs : List (Str × Str)) (k : Str) : dmem (loadTags fs) k = true ↔ ∃ v, (k, v) ∈ fs := by
  have : ∀ info : Info, dmem (fs.foldl addTag info) k = true ↔ dmem info k = true ∨ ∃ v, (k, v) ∈ fs := by
    induction fs with
    | nil => intro info; simp
    | cons f fs ih =>
      intro info
      rw [List.foldl_cons, ih, dmem_addTag, or_assoc]
      refine or_congr Iff.rfl ⟨?_, ?_⟩
      · rintro (h | ⟨v, h⟩)
        · exact ⟨f.2, by rw [← h]; exact List.mem_cons_self⟩
        · exact ⟨v, List.mem_cons_of_mem _ h⟩
      · rintro ⟨v, h⟩
        rcases List.mem_cons.1 h with h | h
        · exact .inl (by rw [← h])
        · exact .inr ⟨v, h⟩
  rw [loadTags, this]
  simp [dmem, dget]

theorem nodup_loadTags (fs : List (Str × Str)) : (dkeys (loadTags fs)).Nodup := by
  have : ∀ info : Info, (dkeys info).Nodup → (dkeys (fs.foldl addTag info)).Nodup := by
    induction fs with
    | nil => intro info h; exact h
    | cons f fs ih =>
      intro info h
      apply ih
      unfold addTag
      split <;> exact nodup_dset h _ _
  exact this [] (by simp [dkeys])

theorem infoItem_loadTags (fs : List (Str × Str)) (k : Str) :
    infoItem (loadTags fs) k =
      match (valuesOf fs k).getLast? with
      | some v => .ok v
      | none => .error .multibagError := by
  rw [← fields_loadTags]
  unfold infoItem fields
  cases hg : dget (loadTags fs) k with
  | none => rfl
  | some v =>
    cases v with
    | one x => rfl
    | many l =>
      simp only [InfoVal.values]
      cases l.getLast? <;> rfl

theorem tagDir_loadTags (fs : List (Str × Str)) :
    tagDir (loadTags fs) = ((valuesOf fs py!"Multibag-Tag-Directory").getLast?).getD py!"multibag" := by
  rw [← fields_loadTags]
  unfold tagDir fields
  cases hg : dget (loadTags fs) py!"Multibag-Tag-Directory" with
  | none => rfl
  | some v => cases v <;> simp [InfoVal.values]

/-! ## Reading what was written -/

/-- Reading one label-value line. -/
theorem parseTagsFrom_line {cur : Option (Str × Str)} {n v : Str} {rest : List Str} (hn : CleanLabel n)
    (hv : Trimmed v) :
    parseTagsFrom cur ((n ++ (':' :: ' ' :: v) ++ ['\n']) :: rest) =
      match parseTagsFrom (some (n, if v = [] then [] else ' ' :: v)) rest with
      | .error e => .error e
      | .ok l => .ok (yieldTag cur ++ l) := by
  have hsp : isSpace ' ' = true := by decide
  have hnl : isSpace '\n' = true := by decide
  have hcol : isSpace ':' = false := by decide
  obtain ⟨x, xs, rfl⟩ : ∃ x xs, n = x :: xs := by
    cases n with
    | nil => exact absurd rfl hn.nonempty
    | cons x xs => exact ⟨x, xs, rfl⟩
  have hx : isSpace x = false := hn.noouter.1 x rfl
  -- what strip leaves of the line
  have hstrip : strip ((x :: xs) ++ (':' :: ' ' :: v) ++ ['\n']) =
      (x :: xs) ++ ':' :: (if v = [] then [] else ' ' :: v) := by
    rw [strip_append_space (by simp [hnl])]
    split
    · rename_i e
      subst e
      have : (x :: xs) ++ [':', ' '] = ((x :: xs) ++ [':']) ++ [' '] := by simp
      rw [this, strip_append_space (by simp [hsp])]
      apply strip_of_trimmed
      exact ⟨by intro c hc; simp at hc; subst hc; exact hx,
        by intro c hc; rw [List.getLast?_concat] at hc; cases hc; exact hcol⟩
    · rename_i e
      apply strip_of_trimmed
      refine ⟨by intro c hc; simp at hc; subst hc; exact hx, ?_⟩
      intro c hc
      obtain ⟨init, last, rfl⟩ := exists_concat e
      apply hv.2 c
      have h1 : x :: xs ++ ':' :: ' ' :: (init ++ [last]) = (x :: xs ++ ':' :: ' ' :: init) ++ [last] := by simp
      rw [h1, List.getLast?_concat] at hc
      rw [List.getLast?_concat]; exact hc
  conv => lhs; unfold parseTagsFrom
  rw [if_neg (by rw [hstrip]; simp)]
  have hhead : (((x :: xs) ++ (':' :: ' ' :: v) ++ ['\n']).head?.map isSpace).getD false = false := by
    simp [hx]
  rw [hhead]
  simp only [Bool.false_eq_true, if_false]
  rw [if_pos (by simp)]
  simp only [hstrip]
  have h1 : ((x :: xs) ++ ':' :: (if v = [] then [] else ' ' :: v)).takeWhile (· ≠ ':') = x :: xs := by
    rw [List.takeWhile_append_of_pos]
    · simp
    · intro c hc
      simp only [ne_eq, decide_not, Bool.not_eq_eq_eq_not, Bool.not_true, decide_eq_false_iff_not]
      rintro rfl; exact hn.nocolon hc
  have h2 : ((x :: xs) ++ ':' :: (if v = [] then [] else ' ' :: v)).dropWhile (· ≠ ':') =
      ':' :: (if v = [] then [] else ' ' :: v) := by
    rw [List.dropWhile_append_of_pos]
    · simp
    · intro c hc
      simp only [ne_eq, decide_not, Bool.not_eq_eq_eq_not, Bool.not_true, decide_eq_false_iff_not]
      rintro rfl; exact hn.nocolon hc
  rw [h1, h2, strip_of_trimmed hn.noouter]
  rfl

theorem yieldTag_line {n v : Str} (hn : n ≠ []) (hv : Trimmed v) :
    yieldTag (some (n, if v = [] then [] else ' ' :: v)) = [(n, v)] := by
  simp only [yieldTag, if_neg hn]
  split
  · rename_i e; rw [e]; rfl
  · rw [show ' ' :: v = [' '] ++ v ++ [] by simp, strip_surround (by intro c hc; simp at hc; subst hc; decide) (by simp),
      strip_of_trimmed hv]

theorem parseTagsFrom_fields (fs : List (Str × Str)) (cur : Option (Str × Str))
    (h : ∀ f ∈ fs, CleanLabel f.1 ∧ Trimmed f.2) :
    parseTagsFrom cur (fs.map (fun f => f.1 ++ (':' :: ' ' :: f.2) ++ ['\n'])) = .ok (yieldTag cur ++ fs) := by
  induction fs generalizing cur with
  | nil => simp [parseTagsFrom]
  | cons f fs ih =>
    obtain ⟨h1, h2⟩ := h f (List.mem_cons_self ..)
    rw [List.map_cons, parseTagsFrom_line h1 h2, ih _ (fun g hg => h g (List.mem_cons_of_mem _ hg)),
      yieldTag_line h1.nonempty h2]
    rfl

/-- Lines written as clean label-value pairs are read back. -/
theorem parseTags_fieldsText (mode : TextMode) (fs : List (Str × Str)) (h : ∀ f ∈ fs, CleanTag f)
    (hbom : ∀ f ∈ fs.head?, f.1.head? ≠ some bom) : parseTags mode (fieldsText fs) = .ok fs := by
  have e : fieldsText fs = ((fs.map (fun f => f.1 ++ (':' :: ' ' :: f.2))).map (· ++ ['\n'])).flatten := by
    simp [fieldsText, Function.comp_def]
  unfold parseTags
  rw [e, textLines_flatten]
  · rw [List.map_map]
    exact parseTagsFrom_fields fs none (fun f hf => ⟨(h f hf).label, (h f hf).noouter⟩)
  · intro l hl c hc
    obtain ⟨f, hf, rfl⟩ := List.mem_map.1 hl
    rcases List.mem_append.1 hc with hc | hc
    · exact (h f hf).label.nobreak c hc
    · simp only [List.mem_cons] at hc
      rcases hc with rfl | rfl | hc
      · decide
      · decide
      · exact (h f hf).nobreak c hc
  · intro l hl
    cases fs with
    | nil => simp at hl
    | cons f fs =>
      simp only [List.map_cons, List.head?_cons, Option.mem_def, Option.some.injEq] at hl
      subst hl
      have := hbom f (by simp)
      have hne := (h f (List.mem_cons_self ..)).label.nonempty
      cases hf : f.1 with
      | nil => exact absurd hf hne
      | cons x xs => rw [hf] at this; simpa using this

/-! ## The metadata of an output bag -/

theorem valuesOf_append (a b : List (Str × Str)) (k : Str) : valuesOf (a ++ b) k = valuesOf a k ++ valuesOf b k := by
  simp [valuesOf]

theorem valuesOf_cons (f : Str × Str) (b : List (Str × Str)) (k : Str) :
    valuesOf (f :: b) k = if f.1 = k then f.2 :: valuesOf b k else valuesOf b k := by
  unfold valuesOf
  rw [List.filter_cons]
  by_cases h : f.1 = k
  · simp [h]
  · simp [h]

theorem valuesOf_map (vs : List Str) (n k : Str) :
    valuesOf (vs.map (fun x => (n, x))) k = if n = k then vs else [] := by
  induction vs with
  | nil => simp [valuesOf]
  | cons v vs ih =>
    rw [List.map_cons, valuesOf_cons, ih]
    split <;> rfl

/-- What one source item contributes to a label of the output. -/
def contributes (nopass : List Str) (bagname : Str) (size count : Nat) (e : Str × InfoVal) (k : Str) : List Str :=
  match infoFields nopass bagname size count e with
  | .ok l => valuesOf l k
  | .error _ => []

theorem valuesOf_infoBody {nopass : List Str} {n : Str} {size count : Nat} {info : Info} {l : List (Str × Str)}
    (h : infoBody nopass n size count info = .ok l) (k : Str) :
    valuesOf l k = info.flatMap (fun e => contributes nopass n size count e k) := by
  induction info generalizing l with
  | nil => cases h; rfl
  | cons e info ih =>
    simp only [infoBody] at h
    split at h
    · cases h
    · rename_i l1 h1
      split at h
      · cases h
      · rename_i l2 h2
        cases h
        rw [valuesOf_append, ih h2, List.flatMap_cons]
        simp only [contributes, h1]

theorem flatMap_key {V : Type} (d : List (Str × V)) (hn : (dkeys d).Nodup) (k : Str) (g : V → List Str)
    (c : Str × V → List Str) (h1 : ∀ v, (k, v) ∈ d → c (k, v) = g v) (h2 : ∀ e ∈ d, e.1 ≠ k → c e = []) :
    d.flatMap c = match dget d k with | none => [] | some v => g v := by
  induction d with
  | nil => rfl
  | cons e d ih =>
    obtain ⟨k', v⟩ := e
    rw [dkeys, List.map_cons, List.nodup_cons] at hn
    rw [List.flatMap_cons]
    simp only [dget]
    by_cases hk : k' = k
    · subst hk
      rw [if_pos rfl, h1 v (List.mem_cons_self ..)]
      have : d.flatMap c = [] := by
        rw [List.flatMap_eq_nil_iff]
        intro e he
        apply h2 e (List.mem_cons_of_mem _ he)
        rintro rfl
        exact hn.1 (List.mem_map.2 ⟨_, he, rfl⟩)
      rw [this]; simp
    · rw [if_neg hk, h2 _ (List.mem_cons_self ..) hk, List.nil_append]
      exact ih hn.2 (fun v hv => h1 v (List.mem_cons_of_mem _ hv)) (fun e he => h2 e (List.mem_cons_of_mem _ he))

end Verif
