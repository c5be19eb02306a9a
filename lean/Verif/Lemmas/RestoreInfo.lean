import Verif.Lemmas.RestoreWhole
import Verif.Lemmas.BagInfo
import Verif.Props.Info
/-!
# The metadata of a restored bag
-/

namespace Verif

open Spec

theorem mem_insertKey {k x : Str} {l : List Str} : x ∈ insertKey k l ↔ x = k ∨ x ∈ l := by
  induction l with
  | nil => simp [insertKey]
  | cons y l ih =>
    simp only [insertKey]
    split
    · simp
    · simp only [List.mem_cons, ih]
      constructor
      · rintro (h | h | h)
        · exact .inr (.inl h)
        · exact .inl h
        · exact .inr (.inr h)
      · rintro (h | h | h)
        · exact .inr (.inl h)
        · exact .inl h
        · exact .inr (.inr h)

theorem nodup_insertKey {k : Str} {l : List Str} (h : l.Nodup) (hk : k ∉ l) : (insertKey k l).Nodup := by
  induction l with
  | nil => simp [insertKey]
  | cons y l ih =>
    simp only [insertKey]
    split
    · exact List.nodup_cons.2 ⟨hk, h⟩
    · obtain ⟨h1, h2⟩ := List.nodup_cons.1 h
      refine List.nodup_cons.2 ⟨?_, ih h2 (fun hx => hk (List.mem_cons_of_mem _ hx))⟩
      rw [mem_insertKey]
      rintro (e | e)
      · exact hk (by rw [e]; exact List.mem_cons_self)
      · exact h1 e

theorem mem_sortKeys {x : Str} {l : List Str} : x ∈ sortKeys l ↔ x ∈ l := by
  unfold sortKeys
  induction l with
  | nil => simp
  | cons y l ih => rw [List.foldr_cons, mem_insertKey, ih, List.mem_cons]

theorem nodup_sortKeys {l : List Str} (h : l.Nodup) : (sortKeys l).Nodup := by
  unfold sortKeys
  induction l with
  | nil => simp
  | cons y l ih =>
    obtain ⟨h1, h2⟩ := List.nodup_cons.1 h
    rw [List.foldr_cons]
    exact nodup_insertKey (ih h2) (fun hx => h1 (mem_sortKeys.1 hx))

/-- A value as it is written: without line ends. -/
def oneLine (v : Str) : Str := v.filter (fun c => c ≠ '\n' && c ≠ '\r')

theorem valuesOf_flatMap {ks : List Str} (h : ks.Nodup) (g : Str → List Str) (k : Str) :
    valuesOf (ks.flatMap (fun k => (g k).map (fun v => (k, v)))) k = if k ∈ ks then g k else [] := by
  induction ks with
  | nil => simp [valuesOf]
  | cons x ks ih =>
    obtain ⟨h1, h2⟩ := List.nodup_cons.1 h
    have ih := ih h2
    unfold valuesOf at ih ⊢
    rw [List.flatMap_cons, List.filter_append, List.map_append, ih]
    by_cases e : x = k
    · subst e
      rw [if_neg h1, if_pos List.mem_cons_self, List.append_nil, List.filter_eq_self.2, List.map_map]
      · simp [Function.comp_def]
      · intro a ha
        obtain ⟨v, _, rfl⟩ := List.mem_map.1 ha
        simp
    · have : ((g x).map (fun v => (x, v))).filter (fun f => decide (f.1 = k)) = [] := by
        rw [List.filter_eq_nil_iff]
        intro a ha
        obtain ⟨v, _, rfl⟩ := List.mem_map.1 ha
        simpa using e
      rw [this, List.map_nil, List.nil_append]
      have : k ∈ x :: ks ↔ k ∈ ks := by
        rw [List.mem_cons]
        exact ⟨fun h => h.resolve_left (fun e' => e e'.symm), .inr⟩
      simp only [this]

/-- The values that saving writes for a label. -/
theorem valuesOf_tagFields {info : Info} (h : (dkeys info).Nodup) (k : Str) :
    valuesOf (tagFields info) k = (fields info k).map oneLine := by
  have e : tagFields info = (sortKeys (dkeys info)).flatMap (fun k => ((fields info k).map oneLine).map (fun v => (k, v))) := by
    unfold tagFields oneLine
    simp [List.map_map, Function.comp_def]
  rw [e, valuesOf_flatMap (nodup_sortKeys h)]
  split
  · rfl
  · rename_i hk
    rw [mem_sortKeys] at hk
    have : fields info k = [] := by
      unfold fields
      rw [dget_eq_none_iff.2 hk]
    rw [this]; rfl

theorem mem_tagFields {info : Info} {f : Str × Str} (hf : f ∈ tagFields info) :
    f.1 ∈ dkeys info ∧ ∃ v ∈ fields info f.1, f.2 = oneLine v := by
  unfold tagFields at hf
  obtain ⟨k, hk, hf⟩ := List.mem_flatMap.1 hf
  obtain ⟨v, hv, rfl⟩ := List.mem_map.1 hf
  exact ⟨mem_sortKeys.1 hk, v, hv, rfl⟩

theorem oneLine_clean {v : Str} (h : ∀ c ∈ v, isBreak c = false) : oneLine v = v := by
  unfold oneLine
  rw [List.filter_eq_self]
  intro c hc
  have := h c hc
  have h1 : c ≠ '\n' := by rintro rfl; revert this; decide
  have h2 : c ≠ '\r' := by rintro rfl; revert this; decide
  simp [h1, h2]

theorem fields_foldl_ddel (ks : List Str) (info : Info) (k : Str) :
    fields (ks.foldl ddel info) k = if k ∈ ks then [] else fields info k := by
  induction ks generalizing info with
  | nil => simp
  | cons x ks ih =>
    rw [List.foldl_cons, ih, fields_ddel]
    by_cases h1 : k ∈ ks
    · rw [if_pos h1, if_pos (List.mem_cons_of_mem _ h1)]
    · rw [if_neg h1]
      by_cases h2 : x = k
      · rw [if_pos h2, if_pos (by rw [h2]; exact List.mem_cons_self)]
      · rw [if_neg h2, if_neg]
        rw [List.mem_cons]
        rintro (e | e)
        · exact h2 e.symm
        · exact h1 e

theorem nodup_foldl_ddel (ks : List Str) {info : Info} (h : (dkeys info).Nodup) : (dkeys (ks.foldl ddel info)).Nodup := by
  induction ks generalizing info with
  | nil => exact h
  | cons x ks ih => exact ih (nodup_ddel h x)

theorem nodup_finalInfo {E : RestoreEnv} {us rm : Bool} {info info' : Info} {t : Tree}
    (h : finalInfo E us rm info info' t) (hn : (dkeys info).Nodup) : (dkeys info').Nodup := by
  have h1 : (dkeys (if rm then multibagKeys.foldl ddel info else info)).Nodup := by
    split
    · exact nodup_foldl_ddel _ hn
    · exact hn
  unfold finalInfo at h
  simp only at h
  split at h
  · obtain ⟨x, y, rfl⟩ := h
    exact nodup_dset (nodup_dset h1 _ _) _ _
  · rw [h]; exact h1

/-- The metadata of the final bag, label by label. -/
theorem fields_finalInfo {E : RestoreEnv} {us rm : Bool} {info info' : Info} {t : Tree}
    (h : finalInfo E us rm info info' t) {k : Str} (hk : us = true → k ≠ py!"Bag-Size") :
    fields info' k =
      if us = true ∧ k = py!"Payload-Oxum" then [oxumText E.blen t]
      else if rm = true ∧ k ∈ multibagKeys then [] else fields info k := by
  unfold finalInfo at h
  simp only at h
  have h1 : fields (if rm then multibagKeys.foldl ddel info else info) k =
      if rm = true ∧ k ∈ multibagKeys then [] else fields info k := by
    by_cases hr : rm = true
    · rw [if_pos hr, fields_foldl_ddel]; simp [hr]
    · rw [if_neg hr, if_neg (fun h => hr h.1)]
  by_cases hu : us = true
  · rw [if_pos hu] at h
    obtain ⟨x, y, rfl⟩ := h
    rw [fields_dset, if_neg (fun e => hk hu e.symm), fields_dset]
    by_cases e : py!"Payload-Oxum" = k
    · rw [if_pos e, if_pos ⟨hu, e.symm⟩]; rfl
    · rw [if_neg e, h1]
      have e' : ¬ k = py!"Payload-Oxum" := fun h => e h.symm
      simp only [e', and_false, if_false]
  · rw [if_neg hu] at h
    rw [h, h1]
    simp [hu]

theorem nodup_openBag {cfg : ReadCfg} {t : Tree} {b : RBag} (h : openBag cfg t = .ok b) : (dkeys b.info).Nodup := by
  obtain ⟨_, _, _, hi, _⟩ := openBag_parts h
  split at hi
  · unfold loadTagFile at hi
    split at hi
    · cases hi
    · split at hi
      · cases hi
      · have := Except.ok.inj hi
        rw [← this]; exact nodup_loadTags _
  · have := Except.ok.inj hi
    rw [← this]; simp [dkeys]

theorem break_of_digit {c : Char} (h : c.isDigit) : isBreak c = false := by
  unfold Char.isDigit at h
  simp only [Bool.and_eq_true, decide_eq_true_eq] at h
  have h1 : 48 ≤ c.toNat := UInt32.le_iff_toNat_le.1 h.1
  have h2 : c.toNat ≤ 57 := UInt32.le_iff_toNat_le.1 h.2
  unfold isBreak
  simp only [Bool.or_eq_false_iff, Bool.and_eq_false_iff, decide_eq_false_iff_not, beq_eq_false_iff_ne]
  omega

theorem oxumText_oneLine (blen : Str → Nat) (t : Tree) : oneLine (oxumText blen t) = oxumText blen t := by
  apply oneLine_clean
  intro c hc
  unfold oxumText at hc
  have hdig : ∀ n, ∀ c ∈ natStr n, isBreak c = false := by
    intro n c hc
    exact break_of_digit (isDigit_natStr hc)
  rcases List.mem_append.1 hc with hc | hc
  · exact hdig _ c hc
  · rcases List.mem_cons.1 hc with rfl | hc
    · decide
    · exact hdig _ c hc

end Verif
