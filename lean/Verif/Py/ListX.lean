/-!
# List helpers
-/

namespace Verif

/-- Two lists of the same length related element by element. -/
inductive Forall₂ {α β : Type} (R : α → β → Prop) : List α → List β → Prop
  | nil : Forall₂ R [] []
  | cons {a b as bs} : R a b → Forall₂ R as bs → Forall₂ R (a :: as) (b :: bs)

theorem forall₂_mem_left {α β : Type} {R : α → β → Prop} {as : List α} {bs : List β}
    (h : Forall₂ R as bs) {a : α} (ha : a ∈ as) : ∃ b ∈ bs, R a b := by
  induction h with
  | nil => simp at ha
  | cons h1 _ ih =>
    rcases List.mem_cons.1 ha with rfl | ha
    · exact ⟨_, by simp, h1⟩
    · obtain ⟨b, hb, hr⟩ := ih ha; exact ⟨b, by simp [hb], hr⟩

theorem forall₂_mem_right {α β : Type} {R : α → β → Prop} {as : List α} {bs : List β}
    (h : Forall₂ R as bs) {b : β} (hb : b ∈ bs) : ∃ a ∈ as, R a b := by
  induction h with
  | nil => simp at hb
  | cons h1 _ ih =>
    rcases List.mem_cons.1 hb with rfl | hb
    · exact ⟨_, by simp, h1⟩
    · obtain ⟨a, ha, hr⟩ := ih hb; exact ⟨a, by simp [ha], hr⟩

theorem forall₂_map_left {α β γ : Type} {R : γ → β → Prop} {f : α → γ} {as : List α} {bs : List β}
    (h : Forall₂ (fun a b => R (f a) b) as bs) : Forall₂ R (as.map f) bs := by
  induction h with
  | nil => exact .nil
  | cons h1 _ ih => exact .cons h1 ih

theorem forall₂_imp {α β : Type} {R S : α → β → Prop} {as : List α} {bs : List β}
    (hi : ∀ a b, R a b → S a b) (h : Forall₂ R as bs) : Forall₂ S as bs := by
  induction h with
  | nil => exact .nil
  | cons h1 _ ih => exact .cons (hi _ _ h1) ih

theorem forall₂_map_self {α β : Type} {R : α → β → Prop} {f : β → α} {bs : List β}
    (h : ∀ b ∈ bs, R (f b) b) : Forall₂ R (bs.map f) bs := by
  induction bs with
  | nil => exact .nil
  | cons b bs ih => exact .cons (h b (by simp)) (ih (fun b hb => h b (by simp [hb])))

theorem forall₂_eq_map {α β : Type} {f : α → β} {as : List α} {bs : List β}
    (h : Forall₂ (fun a b => f a = b) as bs) : bs = as.map f := by
  induction h with
  | nil => rfl
  | cons h1 _ ih => simp [h1, ih]

theorem forall₂_length {α β : Type} {R : α → β → Prop} {as : List α} {bs : List β}
    (h : Forall₂ R as bs) : as.length = bs.length := by
  induction h with
  | nil => rfl
  | cons _ _ ih => simp [ih]

theorem filterMap_self {α : Type} {f : α → Option α} {l : List α} (h : ∀ a ∈ l, f a = some a) :
    l.filterMap f = l := by
  induction l with
  | nil => rfl
  | cons x xs ih =>
    rw [List.filterMap_cons, h x (by simp), ih (fun a ha => h a (by simp [ha]))]

theorem exists_concat {α : Type} {l : List α} (h : l ≠ []) : ∃ init last, l = init ++ [last] := by
  induction l with
  | nil => contradiction
  | cons x xs ih =>
    cases xs with
    | nil => exact ⟨[], x, rfl⟩
    | cons y ys =>
      obtain ⟨i, l, e⟩ := ih (by simp)
      exact ⟨x :: i, l, by rw [e]; rfl⟩

end Verif
