import Verif.Lemmas.MkPlan
/-!
# Two runs of a plan
-/

namespace Verif

/-- The same exception, or results that `R` relates. -/
def SameOut {α β : Type} (R : α → β → Prop) : Except PyErr α → Except PyErr β → Prop
  | .ok a, .ok b => R a b
  | .error e, .error e' => e = e'
  | _, _ => False

/-- If both end, they have added files with the same contents in the same order, as many directories, and come to the same. -/
def RunAlike {α β : Type} (R : α → β → Prop) (m₁ : Making α) (m₂ : Making β) : Prop :=
  ∀ t₁ draws₁ o₁ t₁' rest₁ t₂ draws₂ o₂ t₂' rest₂,
    m₁ (t₁, draws₁) = some (o₁, t₁', rest₁) → m₂ (t₂, draws₂) = some (o₂, t₂', rest₂) →
    SameOut R o₁ o₂ ∧ (∃ n₁ n₂, t₁'.files = t₁.files ++ n₁ ∧ t₂'.files = t₂.files ++ n₂ ∧ n₁.map (·.2) = n₂.map (·.2)) ∧
      ∃ k, t₁'.dirs.length = t₁.dirs.length + k ∧ t₂'.dirs.length = t₂.dirs.length + k

theorem alike_pure {α β : Type} {R : α → β → Prop} {a : α} {b : β} (h : R a b) : RunAlike R (.pure a) (.pure b) := by
  intro t₁ draws₁ o₁ t₁' rest₁ t₂ draws₂ o₂ t₂' rest₂ h1 h2
  cases h1
  cases h2
  exact ⟨h, ⟨[], [], by simp, by simp, rfl⟩, 0, rfl, rfl⟩

theorem alike_raise {α β : Type} {R : α → β → Prop} (e : PyErr) : RunAlike R (.raise e) (.raise e) := by
  intro t₁ draws₁ o₁ t₁' rest₁ t₂ draws₂ o₂ t₂' rest₂ h1 h2
  cases h1
  cases h2
  exact ⟨rfl, ⟨[], [], by simp, by simp, rfl⟩, 0, rfl, rfl⟩

theorem alike_lift {α : Type} (r : Except PyErr α) : RunAlike Eq (.lift r) (.lift r) := by
  cases r with
  | ok a => exact alike_pure rfl
  | error e => exact alike_raise e

theorem alike_bind {α β γ δ : Type} {R : α → β → Prop} {S : γ → δ → Prop} {m₁ : Making α} {m₂ : Making β} {f₁ : α → Making γ}
    {f₂ : β → Making δ} (hm : RunAlike R m₁ m₂) (hf : ∀ a b, R a b → RunAlike S (f₁ a) (f₂ b)) :
    RunAlike S (m₁.bind f₁) (m₂.bind f₂) := by
  intro t₁ draws₁ o₁ t₁' rest₁ t₂ draws₂ o₂ t₂' rest₂ h1 h2
  rcases bind_some h1 with ⟨e, a1, rfl⟩ | ⟨a, u₁, mid₁, a1, a2⟩ <;>
    rcases bind_some h2 with ⟨e', b1, rfl⟩ | ⟨b, u₂, mid₂, b1, b2⟩
  · exact hm _ _ _ _ _ _ _ _ _ _ a1 b1
  · exact absurd (hm _ _ _ _ _ _ _ _ _ _ a1 b1).1 (fun h => h)
  · exact absurd (hm _ _ _ _ _ _ _ _ _ _ a1 b1).1 (fun h => h)
  · obtain ⟨c1, ⟨n₁, n₂, c2, c3, c4⟩, k, c5, c6⟩ := hm _ _ _ _ _ _ _ _ _ _ a1 b1
    obtain ⟨d1, ⟨p₁, p₂, d2, d3, d4⟩, j, d5, d6⟩ := hf a b c1 _ _ _ _ _ _ _ _ _ _ a2 b2
    refine ⟨d1, ⟨n₁ ++ p₁, n₂ ++ p₂, ?_, ?_, ?_⟩, k + j, by omega, by omega⟩
    · rw [d2, c2, List.append_assoc]
    · rw [d3, c3, List.append_assoc]
    · rw [List.map_append, List.map_append, c4, d4]

variable (lnFloor : Nat → Nat)

theorem alike_createFile (size : Nat) (p₁ p₂ : List Str) : RunAlike Eq (createFile lnFloor size p₁) (createFile lnFloor size p₂) := by
  refine alike_bind (R := fun _ _ => True) ?_ (fun a b _ => ?_)
  · intro t₁ draws₁ o₁ t₁' rest₁ t₂ draws₂ o₂ t₂' rest₂ h1 h2
    obtain ⟨_, rfl, rfl, _⟩ := mkfilename_some h1
    obtain ⟨_, rfl, rfl, _⟩ := mkfilename_some h2
    exact ⟨trivial, ⟨[], [], by simp, by simp, rfl⟩, 0, rfl, rfl⟩
  · intro t₁ draws₁ o₁ t₁' rest₁ t₂ draws₂ o₂ t₂' rest₂ h1 h2
    cases h1
    cases h2
    exact ⟨rfl, ⟨_, _, rfl, rfl, rfl⟩, 0, rfl, rfl⟩

theorem alike_createDir (p₁ p₂ : List Str) : RunAlike (fun _ _ => True) (createDir p₁) (createDir p₂) := by
  intro t₁ draws₁ o₁ t₁' rest₁ t₂ draws₂ o₂ t₂' rest₂ h1 h2
  obtain ⟨_, rfl, a⟩ := createDir_some h1
  obtain ⟨_, rfl, b⟩ := createDir_some h2
  exact ⟨trivial, ⟨[], [], by simpa using a.files, by simpa using b.files, rfl⟩, 1, by rw [a.dirs]; simp, by rw [b.dirs]; simp⟩

theorem alike_fillFiles (p₁ p₂ : List Str) (ms mf : Int) : ∀ (sizes : List Nat) (c : Nat × Nat),
    RunAlike Eq (fillFiles lnFloor p₁ ms mf sizes c) (fillFiles lnFloor p₂ ms mf sizes c)
  | [], c => alike_pure rfl
  | sz :: sizes, c => by
    unfold fillFiles
    split
    · exact alike_pure rfl
    · refine alike_bind (alike_createFile lnFloor sz p₁ p₂) ?_
      rintro a _ rfl
      exact alike_fillFiles p₁ p₂ ms mf sizes _

theorem alike_fillSet (p₁ p₂ : List Str) (f : FileSet) : ∀ (n : Nat) (c : Nat × Nat),
    RunAlike Eq (fillSet lnFloor p₁ f n c) (fillSet lnFloor p₂ f n c)
  | 0, c => alike_pure rfl
  | n + 1, c => by
    unfold fillSet
    rcases f.iter with _ | it
    · exact alike_pure rfl
    · refine alike_bind (alike_lift _) ?_
      rintro l _ rfl
      refine alike_bind (alike_fillFiles lnFloor p₁ p₂ _ _ l _) ?_
      rintro d _ rfl
      exact alike_fillSet p₁ p₂ f n _

theorem alike_fillSets (p₁ p₂ : List Str) (ts tf : Int) : ∀ (l : List FileSet) (c : Nat × Nat),
    RunAlike Eq (fillSets lnFloor p₁ ts tf l c) (fillSets lnFloor p₂ ts tf l c)
  | [], c => alike_pure rfl
  | f :: l, c => by
    unfold fillSets
    split
    · exact alike_pure rfl
    · refine alike_bind (alike_fillSet lnFloor p₁ p₂ f _ c) ?_
      rintro d _ rfl
      exact alike_fillSets p₁ p₂ ts tf l d

section
variable {fill : List Str → Int → Int → DirSpec → Making ((Nat × Nat) × DirSpec)}
  (hfill : ∀ p₁ p₂ ts tf d, RunAlike Eq (fill p₁ ts tf d) (fill p₂ ts tf d))
include hfill

theorem alike_fillReps (p₁ p₂ : List Str) (ts tf : Int) : ∀ (n : Nat) (d : DirSpec) (c : Nat × Nat),
    RunAlike Eq (fillReps fill p₁ ts tf n d c) (fillReps fill p₂ ts tf n d c)
  | 0, d, c => alike_pure rfl
  | n + 1, d, c => by
    unfold fillReps
    split
    · exact alike_pure rfl
    · refine alike_bind (alike_createDir p₁ p₂) (fun q₁ q₂ _ => ?_)
      refine alike_bind (hfill q₁ q₂ _ _ d) ?_
      rintro r _ rfl
      exact alike_fillReps p₁ p₂ ts tf n _ _

theorem alike_fillDirs (p₁ p₂ : List Str) (ts tf : Int) : ∀ (l : List DirSpec) (c : Nat × Nat),
    RunAlike Eq (fillDirs fill p₁ ts tf l c) (fillDirs fill p₂ ts tf l c)
  | [], c => alike_pure rfl
  | d :: l, c => by
    unfold fillDirs
    split
    · exact alike_pure rfl
    · refine alike_bind (alike_fillReps hfill p₁ p₂ ts tf _ d c) ?_
      rintro r _ rfl
      refine alike_bind (alike_fillDirs p₁ p₂ ts tf l r.1) ?_
      rintro q _ rfl
      exact alike_pure rfl
end

theorem alike_fillDir : ∀ (fuel : Nat) (p₁ p₂ : List Str) (ts tf : Int) (d : DirSpec),
    RunAlike Eq (fillDir lnFloor fuel p₁ ts tf d) (fillDir lnFloor fuel p₂ ts tf d)
  | 0, _, _, _, _, _ => by intro t₁ draws₁ o₁ t₁' rest₁ t₂ draws₂ o₂ t₂' rest₂ h1; cases h1
  | fuel + 1, p₁, p₂, ts, tf, d => by
    unfold fillDir
    split
    · exact alike_pure rfl
    · refine alike_bind (alike_lift _) ?_
      rintro p _ rfl
      refine alike_bind (alike_fillSets lnFloor p₁ p₂ ts tf p.1 _) ?_
      rintro c _ rfl
      refine alike_bind (alike_fillDirs (alike_fillDir fuel) p₁ p₂ ts tf p.2 c) ?_
      rintro q _ rfl
      exact alike_pure rfl

theorem alike_makeDataset (parent : Bool) (plan : DirSpec) :
    RunAlike Eq (makeDataset lnFloor parent plan) (makeDataset lnFloor parent plan) := by
  unfold makeDataset
  split
  · exact alike_raise _
  · split
    · exact alike_raise _
    · refine alike_bind (alike_fillDir lnFloor _ _ _ _ _ _) ?_
      rintro r _ rfl
      exact alike_pure rfl

end Verif
