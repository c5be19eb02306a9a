import Verif.Spec.MkPlan
import Verif.Props.MkData
import Verif.Py.ListX
/-!
# Lemmas on datasets made from plans
-/

namespace Verif

open Spec

/-! ## What is added -/

/-- Whatever the work comes to, `P` holds of the dataset before, the outcome and the dataset after. -/
def Making.Ends {α : Type} (m : Making α) (P : Dataset → Except PyErr α → Dataset → Prop) : Prop :=
  ∀ t draws o t' draws', m (t, draws) = some (o, t', draws') → P t o t'

theorem added_none (target : List Str) (t : Dataset) : Added target t t [] [] :=
  ⟨by simp, by simp, by simp, by simp, by simp, by simp⟩

theorem added_then {p target : List Str} {t u t' : Dataset} {n₁ n₂ : List (List Str × Str)} {d₁ d₂ : List (List Str)}
    (h₁ : Added target t u n₁ d₁) (h₂ : Added p u t' n₂ d₂) (hp : p ∈ target :: d₁) : Added target t t' (n₁ ++ n₂) (d₁ ++ d₂) := by
  have hsub : ∀ dir ∈ p :: d₂, dir ∈ target :: (d₁ ++ d₂) := by
    intro dir hd
    rcases List.mem_cons.1 hd with rfl | hd
    · rcases List.mem_cons.1 hp with rfl | hp
      · simp
      · simp [hp]
    · simp [hd]
  have hsub1 : ∀ dir ∈ target :: d₁, dir ∈ target :: (d₁ ++ d₂) := by
    intro dir hd
    rcases List.mem_cons.1 hd with rfl | hd
    · simp
    · simp [hd]
  have hold : ∀ q ∈ n₂.map (·.1) ++ d₂, (q ∉ t.files.map (·.1) ∧ q ∉ t.dirs) ∧ q ∉ n₁.map (·.1) ++ d₁ := by
    intro q hq
    obtain ⟨a, b⟩ := h₂.fresh q hq
    rw [h₁.files, List.map_append, List.mem_append, not_or] at a
    rw [h₁.dirs, List.mem_append, not_or] at b
    refine ⟨⟨a.1, b.1⟩, ?_⟩
    rw [List.mem_append, not_or]
    exact ⟨a.2, b.2⟩
  refine ⟨?_, ?_, ?_, ?_, ?_, ?_⟩
  · rw [h₂.files, h₁.files, List.append_assoc]
  · rw [h₂.dirs, h₁.dirs, List.append_assoc]
  · intro q hq
    have : q ∈ n₁.map (·.1) ++ d₁ ∨ q ∈ n₂.map (·.1) ++ d₂ := by
      simp only [List.map_append, List.mem_append] at hq ⊢
      rcases hq with (h | h) | (h | h) <;> simp [h]
    rcases this with h | h
    · exact h₁.fresh q h
    · exact (hold q h).1
  · have hperm : (List.map (·.1) (n₁ ++ n₂) ++ (d₁ ++ d₂)).Perm ((n₁.map (·.1) ++ d₁) ++ (n₂.map (·.1) ++ d₂)) := by
      rw [List.map_append, List.append_assoc, List.append_assoc]
      refine List.Perm.append_left _ ?_
      rw [← List.append_assoc, ← List.append_assoc]
      exact List.Perm.append_right _ List.perm_append_comm
    rw [hperm.nodup_iff, List.nodup_append]
    exact ⟨h₁.distinct, h₂.distinct, fun a ha b hb he => (hold b hb).2 (he ▸ ha)⟩
  · intro f hf
    rcases List.mem_append.1 hf with h | h
    · obtain ⟨dir, hd, r⟩ := h₁.fileNames f h
      exact ⟨dir, hsub1 _ hd, r⟩
    · obtain ⟨dir, hd, r⟩ := h₂.fileNames f h
      exact ⟨dir, hsub _ hd, r⟩
  · intro q hq
    rcases List.mem_append.1 hq with h | h
    · obtain ⟨dir, hd, r⟩ := h₁.dirNames q h
      exact ⟨dir, hsub1 _ hd, r⟩
    · obtain ⟨dir, hd, r⟩ := h₂.dirNames q h
      exact ⟨dir, hsub _ hd, r⟩

/-- So many bytes and files were added. -/
def MadeIn (target : List Str) (t t' : Dataset) (c : Nat × Nat) : Prop :=
  ∃ new newDirs, Added target t t' new newDirs ∧ c = (bytesOf new, new.length)

theorem madeIn_none (target : List Str) (t : Dataset) : MadeIn target t t (0, 0) := ⟨[], [], added_none _ _, rfl⟩

theorem bytesOf_append (a b : List (List Str × Str)) : bytesOf (a ++ b) = bytesOf a + bytesOf b := by
  simp [bytesOf]

theorem madeIn_then {target : List Str} {t u t' : Dataset} {c d : Nat × Nat} (h₁ : MadeIn target t u c) (h₂ : MadeIn target u t' d) :
    MadeIn target t t' (c.1 + d.1, c.2 + d.2) := by
  obtain ⟨n₁, d₁, a₁, rfl⟩ := h₁
  obtain ⟨n₂, d₂, a₂, rfl⟩ := h₂
  exact ⟨n₁ ++ n₂, d₁ ++ d₂, added_then a₁ a₂ (by simp), by simp [bytesOf_append]⟩

/-- Whatever the work comes to, things were added, and the bytes and files in the result are those added to `c₀`. -/
def OnlyAdds {α : Type} (target : List Str) (c₀ : Nat × Nat) (g : α → Nat × Nat) (m : Making α) : Prop :=
  m.Ends (fun t o t' => ∃ c, MadeIn target t t' c ∧ ∀ a, o = .ok a → g a = (c₀.1 + c.1, c₀.2 + c.2))

theorem adds_pure {α : Type} {target : List Str} {c₀ : Nat × Nat} {g : α → Nat × Nat} {a : α} (h : g a = c₀) :
    OnlyAdds target c₀ g (.pure a) := by
  intro t draws o t' draws' he
  cases he
  exact ⟨_, madeIn_none _ _, fun a h' => by cases h'; simp [h]⟩

theorem adds_lift {α : Type} {target : List Str} {c₀ : Nat × Nat} (r : Except PyErr α) :
    OnlyAdds target c₀ (fun _ => c₀) (.lift r) := by
  cases r with
  | ok a => exact adds_pure rfl
  | error e =>
    intro t draws o t' draws' he
    cases he
    exact ⟨_, madeIn_none _ _, fun a h' => by cases h'⟩

theorem bind_some {α β : Type} {m : Making α} {f : α → Making β} {t t' : Dataset} {draws draws' : List Nat} {o : Except PyErr β}
    (h : (m.bind f) (t, draws) = some (o, t', draws')) :
    (∃ e, m (t, draws) = some (.error e, t', draws') ∧ o = .error e) ∨
    ∃ a u draws₁, m (t, draws) = some (.ok a, u, draws₁) ∧ f a (u, draws₁) = some (o, t', draws') := by
  unfold Making.bind at h
  rcases hm : m (t, draws) with _ | ⟨_ | a, u, draws₁⟩ <;> rw [hm] at h
  · cases h
  · rename_i e
    injection h with h
    injection h with h1 h2
    injection h2 with h2 h3
    subst h1 h2 h3
    exact .inl ⟨e, rfl, rfl⟩
  · exact .inr ⟨a, u, draws₁, rfl, h⟩

theorem adds_bind {α β : Type} {target : List Str} {c₀ : Nat × Nat} {g : α → Nat × Nat} {h : β → Nat × Nat} {m : Making α}
    {f : α → Making β} (hm : OnlyAdds target c₀ g m) (hf : ∀ a, OnlyAdds target (g a) h (f a)) : OnlyAdds target c₀ h (m.bind f) := by
  intro t draws o t' draws' he
  rcases bind_some he with ⟨e, h1, rfl⟩ | ⟨a, u, draws₁, h1, h2⟩
  · obtain ⟨c, hc, _⟩ := hm _ _ _ _ _ h1
    exact ⟨c, hc, fun a h' => by cases h'⟩
  · obtain ⟨c, hc, hg⟩ := hm _ _ _ _ _ h1
    obtain ⟨d, hd, hh⟩ := hf a _ _ _ _ _ h2
    refine ⟨_, madeIn_then hc hd, fun b hb => ?_⟩
    rw [hh b hb, hg a rfl]
    simp only [Prod.mk.injEq]
    omega

theorem adds_shift {α : Type} {target : List Str} {c₀ : Nat × Nat} {g : α → Nat × Nat} {m : Making α}
    (h : OnlyAdds target (0, 0) g m) : OnlyAdds target c₀ (fun a => (c₀.1 + (g a).1, c₀.2 + (g a).2)) m := by
  intro t draws o t' draws' he
  obtain ⟨c, hc, hg⟩ := h _ _ _ _ _ he
  refine ⟨c, hc, fun a ha => ?_⟩
  dsimp only
  rw [hg a ha]
  simp

theorem mkfilename_some {under : List Str} {name : Nat → Str} {t t' : Dataset} {draws draws' : List Nat}
    {o : Except PyErr (List Str)} (h : mkfilename under name (t, draws) = some (o, t', draws')) :
    ∃ r, o = .ok (under ++ [name r]) ∧ t' = t ∧ t.has (under ++ [name r]) = false := by
  have hgo : ∀ draws, mkfilename.go under name t draws = some (o, t', draws') →
      ∃ r, o = .ok (under ++ [name r]) ∧ t' = t ∧ t.has (under ++ [name r]) = false := by
    intro draws
    induction draws with
    | nil => intro h; cases h
    | cons r draws ih =>
      intro h
      unfold mkfilename.go at h
      split at h
      · exact ih h
      · rename_i hh
        cases h
        exact ⟨r, rfl, rfl, by simpa using hh⟩
  exact hgo _ h

theorem has_false {t : Dataset} {p : List Str} (h : t.has p = false) : p ∉ t.files.map (·.1) ∧ p ∉ t.dirs := by
  unfold Dataset.has at h
  rw [Bool.or_eq_false_iff] at h
  constructor
  · intro hp
    obtain ⟨f, hf, rfl⟩ := List.mem_map.1 hp
    have := List.any_eq_false.1 h.1 f hf
    simp at this
  · intro hp
    rw [List.contains_iff_mem.2 hp] at h
    simp at h

theorem createFile_some {lnFloor : Nat → Nat} (hln : LogLike lnFloor) {size : Nat} {under : List Str} {t t' : Dataset}
    {draws draws' : List Nat} {o : Except PyErr Nat} (h : createFile lnFloor size under (t, draws) = some (o, t', draws')) :
    ∃ n, o = .ok n ∧ (size < 2 ^ 98 → n = size) ∧ MadeIn under t t' (n, 1) := by
  rcases bind_some h with ⟨e, h1, rfl⟩ | ⟨p, u, draws₁, h1, h2⟩
  · obtain ⟨r, h3, _⟩ := mkfilename_some h1
    cases h3
  · obtain ⟨r, h3, rfl, h4⟩ := mkfilename_some h1
    cases h3
    cases h2
    have hsize := C76_create_file lnFloor hln size
    refine ⟨_, rfl, hsize, [(under ++ [hex3 r ++ '_' :: natStr size], fileText lnFloor size)], [],
      ⟨rfl, by simp, ?_, by simp, ?_, by simp⟩, by simp [bytesOf]⟩
    · intro p hp
      simp only [List.map_cons, List.map_nil, List.append_nil, List.mem_singleton] at hp
      subst hp
      exact has_false h4
    · intro f hf
      simp only [List.mem_singleton] at hf
      subst hf
      exact ⟨under, by simp, r, size, rfl, hsize⟩

theorem createDir_some {under : List Str} {t t' : Dataset} {draws draws' : List Nat} {o : Except PyErr (List Str)}
    (h : createDir under (t, draws) = some (o, t', draws')) :
    ∃ p, o = .ok p ∧ Added under t t' [] [p] := by
  rcases bind_some h with ⟨e, h1, rfl⟩ | ⟨p, u, draws₁, h1, h2⟩
  · obtain ⟨r, h3, _⟩ := mkfilename_some h1
    cases h3
  · obtain ⟨r, h3, rfl, h4⟩ := mkfilename_some h1
    cases h3
    cases h2
    refine ⟨_, rfl, by simp, rfl, ?_, by simp, by simp, ?_⟩
    · intro p hp
      simp only [List.map_nil, List.nil_append, List.mem_singleton] at hp
      subst hp
      exact has_false h4
    · intro p hp
      simp only [List.mem_singleton] at hp
      subst hp
      exact ⟨under, by simp, r, rfl⟩

/-- What is added in a new directory is added in the one that it is in. -/
theorem madeIn_inside {p under : List Str} {t u t' : Dataset} {c : Nat × Nat} (h₁ : Added under t u [] [p]) (h₂ : MadeIn p u t' c) :
    MadeIn under t t' c := by
  obtain ⟨n, d, a, rfl⟩ := h₂
  exact ⟨_, _, added_then h₁ a (by simp), by simp⟩

section
variable {lnFloor : Nat → Nat} (hln : LogLike lnFloor)
include hln

theorem adds_createFile (size : Nat) (under : List Str) (c : Nat × Nat) :
    OnlyAdds under c (fun n => (c.1 + n, c.2 + 1)) (createFile lnFloor size under) := by
  intro t draws o t' draws' h
  obtain ⟨n, rfl, _, hg⟩ := createFile_some hln h
  exact ⟨_, hg, fun a ha => by cases ha; rfl⟩

theorem adds_fillFiles (target : List Str) (ms mf : Int) : ∀ (sizes : List Nat) (c : Nat × Nat),
    OnlyAdds target c id (fillFiles lnFloor target ms mf sizes c)
  | [], c => adds_pure rfl
  | sz :: sizes, c => by
    unfold fillFiles
    split
    · exact adds_pure rfl
    · exact adds_bind (adds_createFile hln sz target c) (fun n => adds_fillFiles target ms mf sizes _)

theorem adds_fillSet (target : List Str) (fs : FileSet) : ∀ (n : Nat) (c : Nat × Nat),
    OnlyAdds target c id (fillSet lnFloor target fs n c)
  | 0, c => adds_pure rfl
  | n + 1, c => by
    unfold fillSet
    split
    · exact adds_pure rfl
    · refine adds_bind (adds_lift _) (fun sizes => ?_)
      exact adds_bind (adds_shift (adds_fillFiles hln target _ _ sizes _)) (fun d => adds_fillSet target fs n _)

theorem adds_fillSets (target : List Str) (ts tf : Int) : ∀ (l : List FileSet) (c : Nat × Nat),
    OnlyAdds target c id (fillSets lnFloor target ts tf l c)
  | [], c => adds_pure rfl
  | fs :: l, c => by
    unfold fillSets
    split
    · exact adds_pure rfl
    · exact adds_bind (adds_fillSet hln target fs _ c) (fun d => adds_fillSets target ts tf l d)

omit hln in
theorem adds_fillReps {fill : List Str → Int → Int → DirSpec → Making ((Nat × Nat) × DirSpec)}
    (hfill : ∀ p ts tf d, OnlyAdds p (0, 0) (·.1) (fill p ts tf d)) (target : List Str) (ts tf : Int) :
    ∀ (n : Nat) (d : DirSpec) (c : Nat × Nat), OnlyAdds target c (·.1) (fillReps fill target ts tf n d c)
  | 0, d, c => adds_pure rfl
  | n + 1, d, c => by
    unfold fillReps
    split
    · exact adds_pure rfl
    · intro t draws o t' draws' he
      rcases bind_some he with ⟨e, h1, rfl⟩ | ⟨p, u, draws₁, h1, h2⟩
      · obtain ⟨p, h3, _⟩ := createDir_some h1
        cases h3
      · obtain ⟨p', h3, ha⟩ := createDir_some h1
        cases h3
        rcases bind_some h2 with ⟨e, h4, rfl⟩ | ⟨r, v, draws₂, h4, h5⟩
        · obtain ⟨c', hc, _⟩ := hfill _ _ _ _ _ _ _ _ _ h4
          exact ⟨c', madeIn_inside ha hc, fun a h' => by cases h'⟩
        · obtain ⟨c', hc, hr⟩ := hfill _ _ _ _ _ _ _ _ _ h4
          obtain ⟨d', hd, hg⟩ := adds_fillReps hfill target ts tf n r.2 _ _ _ _ _ _ h5
          refine ⟨_, madeIn_then (madeIn_inside ha hc) hd, fun a h' => ?_⟩
          have hr' : r.1 = _ := hr r rfl
          rw [hg a h', hr']
          simp only [Prod.mk.injEq]
          omega

omit hln in
theorem adds_fillDirs {fill : List Str → Int → Int → DirSpec → Making ((Nat × Nat) × DirSpec)}
    (hfill : ∀ p ts tf d, OnlyAdds p (0, 0) (·.1) (fill p ts tf d)) (target : List Str) (ts tf : Int) :
    ∀ (l : List DirSpec) (c : Nat × Nat), OnlyAdds target c (·.1) (fillDirs fill target ts tf l c)
  | [], c => adds_pure rfl
  | d :: l, c => by
    unfold fillDirs
    split
    · exact adds_pure rfl
    · refine adds_bind (adds_fillReps hfill target ts tf _ d c) (fun r => ?_)
      exact adds_bind (adds_fillDirs hfill target ts tf l r.1) (fun q => adds_pure rfl)

theorem adds_fillDir : ∀ (fuel : Nat) (target : List Str) (ts tf : Int) (d : DirSpec),
    OnlyAdds target (0, 0) (·.1) (fillDir lnFloor fuel target ts tf d)
  | 0, _, _, _, _ => by intro t draws o t' draws' h; cases h
  | fuel + 1, target, ts, tf, d => by
    unfold fillDir
    split
    · exact adds_pure rfl
    · refine adds_bind (adds_lift _) (fun p => ?_)
      refine adds_bind (adds_fillSets hln target ts tf p.1 _) (fun c => ?_)
      refine adds_bind (adds_fillDirs (adds_fillDir fuel) target ts tf p.2 c) (fun q => adds_pure rfl)

theorem adds_makeDataset (parent : Bool) (plan : DirSpec) : OnlyAdds [] (0, 0) id (makeDataset lnFloor parent plan) := by
  have hraise : ∀ e, OnlyAdds [] (0, 0) id (Making.raise e : Making (Nat × Nat)) := by
    intro e t draws o t' draws' h
    cases h
    exact ⟨_, madeIn_none _ _, fun a h' => by cases h'⟩
  unfold makeDataset
  split
  · exact hraise _
  · split
    · exact hraise _
    · exact adds_bind (adds_fillDir hln _ _ _ _ _) (fun r => adds_pure rfl)

end

/-! ## The depth of the plan is enough -/

theorem depths_mem : ∀ {l : List DirSpec} {s : DirSpec}, s ∈ l → s.depth ≤ DirSpec.depths l
  | d :: l, s, h => by
    unfold DirSpec.depths
    rcases List.mem_cons.1 h with rfl | h
    · omega
    · have := depths_mem h
      omega

theorem depths_le : ∀ {l : List DirSpec} {n : Nat}, (∀ s ∈ l, s.depth ≤ n) → DirSpec.depths l ≤ n
  | [], _, _ => by unfold DirSpec.depths; omega
  | d :: l, n, h => by
    unfold DirSpec.depths
    have h1 := h d (by simp)
    have h2 := depths_le (l := l) (fun s hs => h s (List.mem_cons_of_mem _ hs))
    omega

theorem depth_setTotals (a b : Int) (d : DirSpec) : (d.setTotals a b).depth = d.depth := by
  cases d
  simp only [DirSpec.setTotals, DirSpec.depth]

theorem depth_subdirs (d : DirSpec) : DirSpec.depths d.subdirs + 1 ≤ d.depth := by
  rcases d with ⟨_, _, _, _, ds, _ | n⟩
  · simp only [DirSpec.subdirs, DirSpec.number, DirSpec.dirs, DirSpec.depth]
    omega
  · have : DirSpec.depths (List.replicate n DirSpec.empty) ≤ 1 := by
      refine depths_le (fun s hs => ?_)
      rw [(List.mem_replicate.1 hs).2]
      simp [DirSpec.empty, DirSpec.depth, DirSpec.depths]
    simp only [DirSpec.subdirs, DirSpec.number, DirSpec.depth, Option.isSome_some, if_true]
    omega

theorem depth_worked (d : DirSpec) (fs : List FileSet) (ds : List DirSpec) (h : DirSpec.depths ds ≤ DirSpec.depths d.subdirs) :
    (d.worked fs ds).depth ≤ d.depth := by
  rcases d with ⟨_, _, _, _, ds₀, _ | n⟩
  · simp only [DirSpec.subdirs, DirSpec.number, DirSpec.dirs, DirSpec.worked, DirSpec.depth, Option.isSome_none, Bool.false_eq_true,
      if_false] at h ⊢
    omega
  · simp [DirSpec.worked, DirSpec.number, DirSpec.dirs, DirSpec.depth]

theorem distribute_depth {ts tf : Int} {l : List FileSet} {m : List DirSpec} {p : List FileSet × List DirSpec}
    (h : distribute ts tf l m = .ok p) : DirSpec.depths p.2 ≤ DirSpec.depths m := by
  unfold distribute at h
  split at h
  · cases h
  · split at h
    · cases h
    · dsimp only at h
      split at h
      · cases h
      · split at h
        · cases h
        · cases h
          refine depths_le (fun s hs => ?_)
          obtain ⟨c, hc, rfl⟩ := List.mem_map.1 hs
          rw [depth_setTotals]
          exact depths_mem (List.of_mem_zip hc).1

theorem bind_congr {α β : Type} {m : Making α} {f g : α → Making β} {t : Dataset} {draws : List Nat}
    (h : ∀ a u draws', m (t, draws) = some (.ok a, u, draws') → f a (u, draws') = g a (u, draws')) :
    (m.bind f) (t, draws) = (m.bind g) (t, draws) := by
  unfold Making.bind
  rcases hm : m (t, draws) with _ | ⟨_ | a, u, draws'⟩
  · rfl
  · rfl
  · exact h a u draws' hm

section
variable {fill fill' : List Str → Int → Int → DirSpec → Making ((Nat × Nat) × DirSpec)}

theorem fillReps_depth {k : Nat}
    (hdep : ∀ p ts tf d, d.depth ≤ k → (fill p ts tf d).Ends (fun _ o _ => ∀ r, o = .ok r → r.2.depth ≤ d.depth))
    (heq : ∀ p ts tf d s, d.depth ≤ k → fill' p ts tf d s = fill p ts tf d s) (target : List Str) (ts tf : Int) :
    ∀ (n : Nat) (d : DirSpec) (c : Nat × Nat), d.depth ≤ k →
      (∀ s, fillReps fill' target ts tf n d c s = fillReps fill target ts tf n d c s) ∧
      (fillReps fill target ts tf n d c).Ends (fun _ o _ => ∀ r, o = .ok r → r.2.depth ≤ d.depth)
  | 0, d, c, _ => by
    refine ⟨fun s => rfl, ?_⟩
    intro t draws o t' draws' h r hr
    cases h
    cases hr
    exact Nat.le_refl _
  | n + 1, d, c, hd => by
    unfold fillReps
    split
    · refine ⟨fun s => rfl, ?_⟩
      intro t draws o t' draws' h r hr
      cases h
      cases hr
      exact Nat.le_refl _
    · constructor
      · intro s
        refine bind_congr (fun p u draws₁ _ => ?_)
        unfold Making.bind
        rw [heq _ _ _ _ _ hd]
        rcases hm : fill p (d.totalsize.getD 0) (d.totalfiles.getD 0) d (u, draws₁) with _ | ⟨_ | a, v, draws₂⟩
        · rfl
        · rfl
        · have := hdep _ _ _ _ hd _ _ _ _ _ hm a rfl
          exact (fillReps_depth hdep heq target ts tf n a.2 _ (by omega)).1 _
      · intro t draws o t' draws' h r hr
        rcases bind_some h with ⟨e, _, rfl⟩ | ⟨p, u, draws₁, _, h5⟩
        · cases hr
        · rcases bind_some h5 with ⟨e, _, rfl⟩ | ⟨a, v, draws₂, h6, h7⟩
          · cases hr
          · have h8 := hdep _ _ _ _ hd _ _ _ _ _ h6 a rfl
            have h9 := (fillReps_depth hdep heq target ts tf n a.2 _ (by omega)).2 _ _ _ _ _ h7 r hr
            omega

theorem fillDirs_depth {k : Nat}
    (hdep : ∀ p ts tf d, d.depth ≤ k → (fill p ts tf d).Ends (fun _ o _ => ∀ r, o = .ok r → r.2.depth ≤ d.depth))
    (heq : ∀ p ts tf d s, d.depth ≤ k → fill' p ts tf d s = fill p ts tf d s) (target : List Str) (ts tf : Int) :
    ∀ (l : List DirSpec) (c : Nat × Nat), DirSpec.depths l ≤ k →
      (∀ s, fillDirs fill' target ts tf l c s = fillDirs fill target ts tf l c s) ∧
      (fillDirs fill target ts tf l c).Ends (fun _ o _ => ∀ r, o = .ok r → DirSpec.depths r.2 ≤ DirSpec.depths l)
  | [], c, _ => by
    refine ⟨fun s => rfl, ?_⟩
    intro t draws o t' draws' h r hr
    cases h
    cases hr
    exact Nat.le_refl _
  | d :: l, c, hd => by
    have hd' : d.depth ≤ k ∧ DirSpec.depths l ≤ k := by
      unfold DirSpec.depths at hd
      omega
    unfold fillDirs
    split
    · refine ⟨fun s => rfl, ?_⟩
      intro t draws o t' draws' h r hr
      cases h
      cases hr
      exact Nat.le_refl _
    · have hR := fillReps_depth hdep heq target ts tf d.reps d c hd'.1
      constructor
      · intro s
        unfold Making.bind
        rw [hR.1]
        rcases hm : fillReps fill target ts tf d.reps d c s with _ | ⟨_ | a, v, draws₂⟩
        · rfl
        · rfl
        · dsimp only
          rw [(fillDirs_depth hdep heq target ts tf l a.1 hd'.2).1]
      · intro t draws o t' draws' h r hr
        rcases bind_some h with ⟨e, _, rfl⟩ | ⟨a, u, draws₁, h4, h5⟩
        · cases hr
        · rcases bind_some h5 with ⟨e, _, rfl⟩ | ⟨q, v, draws₂, h6, h7⟩
          · cases hr
          · cases h7
            cases hr
            have h8 := hR.2 _ _ _ _ _ h4 a rfl
            have h9 := (fillDirs_depth hdep heq target ts tf l a.1 hd'.2).2 _ _ _ _ _ h6 q rfl
            unfold DirSpec.depths
            omega
end

theorem fillDir_depth (lnFloor : Nat → Nat) : ∀ (fuel : Nat) (target : List Str) (ts tf : Int) (d : DirSpec), d.depth ≤ fuel →
    (∀ s, fillDir lnFloor (fuel + 1) target ts tf d s = fillDir lnFloor fuel target ts tf d s) ∧
    (fillDir lnFloor fuel target ts tf d).Ends (fun _ o _ => ∀ r, o = .ok r → r.2.depth ≤ d.depth)
  | 0, _, _, _, d, h => by
    have := depth_subdirs d
    omega
  | fuel + 1, target, ts, tf, d, h => by
    have hsub := depth_subdirs d
    have hD : ∀ (p : List FileSet × List DirSpec) (c : Nat × Nat), distribute ts tf (d.files.getD []) d.subdirs = .ok p →
        _ := fun p c hp => fillDirs_depth (k := fuel) (fill := fillDir lnFloor fuel) (fill' := fillDir lnFloor (fuel + 1))
          (fun p ts tf d hd => (fillDir_depth lnFloor fuel p ts tf d hd).2)
          (fun p ts tf d s hd => (fillDir_depth lnFloor fuel p ts tf d hd).1 s) target ts tf p.2 c
          (by have := distribute_depth hp; omega)
    rw [show fillDir lnFloor (fuel + 1 + 1) target ts tf d = _ from by unfold fillDir; rfl,
      show fillDir lnFloor (fuel + 1) target ts tf d = _ from by unfold fillDir; rfl]
    by_cases h0 : ts ≤ 0 ∨ tf ≤ 0
    · rw [if_pos h0, if_pos h0]
      refine ⟨fun s => rfl, ?_⟩
      intro t draws o t' draws' h r hr
      cases h
      cases hr
      exact Nat.le_refl _
    · rw [if_neg h0, if_neg h0]
      rcases hp : distribute ts tf (d.files.getD []) d.subdirs with e | p
      · refine ⟨fun s => rfl, ?_⟩
        intro t draws o t' draws' h r hr
        cases h
        cases hr
      · constructor
        · intro s
          refine bind_congr (fun p' u draws₁ hp' => ?_)
          cases hp'
          refine bind_congr (fun c v draws₂ _ => ?_)
          unfold Making.bind
          rw [(hD p c hp).1]
        · intro t draws o t' draws' h r hr
          rcases bind_some h with ⟨e, _, rfl⟩ | ⟨p', u, draws₁, h4, h5⟩
          · cases hr
          · cases h4
            rcases bind_some h5 with ⟨e, _, rfl⟩ | ⟨c, v, draws₂, _, h7⟩
            · cases hr
            · rcases bind_some h7 with ⟨e, _, rfl⟩ | ⟨q, w, draws₃, h8, h9⟩
              · cases hr
              · cases h9
                cases hr
                have h10 := (hD p c hp).2 _ _ _ _ _ h8 q rfl
                have h11 := distribute_depth hp
                exact depth_worked d _ _ (by omega)

/-- The bound on the depth of the recursion has no effect once it is that of the plan. -/
theorem fillDir_fuel (lnFloor : Nat → Nat) (target : List Str) (ts tf : Int) (d : DirSpec) (n : Nat) :
    fillDir lnFloor (d.depth + n) target ts tf d = fillDir lnFloor d.depth target ts tf d := by
  induction n with
  | zero => rfl
  | succ n ih =>
    rw [← ih]
    funext s
    exact (fillDir_depth lnFloor (d.depth + n) target ts tf d (by omega)).1 s

end Verif
