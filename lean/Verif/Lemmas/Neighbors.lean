import Verif.Lemmas.Plan
/-!
# How the neighborly splitter goes through directories
-/

namespace Verif

open Spec

/-- The directory of an entry of a plan, as the splitter sees it. -/
def dk (p : Str) : Str := dirPart ('/' :: p)

def Grouped (l : List Str) : Prop :=
  ∀ a b c x y, l = a ++ x :: b ++ y :: c → dk x = dk y → ∀ z ∈ b, dk z = dk x

def KeptOut (max : Int) (sz : Str → Nat) (l : List Str) (g : Str) : Prop :=
  ∀ a x b, l = a ++ x :: b → (∃ y ∈ a, dk y = dk g) → dk x ≠ dk g → (((a.map sz).sum + sz g : Nat) : Int) > max

theorem selectFromDir_parts {max target : Int} (dir : Str) (fs : List FInfo) (i : Nat) (m : Manifest) :
    (∃ new, (selectFromDir max target dir fs i m).2.1.contents = m.contents ++ new ∧
      ∀ p ∈ new, ∃ f ∈ fs, p = f.path.drop 1 ∧ dirPart f.path = dir) ∧
    (selectFromDir max target dir fs i m).1.Sublist fs := by
  fun_induction selectFromDir max target dir fs i m with
  | case1 fs i m hi f hd _ _ =>
    exact ⟨⟨[f.path.drop 1], rfl, fun p hp => ⟨f, List.getElem_mem hi, List.mem_singleton.1 hp, hd.symm⟩⟩, List.eraseIdx_sublist _ _⟩
  | case2 fs i m hi f hd _ _ ih => exact ih
  | case3 fs i m hi f hd _ _ =>
    exact ⟨⟨[f.path.drop 1], rfl, fun p hp => ⟨f, List.getElem_mem hi, List.mem_singleton.1 hp, hd.symm⟩⟩, List.eraseIdx_sublist _ _⟩
  | case4 fs i m hi f hd _ _ ih =>
    obtain ⟨⟨new, h1, h2⟩, h3⟩ := ih
    refine ⟨⟨f.path.drop 1 :: new, ?_, ?_⟩, h3.trans (List.eraseIdx_sublist _ _)⟩
    · rw [h1]; simp [Manifest.add]
    · intro p hp
      rcases List.mem_cons.1 hp with rfl | hp
      · exact ⟨f, List.getElem_mem hi, rfl, hd.symm⟩
      · obtain ⟨g, hg, e⟩ := h2 p hp
        exact ⟨g, (List.eraseIdx_sublist _ _).subset hg, e⟩
  | case5 fs i m hi f hd ih => exact ih
  | case6 fs i m hi => exact ⟨⟨[], by simp, by simp⟩, List.Sublist.refl _⟩

/-- The first file is taken. -/
theorem selectFromDir_first {max target : Int} (f : FInfo) (fs : List FInfo) :
    ∃ new, (selectFromDir max target (dirPart f.path) (f :: fs) 0 {}).2.1.contents = f.path.drop 1 :: new := by
  rw [selectFromDir, dif_pos (by simp)]
  simp only [List.getElem_cons_zero, if_true]
  split
  · exact ⟨[], rfl⟩
  · split
    · exact ⟨[], rfl⟩
    · obtain ⟨⟨new, h, _⟩, _⟩ := selectFromDir_parts (max := max) (target := target) (dirPart f.path) ((f :: fs).eraseIdx 0) 0 (Manifest.add {} f)
      exact ⟨new, by rw [h]; rfl⟩

theorem grouped_append {l new : List Str} {d : Str} {done : List Str} (h : Grouped l) (hl : ∀ p ∈ l, dk p ∈ done)
    (hd : d ∉ done) (hn : ∀ p ∈ new, dk p = d) : Grouped (l ++ new) := by
  intro a b c x y e hxy z hz
  rw [List.append_assoc] at e
  rcases List.append_eq_append_iff.1 e with ⟨s, rfl, e2⟩ | ⟨s, rfl, e2⟩
  · -- everything from `s` on is new
    have hx : x ∈ new := by rw [e2]; simp
    have hz' : z ∈ new := by rw [e2]; simp [hz]
    rw [hn x hx, hn z hz']
  · -- `x` is old or new
    cases s with
    | nil =>
      have hx : x ∈ new := by simp only [List.nil_append] at e2; rw [← e2]; simp
      have hz' : z ∈ new := by simp only [List.nil_append] at e2; rw [← e2]; simp [hz]
      rw [hn x hx, hn z hz']
    | cons x' s =>
      simp only [List.cons_append, List.cons.injEq] at e2
      obtain ⟨rfl, e2⟩ := e2
      rcases List.append_eq_append_iff.1 e2 with ⟨u, hu, e3⟩ | ⟨u, hu, e3⟩
      · cases u with
        | nil =>
          -- `y` is new
          exfalso
          have hy : y ∈ new := by simp only [List.nil_append] at e3; rw [← e3]; simp
          exact hd (hn y hy ▸ hxy ▸ hl x (by simp))
        | cons y' u =>
          simp only [List.cons_append, List.cons.injEq] at e3
          obtain ⟨rfl, e3⟩ := e3
          exact h a b u x y (by rw [hu]; simp) hxy z hz
      · exfalso
        have hy : y ∈ new := by rw [e3]; simp
        exact hd (hn y hy ▸ hxy ▸ hl x (by simp))

theorem keptOut_append {max : Int} {sz : Str → Nat} {l new : List Str} {d : Str} {done : List Str} {g : Str} (h : KeptOut max sz l g)
    (hl : ∀ p ∈ l, dk p ∈ done) (hn : ∀ p ∈ new, dk p = d)
    (hg : dk g ∈ done → (((l.map sz).sum + sz g : Nat) : Int) > max) : KeptOut max sz (l ++ new) g := by
  intro a x b e hy hx
  rcases List.append_eq_append_iff.1 e with ⟨s, rfl, e2⟩ | ⟨s, rfl, e2⟩
  · -- `x` is new
    have hxd : dk x = d := hn x (by rw [e2]; simp)
    obtain ⟨y, hy, hyg⟩ := hy
    have hyl : y ∈ l := by
      rcases List.mem_append.1 hy with h1 | h1
      · exact h1
      · exact absurd (hxd.trans ((hn y (by rw [e2]; simp [h1])).symm.trans hyg)) hx
    have := hg (hyg ▸ hl y hyl)
    simp only [List.map_append, List.sum_append]
    omega
  · cases s with
    | nil =>
      simp only [List.nil_append] at e2
      have hxd : dk x = d := hn x (by rw [← e2]; simp)
      obtain ⟨y, hy, hyg⟩ := hy
      have := hg (hyg ▸ hl y (by simpa using hy))
      simpa using this
    | cons x' s =>
      simp only [List.cons_append, List.cons.injEq] at e2
      obtain ⟨rfl, e2⟩ := e2
      exact h a x s rfl hy hx

/-- A bag that the neighborly splitter makes. -/
structure NearBag (max : Int) (sz : Str → Nat) (m : Manifest) (rest : List Str) : Prop where
  grouped : Grouped m.contents
  kept : ∀ g ∈ rest, KeptOut max sz m.contents g

theorem nbFill_near {max target : Int} {sz : Str → Nat} {all : List Str} {out : List Manifest} (ds : List Str) (done : List Str)
    (hnd : (done ++ ds).Nodup)
    (fs : List FInfo) (m : Manifest) (h : Packed max target sz all fs m out)
    (hstart : m.contents = [] → fs ≠ [] ∧ ∃ d, ds.head? = some d ∧ ∀ h : 0 < fs.length, d = dirPart fs[0].path)
    (hslash : ∀ f ∈ fs, f.path = '/' :: f.path.drop 1)
    (hdone : ∀ p ∈ m.contents, dk p ∈ done)
    (hpassed : ∀ f ∈ fs, dirPart f.path ∈ done → ((m.total + f.size : Nat) : Int) > max)
    (hnear : NearBag max sz m (fs.map (fun f => f.path.drop 1))) :
    NearBag max sz (nbFill max target ds fs m).2 ((nbFill max target ds fs m).1.map (fun f => f.path.drop 1)) ∧
      (nbFill max target ds fs m).1.Sublist fs ∧ m.contents <+: (nbFill max target ds fs m).2.contents := by
  induction ds generalizing fs m done with
  | nil => exact ⟨hnear, List.Sublist.refl _, List.prefix_refl _⟩
  | cons d ds ih =>
    have hs := selectFromDir_packed (max := max) (target := target) d fs 0 m h
      (by
        intro e
        obtain ⟨_, d', hd, h2⟩ := hstart e
        injection hd with hd
        subst hd
        exact ⟨rfl, h2⟩) (fun j _ hj => absurd hj (by omega))
    obtain ⟨⟨new, e1, e2⟩, e3⟩ := selectFromDir_parts (max := max) (target := target) d fs 0 m
    have hd : d ∉ done := fun hm => (List.nodup_append.1 hnd).2.2 d hm d (by simp) rfl
    have hnew : ∀ p ∈ new, dk p = d := by
      intro p hp
      obtain ⟨f, hf, rfl, e⟩ := e2 p hp
      unfold dk
      rw [← hslash f hf, e]
    have hdk : ∀ f ∈ fs, dk (f.path.drop 1) = dirPart f.path := by
      intro f hf
      unfold dk
      rw [← hslash f hf]
    have hsum : m.total = (m.contents.map sz).sum := h.total
    have near1 : NearBag max sz (selectFromDir max target d fs 0 m).2.1
        ((selectFromDir max target d fs 0 m).1.map (fun f => f.path.drop 1)) := by
      constructor
      · rw [e1]; exact grouped_append hnear.grouped hdone hd hnew
      · intro g hg
        obtain ⟨f, hf, rfl⟩ := List.mem_map.1 hg
        have hf := e3.subset hf
        rw [e1]
        refine keptOut_append (hnear.kept _ (List.mem_map.2 ⟨f, hf, rfl⟩)) hdone hnew ?_
        intro hdg
        rw [hdk f hf] at hdg
        have := hpassed f hf hdg
        rw [h.sizes f hf, ← hsum]
        exact this
    have hpre : m.contents <+: (selectFromDir max target d fs 0 m).2.1.contents := by rw [e1]; exact List.prefix_append _ _
    simp only [nbFill]
    revert hs near1 e1 e3 hpre
    generalize selectFromDir max target d fs 0 m = r
    intro hs e3 e1 near1 hpre
    unfold Selected1 at hs
    split at hs
    · next hfull => rw [if_pos hfull]; exact ⟨near1, e3, hpre⟩
    · next hfull =>
      rw [if_neg hfull]
      obtain ⟨a, b, c, e, g, _⟩ := hs
      have hne : r.2.1.contents ≠ [] := by
        by_cases e' : m.contents = []
        · exact c (hstart e').1 e'
        · exact e e'
      obtain ⟨k1, k2, k3⟩ := ih (done ++ [d]) (by simpa using hnd) r.1 r.2.1 a (fun e' => absurd e' hne) (fun f hf => hslash f (e3.subset hf))
        (by
          intro p hp
          rw [e1] at hp
          rcases List.mem_append.1 hp with hp | hp
          · exact List.mem_append_left _ (hdone p hp)
          · exact List.mem_append_right _ (by simp [hnew p hp]))
        (by
          intro f hf hdf
          rcases List.mem_append.1 hdf with hdf | hdf
          · have := hpassed f (e3.subset hf) hdf
            omega
          · exact b f hf (by simpa using hdf)) near1
      exact ⟨k1, k2.trans e3, hpre.trans k3⟩

/-! ## The list of directories has no repetitions -/

theorem uniqLoop_spec (l : List Str) (x : Str) (acc : List Str) (hs : (l ++ [x]).Pairwise (fun a b => strLe a b = true))
    (hacc : acc.Nodup) (hdis : ∀ a ∈ acc, strLe a x = true ∧ ∀ y ∈ l ++ [x], a ≠ y) :
    (uniqLoop l.length (l ++ x :: acc)).Nodup := by
  induction l generalizing acc with
  | nil =>
    simp only [List.length_nil, uniqLoop, List.nil_append]
    exact List.nodup_cons.2 ⟨fun hm => (hdis x hm).2 x (by simp) rfl, hacc⟩
  | cons d l ih =>
    simp only [List.length_cons, List.cons_append, uniqLoop]
    have hs' : (l ++ [x]).Pairwise (fun a b => strLe a b = true) := (List.pairwise_cons.1 hs).2
    have hdle := (List.pairwise_cons.1 hs).1
    by_cases hh : (l ++ x :: acc).head? = some d
    · rw [if_neg (by simp [hh])]
      exact ih acc hs' hacc (fun a ha => ⟨(hdis a ha).1, fun y hy => (hdis a ha).2 y (by simp only [List.cons_append, List.mem_cons]; exact .inr hy)⟩)
    · rw [if_pos hh, List.append_assoc, List.cons_append]
      have hdn : ∀ y ∈ l ++ [x], d ≠ y := by
        intro y hy e
        subst e
        -- the first of the rest is between the two
        cases l with
        | nil =>
          simp only [List.nil_append, List.mem_singleton] at hy
          subst hy
          exact hh rfl
        | cons c l =>
          have h1 := hdle c (by simp)
          simp only [List.cons_append, List.mem_cons] at hy
          rcases hy with rfl | hy
          · exact hh rfl
          · have h2 := (List.pairwise_cons.1 hs').1 d hy
            apply hh
            simp only [List.cons_append, List.head?_cons, Option.some.injEq]
            unfold strLe at h1 h2
            exact strLt_total (by simpa using h1) (by simpa using h2)
      refine ih (acc ++ [d]) hs' ?_ ?_
      · rw [List.nodup_append]
        refine ⟨hacc, by simp, ?_⟩
        intro a ha b hb
        rw [List.mem_singleton] at hb
        subst hb
        exact (hdis a ha).2 b (by simp)
      · intro a ha
        rcases List.mem_append.1 ha with ha | ha
        · exact ⟨(hdis a ha).1, fun y hy => (hdis a ha).2 y (by simp only [List.cons_append, List.mem_cons]; exact .inr hy)⟩
        · rw [List.mem_singleton] at ha
          subst ha
          exact ⟨hdle x (by simp), hdn⟩

theorem nodup_dirpathsFor (fs : List FInfo) : (dirpathsFor fs).Nodup := by
  cases fs with
  | nil => simp [dirpathsFor]
  | cons f fs =>
    simp only [dirpathsFor]
    generalize hl : ((f :: fs).map (fun f => dirPart f.path)).mergeSort strLe = l
    have hs : l.Pairwise (fun a b => strLe a b = true) := by
      rw [← hl]
      exact List.pairwise_mergeSort strLe_trans strLe_total _
    have hne : l ≠ [] := by
      intro e
      rw [e] at hl
      have := congrArg List.length hl
      simp at this
    obtain ⟨l', x, rfl⟩ : ∃ l' x, l = l' ++ [x] := ⟨_, _, (List.dropLast_concat_getLast hne).symm⟩
    have hu := uniqLoop_spec l' x [] hs (by simp) (by simp)
    rw [show (l' ++ [x]).length - 1 = l'.length by simp]
    generalize uniqLoop l'.length (l' ++ [x]) = u at hu
    generalize u.idxOf (dirPart f.path) = i
    have hp : (u.drop i ++ u.take i).Perm u := by
      have := List.perm_append_comm (l₁ := u.drop i) (l₂ := u.take i)
      rwa [List.take_append_drop] at this
    exact hp.nodup_iff.2 hu

/-- The bags that have been made, and what is left. -/
def NearBags (max : Int) (sz : Str → Nat) : List Manifest → List Str → Prop
  | [], _ => True
  | m :: ms, rest => Grouped m.contents ∧ (∀ g ∈ contentsOf ms ++ rest, KeptOut max sz m.contents g) ∧
      (∃ p, m.contents.head? = some p ∧ ∀ g ∈ contentsOf ms ++ rest, sz g ≤ sz p) ∧ NearBags max sz ms rest

theorem nearBags_snoc {max : Int} {sz : Str → Nat} {ms : List Manifest} {m : Manifest} {rest rest' : List Str}
    (h : NearBags max sz ms rest) (hsub : ∀ g ∈ m.contents ++ rest', g ∈ rest) (hg : Grouped m.contents)
    (hk : ∀ g ∈ rest', KeptOut max sz m.contents g) (hf : ∃ p, m.contents.head? = some p ∧ ∀ g ∈ rest', sz g ≤ sz p) :
    NearBags max sz (ms ++ [m]) rest' := by
  induction ms with
  | nil => exact ⟨hg, by simpa [contentsOf] using hk, by simpa [contentsOf] using hf, trivial⟩
  | cons a ms ih =>
    obtain ⟨h1, h2, ⟨p, h3, h4⟩, h5⟩ := h
    have hmem : ∀ g ∈ contentsOf (ms ++ [m]) ++ rest', g ∈ contentsOf ms ++ rest := by
      intro g hg
      rw [contentsOf_append] at hg
      rcases List.mem_append.1 hg with hg | hg
      · rcases List.mem_append.1 hg with hg | hg
        · exact List.mem_append_left _ hg
        · exact List.mem_append_right _ (hsub g (List.mem_append_left _ (by simpa [contentsOf] using hg)))
      · exact List.mem_append_right _ (hsub g (List.mem_append_right _ hg))
    exact ⟨h1, fun g hg => h2 g (hmem g hg), ⟨p, h3, fun g hg => h4 g (hmem g hg)⟩, ih h5⟩

theorem nbLoop_near {max target : Int} {sz : Str → Nat} {all : List Str} (fs : List FInfo) (out : List Manifest)
    (h : Packed max target sz all fs {} out) (hslash : ∀ f ∈ fs, f.path = '/' :: f.path.drop 1)
    (hn : NearBags max sz out (fs.map (fun f => f.path.drop 1))) : NearBags max sz (nbLoop max target fs out) [] := by
  fun_induction nbLoop max target fs out with
  | case1 out => exact hn
  | case2 fs out hne r ih =>
    have hstart : (({} : Manifest).contents = []) → fs ≠ [] ∧ ∃ d, (dirpathsFor fs).head? = some d ∧ ∀ h : 0 < fs.length, d = dirPart fs[0].path := by
      intro _
      refine ⟨hne, ?_⟩
      cases fs with
      | nil => exact absurd rfl hne
      | cons f fs => exact ⟨_, dirpathsFor_head f fs, fun _ => rfl⟩
    have hp := nbFill_packed _ _ _ h hstart (fun f hf => .inl ((mem_dirpathsFor _ _).2 ⟨f, hf, rfl⟩))
    obtain ⟨k1, k2, _⟩ := nbFill_near (dirpathsFor fs) [] (by simpa using nodup_dirpathsFor fs) fs {} h hstart hslash (by simp) (by simp)
      ⟨fun a b c x y e => by simp at e, fun _ _ a x b e => by simp at e⟩
    have hperm : (r.2.contents ++ r.1.map (fun f => f.path.drop 1)).Perm (fs.map (fun f => f.path.drop 1)) := by
      have h1 := hp.perm
      have h2 := h.perm
      simp only [contentsOf_append, List.append_nil] at h1 h2
      have h3 := h1.trans h2.symm
      rw [List.append_assoc] at h3
      have h4 := (List.perm_append_left_iff _).1 h3
      simpa [contentsOf] using h4
    have hfirst : ∃ p, r.2.contents.head? = some p ∧ ∀ g ∈ r.1.map (fun f => f.path.drop 1), sz g ≤ sz p := by
      cases fs with
      | nil => exact absurd rfl hne
      | cons f fs =>
        refine ⟨f.path.drop 1, ?_, ?_⟩
        · have hh := dirpathsFor_head f fs
          cases hd : dirpathsFor (f :: fs) with
          | nil => rw [hd] at hh; cases hh
          | cons d ds =>
            rw [hd] at hh
            cases hh
            obtain ⟨new, hnew⟩ := selectFromDir_first (max := max) (target := target) f fs
            simp only [r, hd, nbFill]
            split
            · simp only [hnew]; rfl
            · have hnd := nodup_dirpathsFor (f :: fs)
              rw [hd] at hnd
              have hs := selectFromDir_packed (max := max) (target := target) (dirPart f.path) (f :: fs) 0 {} h
                (fun _ => ⟨rfl, fun _ => rfl⟩) (fun j _ hj => absurd hj (by omega))
              next hfull =>
              unfold Selected1 at hs
              rw [if_neg hfull] at hs
              have hpre : ∀ (ds : List Str) (fs : List FInfo) (m : Manifest), m.contents <+: (nbFill max target ds fs m).2.contents := by
                intro ds
                induction ds with
                | nil => exact fun _ _ => List.prefix_refl _
                | cons d ds ih =>
                  intro fs m
                  obtain ⟨⟨new, e, _⟩, _⟩ := selectFromDir_parts (max := max) (target := target) d fs 0 m
                  simp only [nbFill]
                  split
                  · simp only [e]; exact List.prefix_append _ _
                  · refine List.IsPrefix.trans ?_ (ih _ _)
                    rw [e]; exact List.prefix_append _ _
              obtain ⟨s, hs'⟩ := hpre ds (selectFromDir max target (dirPart f.path) (f :: fs) 0 {}).1 (selectFromDir max target (dirPart f.path) (f :: fs) 0 {}).2.1
              rw [← hs', hnew]; rfl
        · intro g hg
          obtain ⟨x, hx, rfl⟩ := List.mem_map.1 hg
          have hx := k2.subset hx
          rw [h.sizes x hx, h.sizes f (by simp)]
          rcases List.mem_cons.1 hx with rfl | hx
          · exact Nat.le_refl _
          · exact (List.pairwise_cons.1 h.sorted).1 x hx
    exact ih hp (fun f hf => hslash f (k2.subset hf)) (nearBags_snoc hn (fun g hg => hperm.subset hg) k1.grouped k1.kept hfirst)

theorem nbRun_near {max target : Int} {sz : Str → Nat} {fs : List FInfo}
    (hs : fs.Pairwise (fun a b => b.size ≤ a.size)) (hz : ∀ f ∈ fs, sz (f.path.drop 1) = f.size)
    (hslash : ∀ f ∈ fs, f.path = '/' :: f.path.drop 1) : NearBags max sz (nbRun max target fs) [] :=
  nbLoop_near fs [] (packed_start hs hz) hslash trivial

end Verif
