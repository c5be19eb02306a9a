import Verif.Lemmas.MkShare
/-!
# Plans that suit are carried out exactly
-/

namespace Verif

open Spec

/-! ## The plan after it has been carried out -/

theorem claims_append : ∀ a b : List (Option Int × Nat), claims (a ++ b) = claims a + claims b
  | [], b => by simp [claims]
  | (none, _) :: a, b => by simp only [List.cons_append, claims, claims_append a b]
  | (some t, r) :: a, b => by simp only [List.cons_append, claims, claims_append a b]; omega

theorem unclaimed_append (a b : List (Option Int × Nat)) : unclaimed (a ++ b) = unclaimed a + unclaimed b := by
  simp [unclaimed]

theorem claims_sets : ∀ {l : List FileSet}, (∀ f ∈ l, ∃ a b, Exact f a b) →
    claims (l.map (fun f => ((says f).map (·.1), f.reps))) = setBytes l ∧ unclaimed (l.map (fun f => ((says f).map (·.1), f.reps))) = 0 ∧
    claims (l.map (fun f => ((says f).map (·.2), f.reps))) = setFiles l ∧ unclaimed (l.map (fun f => ((says f).map (·.2), f.reps))) = 0
  | [], _ => ⟨rfl, rfl, rfl, rfl⟩
  | f :: l, h => by
    obtain ⟨h1, h2, h3, h4⟩ := claims_sets (l := l) (fun g hg => h g (List.mem_cons_of_mem _ hg))
    obtain ⟨a, b, e1, e2, e3, _⟩ := h f (by simp)
    refine ⟨?_, ?_, ?_, ?_⟩
    · simp only [List.map_cons, e3, Option.map_some, claims, h1, setBytes, List.sum_cons, e1, Option.getD_some]
    · simpa [e3, unclaimed] using h2
    · simp only [List.map_cons, e3, Option.map_some, claims, h3, setFiles, List.sum_cons, e2, Option.getD_some]
    · simpa [e3, unclaimed] using h4

/-- A directive for a directory, as it was and after the directory has been filled. -/
def Same (s s' : DirSpec) : Prop :=
  s'.totalsize = s.totalsize ∧ s'.totalfiles = s.totalfiles ∧ s'.reps = s.reps ∧ dirsOf s' = dirsOf s

theorem same_refl (s : DirSpec) : Same s s := ⟨rfl, rfl, rfl, rfl⟩

theorem same_trans {s s' s'' : DirSpec} (h : Same s s') (h' : Same s' s'') : Same s s'' :=
  ⟨h'.1.trans h.1, h'.2.1.trans h.2.1, h'.2.2.1.trans h.2.2.1, h'.2.2.2.trans h.2.2.2⟩

theorem dirsOf_setTotals (a b : Int) : ∀ s : DirSpec, dirsOf (s.setTotals a b) = dirsOf s
  | .mk _ _ _ _ _ none => by simp only [DirSpec.setTotals, dirsOf]
  | .mk _ _ _ _ _ (some _) => by simp only [DirSpec.setTotals, dirsOf]

theorem dirsOfAll_same : ∀ {l l' : List DirSpec}, Forall₂ Same l l' → dirsOfAll l' = dirsOfAll l
  | [], _, .nil => rfl
  | _ :: _, _, .cons h hl => by
    unfold dirsOfAll
    rw [dirsOfAll_same hl, h.2.2.1, h.2.2.2]

theorem dirsOf_empty : dirsOf DirSpec.empty = 0 := by simp [DirSpec.empty, dirsOf, dirsOfAll]

theorem dirsOfAll_empties : ∀ n : Nat, dirsOfAll (List.replicate n DirSpec.empty) = n
  | 0 => rfl
  | n + 1 => by
    have h : DirSpec.reps DirSpec.empty = 1 := rfl
    rw [List.replicate_succ, dirsOfAll, dirsOf_empty, dirsOfAll_empties n, h]
    omega

theorem dirsOf_subdirs : ∀ d : DirSpec, dirsOf d = dirsOfAll d.subdirs
  | .mk _ _ _ _ _ none => by simp only [DirSpec.subdirs, DirSpec.number, DirSpec.dirs, dirsOf]
  | .mk a b c e f (some n) => by
    have : DirSpec.subdirs (.mk a b c e f (some n)) = List.replicate n .empty := rfl
    rw [this, dirsOfAll_empties, dirsOf]

theorem dirsOfAll_setTotals {P : DirSpec → Int → Int → Prop} : ∀ {l l' : List DirSpec},
    Forall₂ (fun s s' => ∃ a b, s' = s.setTotals a b ∧ P s a b) l l' → dirsOfAll l' = dirsOfAll l
  | [], _, .nil => rfl
  | s :: _, _, .cons h hl => by
    obtain ⟨a, b, rfl, _⟩ := h
    have : (s.setTotals a b).reps = s.reps := by cases s; rfl
    unfold dirsOfAll
    rw [dirsOfAll_setTotals hl, this, dirsOf_setTotals]

theorem claims_dirs : ∀ {l l' : List DirSpec}, Forall₂ Same l l' → (∀ s ∈ l, ∃ a b, s.totalsize = some a ∧ s.totalfiles = some b) →
    claims (l'.map (fun s => (s.totalsize, s.reps))) = dirBytes l ∧ unclaimed (l'.map (fun s => (s.totalsize, s.reps))) = 0 ∧
    claims (l'.map (fun s => (s.totalfiles, s.reps))) = dirFiles l ∧ unclaimed (l'.map (fun s => (s.totalfiles, s.reps))) = 0
  | [], _, .nil, _ => ⟨rfl, rfl, rfl, rfl⟩
  | s :: l, _, .cons (b := s') hs hl, h => by
    obtain ⟨h1, h2, h3, h4⟩ := claims_dirs hl (fun g hg => h g (List.mem_cons_of_mem _ hg))
    obtain ⟨a, b, e1, e2⟩ := h s (by simp)
    obtain ⟨q1, q2, q3, _⟩ := hs
    refine ⟨?_, ?_, ?_, ?_⟩
    · simp only [List.map_cons, q1, q3, e1, claims, h1, dirBytes, List.sum_cons, Option.getD_some]
    · simpa [q1, e1, unclaimed] using h2
    · simp only [List.map_cons, q2, q3, e2, claims, h3, dirFiles, List.sum_cons, Option.getD_some]
    · simpa [q2, e2, unclaimed] using h4

theorem setTotals_fields (s : DirSpec) (a b : Int) : (s.setTotals a b).totalsize = some a ∧ (s.setTotals a b).totalfiles = some b ∧
    (s.setTotals a b).reps = s.reps := by
  cases s; exact ⟨rfl, rfl, rfl⟩

theorem suits_setTotals {ts tf a b : Int} {s : DirSpec} (h : Suits ts tf s) : Suits ts tf (s.setTotals a b) := by
  rcases h with ⟨h1, h2, h3, h4, h5, h6, h7⟩
  cases s
  exact ⟨h1, h2, h3, h4, h5, h6, h7⟩

theorem suits_empty {ts tf : Int} (h1 : 0 < ts) (h2 : 0 < tf) : Suits ts tf .empty := by
  refine ⟨h1, h2, ?_, ?_, ?_, ?_, ?_⟩
  · intro f hf; cases hf
  · intro c hc; cases hc
  · exact Int.le_of_lt h1
  · rw [if_pos ⟨rfl, h1⟩]; exact ⟨rfl, h2⟩
  · intro s hs; cases hs

theorem dirs_atLeast : ∀ {n : Nat} {ds : List DirSpec},
    Forall₂ (fun s s' => ∃ a b, s' = s.setTotals a b ∧ Suits a b s) (List.replicate n .empty) ds →
    (n : Int) ≤ dirBytes ds ∧ (n : Int) ≤ dirFiles ds
  | 0, _, .nil => ⟨Int.le_refl _, Int.le_refl _⟩
  | n + 1, _, .cons (bs := ds) h hl => by
    obtain ⟨h1, h2⟩ := dirs_atLeast (n := n) hl
    obtain ⟨a, b, rfl, hs⟩ := h
    rcases hs with ⟨ha, hb, _⟩
    have e1 : dirBytes (DirSpec.setTotals a b .empty :: ds) = a + dirBytes ds := by
      simp [dirBytes, DirSpec.setTotals, DirSpec.empty, DirSpec.totalsize, DirSpec.reps]
    have e2 : dirFiles (DirSpec.setTotals a b .empty :: ds) = b + dirFiles ds := by
      simp [dirFiles, DirSpec.setTotals, DirSpec.empty, DirSpec.totalfiles, DirSpec.reps]
    rw [e1, e2]
    omega

theorem forall₂_right {α β : Type} {R : α → β → Prop} : ∀ {as : List α} {bs : List β}, Forall₂ R as bs → ∀ b ∈ bs, ∃ a ∈ as, R a b :=
  fun h _ hb => forall₂_mem_right h hb

theorem claims_empties : ∀ n : Nat, claims ((List.replicate n DirSpec.empty).map (fun s => (s.totalsize, s.reps))) = 0 ∧
    unclaimed ((List.replicate n DirSpec.empty).map (fun s => (s.totalsize, s.reps))) = n ∧
    claims ((List.replicate n DirSpec.empty).map (fun s => (s.totalfiles, s.reps))) = 0 ∧
    unclaimed ((List.replicate n DirSpec.empty).map (fun s => (s.totalfiles, s.reps))) = n
  | 0 => ⟨rfl, rfl, rfl, rfl⟩
  | n + 1 => by
    obtain ⟨h1, h2, h3, h4⟩ := claims_empties n
    simp only [List.replicate_succ, List.map_cons]
    refine ⟨h1, ?_, h3, ?_⟩
    · have : unclaimed ((DirSpec.empty.totalsize, DirSpec.empty.reps) ::
        (List.replicate n DirSpec.empty).map (fun s => (s.totalsize, s.reps))) =
        unclaimed ((List.replicate n DirSpec.empty).map (fun s => (s.totalsize, s.reps))) + 1 := rfl
      rw [this, h2]
    · have : unclaimed ((DirSpec.empty.totalfiles, DirSpec.empty.reps) ::
        (List.replicate n DirSpec.empty).map (fun s => (s.totalfiles, s.reps))) =
        unclaimed ((List.replicate n DirSpec.empty).map (fun s => (s.totalfiles, s.reps))) + 1 := rfl
      rw [this, h4]

theorem unclaimed_none {l : List (Option Int × Nat)} (h : unclaimed l = 0) : ∀ c ∈ l, c.1 ≠ none := by
  intro c hc h0
  unfold unclaimed at h
  rw [List.length_eq_zero_iff, List.filter_eq_nil_iff] at h
  exact h c hc (by rw [h0]; rfl)

/-- A plan that has been carried out suits the same totals. -/
theorem suits_worked {ts tf : Int} {d : DirSpec} {fs : List FileSet} {ds ds' : List DirSpec} (h : Suits ts tf d)
    (hsh : Shared ts tf d fs ds) (hsame : Forall₂ Same ds ds')
    (hin : ∀ s ∈ ds', ∀ a b, s.totalsize = some a → s.totalfiles = some b → Suits a b s) : Suits ts tf (d.worked fs ds') := by
  have hts : 0 < ts := by cases h; assumption
  have htf : 0 < tf := by cases h; assumption
  obtain ⟨s1, s2, s3, s4⟩ := claims_sets hsh.exact
  have htot : ∀ s ∈ ds, ∃ a b, s.totalsize = some a ∧ s.totalfiles = some b := by
    intro s hs
    obtain ⟨s₀, _, a, b, rfl, _⟩ := forall₂_right hsh.dirs s hs
    exact ⟨a, b, (setTotals_fields s₀ a b).1, (setTotals_fields s₀ a b).2.1⟩
  obtain ⟨d1, d2, d3, d4⟩ := claims_dirs hsame htot
  rcases d with ⟨ts₀, tf₀, reps, files, dirs, number⟩
  cases number with
  | none =>
    have hsub : (DirSpec.worked (.mk ts₀ tf₀ reps files dirs none) fs ds').subdirs = ds' := rfl
    have hin' : ∀ {l l' : List (Option Int × Nat)}, ∀ s ∈ ds', ∀ a b, Gets ts l s.totalsize a → Gets tf l' s.totalfiles b → Suits a b s := by
      intro l l' s hs a b ha hb
      obtain ⟨s₀, hs₀, q1, q2, _⟩ := forall₂_right hsame s hs
      obtain ⟨a', b', e1, e2⟩ := htot s₀ hs₀
      rw [q1, e1] at ha
      rw [q2, e2] at hb
      cases ha
      cases hb
      exact hin s hs _ _ (q1.trans e1) (q2.trans e2)
    cases files with
    | none =>
      have hS : sizeClaims (DirSpec.worked (.mk ts₀ tf₀ reps none dirs none) fs ds') = ds'.map (fun s => (s.totalsize, s.reps)) := rfl
      have hF : fileClaims (DirSpec.worked (.mk ts₀ tf₀ reps none dirs none) fs ds') = ds'.map (fun s => (s.totalfiles, s.reps)) := rfl
      have hb := hsh.bytes
      have hf := hsh.files
      have hnone := hsh.none rfl
      refine ⟨hts, htf, fun f hf => (by cases hf), ?_, ?_, ?_, hin'⟩
      · rw [hS, hF]
        intro c hc h0
        exfalso
        rcases List.mem_append.1 hc with hc | hc
        · exact unclaimed_none d2 c hc h0
        · exact unclaimed_none d4 c hc h0
      · rw [hS, d1]
        rcases hnone with rfl | ⟨a, b, ha, hb', rfl⟩
        · simp [setBytes] at hb
          omega
        · simp [setBytes, extraSet] at hb
          omega
      · rw [hS, hF, d1, d2, d3, d4]
        rcases hnone with rfl | ⟨a, b, ha, hb', rfl⟩
        · simp [setBytes] at hb
          simp [setFiles] at hf
          rw [if_neg (by omega), if_pos rfl]
          exact hf
        · simp [setBytes, extraSet] at hb
          simp [setFiles, extraSet] at hf
          rw [if_pos ⟨rfl, by omega⟩]
          exact ⟨rfl, by omega⟩
    | some l =>
      have hS : sizeClaims (DirSpec.worked (.mk ts₀ tf₀ reps (some l) dirs none) fs ds') =
        fs.map (fun f => ((says f).map (·.1), f.reps)) ++ ds'.map (fun s => (s.totalsize, s.reps)) := rfl
      have hF : fileClaims (DirSpec.worked (.mk ts₀ tf₀ reps (some l) dirs none) fs ds') =
        fs.map (fun f => ((says f).map (·.2), f.reps)) ++ ds'.map (fun s => (s.totalfiles, s.reps)) := rfl
      have cS := claims_append (fs.map (fun f => ((says f).map (·.1), f.reps))) (ds'.map (fun s => (s.totalsize, s.reps)))
      have cF := claims_append (fs.map (fun f => ((says f).map (·.2), f.reps))) (ds'.map (fun s => (s.totalfiles, s.reps)))
      have uS := unclaimed_append (fs.map (fun f => ((says f).map (·.1), f.reps))) (ds'.map (fun s => (s.totalsize, s.reps)))
      have uF := unclaimed_append (fs.map (fun f => ((says f).map (·.2), f.reps))) (ds'.map (fun s => (s.totalfiles, s.reps)))
      rw [s1, d1, hsh.bytes, ← hS] at cS
      rw [s3, d3, hsh.files, ← hF] at cF
      rw [s2, d2, ← hS] at uS
      rw [s4, d4, ← hF] at uF
      refine ⟨hts, htf, ?_, ?_, ?_, ?_, hin'⟩
      · intro f hf
        obtain ⟨a, b, _, _, _, ho, _⟩ := hsh.exact f hf
        exact ho
      · intro c hc h0
        exfalso
        rcases List.mem_append.1 hc with hc | hc
        · exact unclaimed_none uS c hc h0
        · exact unclaimed_none uF c hc h0
      · omega
      · rw [if_neg (by omega), if_pos uF]
        exact cF
  | some n =>
    cases files with
    | none => exact h
    | some l =>
      obtain ⟨e1, e2, e3, e4⟩ := claims_empties n
      have hS : sizeClaims (DirSpec.worked (.mk ts₀ tf₀ reps (some l) dirs (some n)) fs ds') =
        fs.map (fun f => ((says f).map (·.1), f.reps)) ++ (List.replicate n DirSpec.empty).map (fun s => (s.totalsize, s.reps)) := rfl
      have hF : fileClaims (DirSpec.worked (.mk ts₀ tf₀ reps (some l) dirs (some n)) fs ds') =
        fs.map (fun f => ((says f).map (·.2), f.reps)) ++ (List.replicate n DirSpec.empty).map (fun s => (s.totalfiles, s.reps)) := rfl
      have cS := claims_append (fs.map (fun f => ((says f).map (·.1), f.reps)))
        ((List.replicate n DirSpec.empty).map (fun s => (s.totalsize, s.reps)))
      have cF := claims_append (fs.map (fun f => ((says f).map (·.2), f.reps)))
        ((List.replicate n DirSpec.empty).map (fun s => (s.totalfiles, s.reps)))
      have uS := unclaimed_append (fs.map (fun f => ((says f).map (·.1), f.reps)))
        ((List.replicate n DirSpec.empty).map (fun s => (s.totalsize, s.reps)))
      have uF := unclaimed_append (fs.map (fun f => ((says f).map (·.2), f.reps)))
        ((List.replicate n DirSpec.empty).map (fun s => (s.totalfiles, s.reps)))
      rw [s1, e1, ← hS] at cS
      rw [s3, e3, ← hF] at cF
      rw [s2, e2, ← hS] at uS
      rw [s4, e4, ← hF] at uF
      obtain ⟨a1, a2⟩ := dirs_atLeast (n := n) (hsh.dirs)
      have hb := hsh.bytes
      have hf := hsh.files
      have hz : n = 0 → dirBytes ds = 0 ∧ dirFiles ds = 0 := by
        rintro rfl
        have := hsh.dirs
        cases this
        exact ⟨rfl, rfl⟩
      refine ⟨hts, htf, ?_, ?_, by omega, ?_, ?_⟩
      · intro f hf
        obtain ⟨a, b, _, _, _, ho, _⟩ := hsh.exact f hf
        exact ho
      · intro c hc h0
        have : c ∈ (List.replicate n DirSpec.empty).map (fun s => (s.totalsize, s.reps)) ∨
            c ∈ (List.replicate n DirSpec.empty).map (fun s => (s.totalfiles, s.reps)) := by
          rw [hS, hF] at hc
          rcases List.mem_append.1 hc with hc | hc
          · rcases List.mem_append.1 hc with hc | hc
            · exact absurd h0 (unclaimed_none s2 c hc)
            · exact .inl hc
          · rcases List.mem_append.1 hc with hc | hc
            · exact absurd h0 (unclaimed_none s4 c hc)
            · exact .inr hc
        rcases this with hc | hc
        · obtain ⟨s, hs, rfl⟩ := List.mem_map.1 hc
          rw [(List.mem_replicate.1 hs).2]
          rfl
        · obtain ⟨s, hs, rfl⟩ := List.mem_map.1 hc
          rw [(List.mem_replicate.1 hs).2]
          rfl
      · by_cases hn : n = 0
        · have := hz hn
          rw [if_neg (by omega), if_pos (by omega)]
          omega
        · rw [if_neg (by omega), if_neg (by omega)]
          omega
      · intro s hs a b ha hb'
        obtain ⟨hn, rfl⟩ := List.mem_replicate.1 (show s ∈ List.replicate n DirSpec.empty from hs)
        have ha' := ha.2
        have hb'' := hb'.2
        rw [uS, cS] at ha'
        rw [uF, cF] at hb''
        exact suits_empty (share_pos (k := ((0 + n : Nat) : Int)) (by omega) (by omega) ha')
          (share_pos (k := ((0 + n : Nat) : Int)) (by omega) (by omega) hb'')

/-! ## Carrying it out -/

theorem fillFiles_dirs (lnFloor : Nat → Nat) (target : List Str) (ms mf : Int) : ∀ (sizes : List Nat) (c : Nat × Nat),
    (fillFiles lnFloor target ms mf sizes c).Ends (fun t _ t' => t'.dirs = t.dirs)
  | [], c => by intro t draws o t' draws' h; cases h; rfl
  | sz :: sizes, c => by
    intro t draws o t' draws' h
    have hfile : (createFile lnFloor sz target).Ends (fun t _ t' => t'.dirs = t.dirs) := by
      intro t draws o t' draws' h
      rcases bind_some h with ⟨e, h4, rfl⟩ | ⟨n, u, draws₁, h4, h5⟩
      · obtain ⟨_, _, rfl, _⟩ := mkfilename_some h4; rfl
      · obtain ⟨_, _, rfl, _⟩ := mkfilename_some h4; cases h5; rfl
    unfold fillFiles at h
    split at h
    · cases h; rfl
    · rcases bind_some h with ⟨e, h4, rfl⟩ | ⟨n, u, draws₁, h4, h5⟩
      · exact hfile _ _ _ _ _ h4
      · exact (fillFiles_dirs lnFloor target ms mf sizes _ _ _ _ _ _ h5).trans (hfile _ _ _ _ _ h4)

theorem fillSet_dirs (lnFloor : Nat → Nat) (target : List Str) (f : FileSet) : ∀ (n : Nat) (c : Nat × Nat),
    (fillSet lnFloor target f n c).Ends (fun t _ t' => t'.dirs = t.dirs)
  | 0, c => by intro t draws o t' draws' h; cases h; rfl
  | n + 1, c => by
    intro t draws o t' draws' h
    unfold fillSet at h
    rcases hit : f.iter with _ | it <;> rw [hit] at h
    · cases h; rfl
    · dsimp only at h
      rcases bind_some h with ⟨e, h4, rfl⟩ | ⟨l, u, draws₁, h4, h5⟩
      · cases hi : it.iterate <;> rw [hi] at h4 <;> cases h4 <;> rfl
      · have : u = t := by cases hi : it.iterate <;> rw [hi] at h4 <;> cases h4 <;> rfl
        subst this
        rcases bind_some h5 with ⟨e, h6, rfl⟩ | ⟨c', v, draws₂, h6, h7⟩
        · exact fillFiles_dirs lnFloor target _ _ _ _ _ _ _ _ _ h6
        · exact (fillSet_dirs lnFloor target f n _ _ _ _ _ _ h7).trans (fillFiles_dirs lnFloor target _ _ _ _ _ _ _ _ _ h6)

theorem fillSets_dirs (lnFloor : Nat → Nat) (target : List Str) (ts tf : Int) : ∀ (l : List FileSet) (c : Nat × Nat),
    (fillSets lnFloor target ts tf l c).Ends (fun t _ t' => t'.dirs = t.dirs)
  | [], c => by intro t draws o t' draws' h; cases h; rfl
  | f :: l, c => by
    intro t draws o t' draws' h
    unfold fillSets at h
    split at h
    · cases h; rfl
    · rcases bind_some h with ⟨e, h4, rfl⟩ | ⟨n, u, draws₁, h4, h5⟩
      · exact fillSet_dirs lnFloor target f _ _ _ _ _ _ _ h4
      · exact (fillSets_dirs lnFloor target ts tf l _ _ _ _ _ _ h5).trans (fillSet_dirs lnFloor target f _ _ _ _ _ _ _ h4)

theorem tooMuch_false {ts tf : Int} {c : Nat × Nat} (h1 : (c.1 : Int) ≤ ts) (h2 : (c.2 : Int) ≤ tf) : ¬ tooMuch ts tf c = true := by
  unfold tooMuch
  simp
  omega

section
variable {lnFloor : Nat → Nat} (hln : LogLike lnFloor)
include hln

theorem fillFiles_exact (target : List Str) (ms mf : Int) : ∀ (sizes : List Nat) (c : Nat × Nat),
    (c.1 : Int) + (sizes.sum : Nat) ≤ ms → (c.2 : Int) + (sizes.length : Nat) ≤ mf → sizes.sum < 2 ^ 98 →
    (fillFiles lnFloor target ms mf sizes c).Ends (fun _ o _ => o = .ok (c.1 + sizes.sum, c.2 + sizes.length))
  | [], c, _, _, _ => by
    intro t draws o t' draws' h
    cases h
    rfl
  | sz :: sizes, c, h1, h2, h3 => by
    intro t draws o t' draws' h
    simp only [List.sum_cons, List.length_cons] at h1 h2 h3 ⊢
    unfold fillFiles at h
    rw [if_neg (by omega)] at h
    rcases bind_some h with ⟨e, h4, rfl⟩ | ⟨n, u, draws₁, h4, h5⟩
    · obtain ⟨n, h6, _⟩ := createFile_some hln h4
      cases h6
    · obtain ⟨n', h6, h7, _⟩ := createFile_some hln h4
      cases h6
      have hn : n = sz := h7 (by omega)
      subst hn
      have := fillFiles_exact target ms mf sizes (c.1 + n, c.2 + 1) (by dsimp only; omega) (by dsimp only; omega) (by omega) _ _ _ _ _ h5
      rw [this]
      dsimp only
      rw [show c.1 + n + sizes.sum = c.1 + (n + sizes.sum) by omega, show c.2 + 1 + sizes.length = c.2 + (sizes.length + 1) by omega]

theorem fillSet_exact (target : List Str) {f : FileSet} {a b : Int} (hf : Exact f a b) : ∀ (n : Nat) (c : Nat × Nat),
    (0 < n → a < 2 ^ 98) →
    (fillSet lnFloor target f n c).Ends (fun _ o _ => ∃ c' : Nat × Nat, o = .ok c' ∧ (c'.1 : Int) = c.1 + a * n ∧ (c'.2 : Int) = c.2 + b * n)
  | 0, c, _ => by
    intro t draws o t' draws' h
    cases h
    exact ⟨c, rfl, by simp, by simp⟩
  | n + 1, c, ha => by
    intro t draws o t' draws' h
    obtain ⟨e1, e2, e3, e4, it, l, e5, e6, e7, e8⟩ := hf
    unfold fillSet at h
    rw [e5] at h
    dsimp only at h
    rw [e6, e1, e2] at h
    rcases bind_some h with ⟨e, h4, rfl⟩ | ⟨l', u, draws₁, h4, h5⟩
    · cases h4
    · cases h4
      have hl := fillFiles_exact hln target a b l (0, 0) (by dsimp only; omega) (by dsimp only; omega) (by have := ha (by omega); omega)
      rcases bind_some h5 with ⟨e, h6, rfl⟩ | ⟨c', v, draws₂, h6, h7⟩
      · have := hl _ _ _ _ _ h6
        cases this
      · have := hl _ _ _ _ _ h6
        cases this
        obtain ⟨c'', r1, r2, r3⟩ := fillSet_exact target ⟨e1, e2, e3, e4, it, l, e5, e6, e7, e8⟩ n _ (fun _ => ha (by omega)) _ _ _ _ _ h7
        refine ⟨c'', r1, ?_, ?_⟩
        · rw [r2, Int.natCast_succ, Int.mul_add]
          simp only [Nat.zero_add]
          omega
        · rw [r3, Int.natCast_succ, Int.mul_add]
          simp only [Nat.zero_add]
          omega

omit hln in
theorem exact_nonneg {f : FileSet} {a b : Int} (hf : Exact f a b) : 0 ≤ a ∧ 0 ≤ b := by
  obtain ⟨_, _, _, _, it, l, _, _, e7, e8⟩ := hf
  omega

theorem fillSets_exact (target : List Str) (ts tf : Int) (hts : ts < 2 ^ 98) : ∀ (l : List FileSet) (c : Nat × Nat),
    (∀ f ∈ l, ∃ a b, Exact f a b) → (c.1 : Int) + setBytes l ≤ ts → (c.2 : Int) + setFiles l ≤ tf →
    (fillSets lnFloor target ts tf l c).Ends
      (fun _ o _ => ∃ c' : Nat × Nat, o = .ok c' ∧ (c'.1 : Int) = c.1 + setBytes l ∧ (c'.2 : Int) = c.2 + setFiles l) ∧
    0 ≤ setBytes l ∧ 0 ≤ setFiles l
  | [], c, _, _, _ => by
    refine ⟨?_, Int.le_refl _, Int.le_refl _⟩
    intro t draws o t' draws' h
    cases h
    exact ⟨c, rfl, by simp [setBytes], by simp [setFiles]⟩
  | f :: l, c, hex, h1, h2 => by
    obtain ⟨a, b, hf⟩ := hex f (by simp)
    obtain ⟨ha, hb⟩ := exact_nonneg hf
    have e1 : setBytes (f :: l) = a * f.reps + setBytes l := by simp [setBytes, hf.1]
    have e2 : setFiles (f :: l) = b * f.reps + setFiles l := by simp [setFiles, hf.2.1]
    have p1 : 0 ≤ a * (f.reps : Int) := Int.mul_nonneg ha (by omega)
    have p2 : 0 ≤ b * (f.reps : Int) := Int.mul_nonneg hb (by omega)
    rw [e1] at h1 ⊢
    rw [e2] at h2 ⊢
    have hnn := (fillSets_exact target ts tf hts l (0, 0) (fun g hg => hex g (List.mem_cons_of_mem _ hg)) (by dsimp only; omega)
      (by dsimp only; omega)).2
    refine ⟨?_, by omega, by omega⟩
    intro t draws o t' draws' h
    unfold fillSets at h
    rw [if_neg (tooMuch_false (by omega) (by omega))] at h
    have hsmall : 0 < f.reps → a < 2 ^ 98 := by
      intro hr
      have : a * 1 ≤ a * (f.reps : Int) := Int.mul_le_mul_of_nonneg_left (by omega) ha
      omega
    have hset := fillSet_exact hln target hf f.reps c hsmall
    rcases bind_some h with ⟨e, h4, rfl⟩ | ⟨c', u, draws₁, h4, h5⟩
    · obtain ⟨_, h6, _⟩ := hset _ _ _ _ _ h4
      cases h6
    · obtain ⟨_, h6, r1, r2⟩ := hset _ _ _ _ _ h4
      cases h6
      obtain ⟨c'', q1, q2, q3⟩ := (fillSets_exact target ts tf hts l c' (fun g hg => hex g (List.mem_cons_of_mem _ hg)) (by omega)
        (by omega)).1 _ _ _ _ _ h5
      exact ⟨c'', q1, by omega, by omega⟩

omit hln in
theorem fillReps_exact {fill : List Str → Int → Int → DirSpec → Making ((Nat × Nat) × DirSpec)} {a b : Int} (ha : 0 < a) (hb : 0 < b)
    (hfill : ∀ p d, Suits a b d → (fill p a b d).Ends (fun t o t' => ∃ (c : Nat × Nat) (d' : DirSpec), o = .ok (c, d') ∧ (c.1 : Int) = a ∧
      (c.2 : Int) = b ∧ Suits a b d' ∧ Same d d' ∧ t'.dirs.length = t.dirs.length + dirsOf d)) (target : List Str) (ts tf : Int) :
    ∀ (n : Nat) (d : DirSpec) (c : Nat × Nat), Suits a b d → d.totalsize = some a → d.totalfiles = some b →
    (c.1 : Int) + a * n ≤ ts → (c.2 : Int) + b * n ≤ tf →
    (fillReps fill target ts tf n d c).Ends (fun t o t' => ∃ (c' : Nat × Nat) (d' : DirSpec), o = .ok (c', d') ∧ (c'.1 : Int) = c.1 + a * n ∧
      (c'.2 : Int) = c.2 + b * n ∧ Suits a b d' ∧ Same d d' ∧ t'.dirs.length = t.dirs.length + (1 + dirsOf d) * n)
  | 0, d, c, hs, _, _, _, _ => by
    intro t draws o t' draws' h
    cases h
    exact ⟨c, d, rfl, by simp, by simp, hs, same_refl d, by simp⟩
  | n + 1, d, c, hs, e1, e2, h1, h2 => by
    intro t draws o t' draws' h
    rw [Int.natCast_succ, Int.mul_add] at h1 h2
    have p1 : 0 ≤ a * (n : Int) := Int.mul_nonneg (by omega) (by omega)
    have p2 : 0 ≤ b * (n : Int) := Int.mul_nonneg (by omega) (by omega)
    unfold fillReps at h
    rw [if_neg (tooMuch_false (by omega) (by omega)), e1, e2] at h
    dsimp only [Option.getD_some] at h
    rcases bind_some h with ⟨e, h4, rfl⟩ | ⟨p, u, draws₁, h4, h5⟩
    · obtain ⟨_, h6, _⟩ := createDir_some h4
      cases h6
    · have hu : u.dirs.length = t.dirs.length + 1 := by
        obtain ⟨_, _, h6⟩ := createDir_some h4
        rw [h6.dirs]
        simp
      rcases bind_some h5 with ⟨e, h6, rfl⟩ | ⟨⟨r, d'⟩, v, draws₂, h6, h7⟩
      · obtain ⟨_, _, h8, _⟩ := hfill _ _ hs _ _ _ _ _ h6
        cases h8
      · obtain ⟨_, _, h8, q1, q2, q3, q4, q5⟩ := hfill _ _ hs _ _ _ _ _ h6
        cases h8
        obtain ⟨c', d'', r1, r2, r3, r4, r5, r6⟩ := fillReps_exact ha hb hfill target ts tf n d' _ q3 (q4.1.trans e1) (q4.2.1.trans e2)
          (by dsimp only; omega) (by dsimp only; omega) _ _ _ _ _ h7
        dsimp only at r2 r3
        refine ⟨c', d'', r1, ?_, ?_, r4, same_trans q4 r5, ?_⟩
        · rw [r2, Int.natCast_succ, Int.mul_add]
          omega
        · rw [r3, Int.natCast_succ, Int.mul_add]
          omega
        · rw [r6, q5, hu, q4.2.2.2, Nat.mul_succ]
          omega

omit hln in
theorem fillDirs_exact {fill : List Str → Int → Int → DirSpec → Making ((Nat × Nat) × DirSpec)} {ts tf : Int}
    (hfill : ∀ p a b d, Suits a b d → a ≤ ts → (fill p a b d).Ends (fun t o t' => ∃ (c : Nat × Nat) (d' : DirSpec), o = .ok (c, d') ∧
      (c.1 : Int) = a ∧ (c.2 : Int) = b ∧ Suits a b d' ∧ Same d d' ∧ t'.dirs.length = t.dirs.length + dirsOf d)) (target : List Str) :
    ∀ (l : List DirSpec) (c : Nat × Nat), (∀ s ∈ l, ∃ a b, s.totalsize = some a ∧ s.totalfiles = some b ∧ Suits a b s) →
    (c.1 : Int) + dirBytes l ≤ ts → (c.2 : Int) + dirFiles l ≤ tf →
    (fillDirs fill target ts tf l c).Ends (fun t o t' => ∃ (c' : Nat × Nat) (l' : List DirSpec), o = .ok (c', l') ∧
      (c'.1 : Int) = c.1 + dirBytes l ∧ (c'.2 : Int) = c.2 + dirFiles l ∧ Forall₂ Same l l' ∧
      t'.dirs.length = t.dirs.length + dirsOfAll l ∧
      ∀ s ∈ l', ∀ a b, s.totalsize = some a → s.totalfiles = some b → Suits a b s) ∧ 0 ≤ dirBytes l ∧ 0 ≤ dirFiles l
  | [], c, _, _, _ => by
    refine ⟨?_, Int.le_refl _, Int.le_refl _⟩
    intro t draws o t' draws' h
    cases h
    exact ⟨c, [], rfl, by simp [dirBytes], by simp [dirFiles], .nil, by simp [dirsOfAll], by simp⟩
  | s :: l, c, hs, h1, h2 => by
    obtain ⟨a, b, e1, e2, hsu⟩ := hs s (by simp)
    have ha : 0 < a := by cases hsu; assumption
    have hb : 0 < b := by cases hsu; assumption
    have f1 : dirBytes (s :: l) = a * s.reps + dirBytes l := by simp [dirBytes, e1]
    have f2 : dirFiles (s :: l) = b * s.reps + dirFiles l := by simp [dirFiles, e2]
    have p1 : 0 ≤ a * (s.reps : Int) := Int.mul_nonneg (by omega) (by omega)
    have p2 : 0 ≤ b * (s.reps : Int) := Int.mul_nonneg (by omega) (by omega)
    rw [f1] at h1 ⊢
    rw [f2] at h2 ⊢
    have hnn := (fillDirs_exact (tf := tf) hfill target l (0, 0) (fun g hg => hs g (List.mem_cons_of_mem _ hg)) (by dsimp only; omega)
      (by dsimp only; omega)).2
    refine ⟨?_, by omega, by omega⟩
    intro t draws o t' draws' h
    unfold fillDirs at h
    rw [if_neg (tooMuch_false (by omega) (by omega))] at h
    have hreps : (fillReps fill target ts tf s.reps s c).Ends (fun t o t' => ∃ (c' : Nat × Nat) (d' : DirSpec), o = .ok (c', d') ∧
        (c'.1 : Int) = c.1 + a * s.reps ∧ (c'.2 : Int) = c.2 + b * s.reps ∧ Suits a b d' ∧ Same s d' ∧
        t'.dirs.length = t.dirs.length + (1 + dirsOf s) * s.reps) := by
      rcases Nat.eq_zero_or_pos s.reps with h0 | h0
      · rw [h0]
        intro t draws o t' draws' h
        cases h
        exact ⟨c, s, rfl, by simp, by simp, hsu, same_refl s, by simp⟩
      · have : a * 1 ≤ a * (s.reps : Int) := Int.mul_le_mul_of_nonneg_left (by omega) (by omega)
        exact fillReps_exact ha hb (fun p d hd => hfill p a b d hd (by omega)) target ts tf s.reps s c hsu e1 e2 (by omega) (by omega)
    rcases bind_some h with ⟨e, h4, rfl⟩ | ⟨⟨c', d'⟩, u, draws₁, h4, h5⟩
    · obtain ⟨_, _, h6, _⟩ := hreps _ _ _ _ _ h4
      cases h6
    · obtain ⟨_, _, h6, q1, q2, q3, q4, q5⟩ := hreps _ _ _ _ _ h4
      cases h6
      have hrest := (fillDirs_exact (tf := tf) hfill target l c' (fun g hg => hs g (List.mem_cons_of_mem _ hg)) (by omega) (by omega)).1
      rcases bind_some h5 with ⟨e, h6, rfl⟩ | ⟨⟨c'', l'⟩, v, draws₂, h6, h7⟩
      · obtain ⟨_, _, h8, _⟩ := hrest _ _ _ _ _ h6
        cases h8
      · obtain ⟨_, _, h8, r1, r2, r3, r5, r4⟩ := hrest _ _ _ _ _ h6
        cases h8
        cases h7
        refine ⟨c'', d' :: l', rfl, by omega, by omega, .cons q4 r3, by unfold dirsOfAll; omega, ?_⟩
        intro s' hs' a' b' ha' hb'
        rcases List.mem_cons.1 hs' with rfl | hs'
        · rw [q4.1, e1] at ha'
          rw [q4.2.1, e2] at hb'
          cases ha'
          cases hb'
          exact q3
        · exact r4 s' hs' a' b' ha' hb'

theorem fillDir_exact : ∀ (fuel : Nat) (target : List Str) (ts tf : Int) (d : DirSpec), Suits ts tf d → ts < 2 ^ 98 →
    (fillDir lnFloor fuel target ts tf d).Ends (fun t o t' => ∃ (c : Nat × Nat) (d' : DirSpec), o = .ok (c, d') ∧ (c.1 : Int) = ts ∧
      (c.2 : Int) = tf ∧ Suits ts tf d' ∧ Same d d' ∧ t'.dirs.length = t.dirs.length + dirsOf d)
  | 0, _, _, _, _, _, _ => by intro t draws o t' draws' h; cases h
  | fuel + 1, target, ts, tf, d, hs, hts => by
    intro t draws o t' draws' h
    have h0 : 0 < ts ∧ 0 < tf := by cases hs; exact ⟨by assumption, by assumption⟩
    obtain ⟨fs, ds, hd, hsh⟩ := distribute_ok hs
    have hdn : 0 ≤ dirBytes ds ∧ 0 ≤ dirFiles ds := by
      have : ∀ {l : List DirSpec}, (∀ s ∈ l, ∃ a b, s.totalsize = some a ∧ s.totalfiles = some b ∧ Suits a b s) →
          0 ≤ dirBytes l ∧ 0 ≤ dirFiles l := by
        intro l
        induction l with
        | nil => intro _; exact ⟨Int.le_refl _, Int.le_refl _⟩
        | cons s l ih =>
          intro h
          obtain ⟨a, b, e1, e2, hsu⟩ := h s (by simp)
          have ha : 0 < a := by cases hsu; assumption
          have hb : 0 < b := by cases hsu; assumption
          obtain ⟨i1, i2⟩ := ih (fun g hg => h g (List.mem_cons_of_mem _ hg))
          have f1 : dirBytes (s :: l) = a * s.reps + dirBytes l := by simp [dirBytes, e1]
          have f2 : dirFiles (s :: l) = b * s.reps + dirFiles l := by simp [dirFiles, e2]
          have p1 : 0 ≤ a * (s.reps : Int) := Int.mul_nonneg (by omega) (by omega)
          have p2 : 0 ≤ b * (s.reps : Int) := Int.mul_nonneg (by omega) (by omega)
          omega
      refine this (fun s hs => ?_)
      obtain ⟨s₀, _, a, b, rfl, hsu⟩ := forall₂_right hsh.dirs s hs
      exact ⟨a, b, (setTotals_fields s₀ a b).1, (setTotals_fields s₀ a b).2.1, suits_setTotals hsu⟩
    have hb := hsh.bytes
    have hf := hsh.files
    have hsets := (fillSets_exact hln target ts tf hts fs (0, 0) hsh.exact (by dsimp only; omega) (by dsimp only; omega)).1
    unfold fillDir at h
    rw [if_neg (by omega), hd] at h
    rcases bind_some h with ⟨e, h4, rfl⟩ | ⟨p, u, draws₁, h4, h5⟩
    · cases h4
    · cases h4
      rcases bind_some h5 with ⟨e, h6, rfl⟩ | ⟨c, v, draws₂, h6, h7⟩
      · obtain ⟨_, h8, _⟩ := hsets _ _ _ _ _ h6
        cases h8
      · obtain ⟨_, h8, q1, q2⟩ := hsets _ _ _ _ _ h6
        cases h8
        dsimp only at q1 q2 h7
        have hdirs := (fillDirs_exact (fill := fillDir lnFloor fuel) (ts := ts) (tf := tf)
          (fun p a b d hd ha => fillDir_exact fuel p a b d hd (by omega)) target ds c ?_ (by omega) (by omega)).1
        · rcases bind_some h7 with ⟨e, h8, rfl⟩ | ⟨⟨c', l'⟩, w, draws₃, h8, h9⟩
          · obtain ⟨_, _, h9, _⟩ := hdirs _ _ _ _ _ h8
            cases h9
          · obtain ⟨_, _, h10, r1, r2, r3, r5, r4⟩ := hdirs _ _ _ _ _ h8
            cases h10
            cases h9
            have hdall := dirsOfAll_setTotals (P := fun s a b => Suits a b s) hsh.dirs
            refine ⟨c', d.worked fs l', rfl, by omega, by omega, suits_worked hs hsh r3 r4, ?_, ?_⟩
            · have hw := dirsOfAll_same r3
              rcases d with ⟨_, _, _, _, ds₀, _ | n⟩
              · refine ⟨rfl, rfl, rfl, ?_⟩
                rw [dirsOf_subdirs, dirsOf_subdirs]
                exact hw.trans hdall
              · refine ⟨rfl, rfl, rfl, ?_⟩
                rw [dirsOf_subdirs, dirsOf_subdirs]
                rfl
            · rw [r5, fillSets_dirs _ _ _ _ _ _ _ _ _ _ _ h6, hdall, dirsOf_subdirs]
        · intro s hs
          obtain ⟨s₀, _, a, b, rfl, hsu⟩ := forall₂_right hsh.dirs s hs
          exact ⟨a, b, (setTotals_fields s₀ a b).1, (setTotals_fields s₀ a b).2.1, suits_setTotals hsu⟩

end

end Verif
