import Verif.Model.Split
import Verif.Py.ListX
/-!
# Lemmas about the splitters
-/

namespace Verif

/-! ## String order -/

theorem strLt_irrefl (a : Str) : strLt a a = false := by
  induction a with
  | nil => rfl
  | cons x xs ih => simp [strLt, ih]

theorem strLt_trans {a b c : Str} (h1 : strLt a b = true) (h2 : strLt b c = true) : strLt a c = true := by
  induction a generalizing b c with
  | nil =>
    cases b with
    | nil => simp [strLt] at h1
    | cons y ys =>
      cases c with
      | nil => simp [strLt] at h2
      | cons z zs => rfl
  | cons x xs ih =>
    cases b with
    | nil => simp [strLt] at h1
    | cons y ys =>
      cases c with
      | nil => simp [strLt] at h2
      | cons z zs =>
        simp only [strLt, Bool.or_eq_true, decide_eq_true_eq, Bool.and_eq_true, beq_iff_eq] at *
        rcases h1 with h1 | ⟨rfl, h1⟩
        · rcases h2 with h2 | ⟨rfl, h2⟩
          · left; omega
          · left; exact h1
        · rcases h2 with h2 | ⟨rfl, h2⟩
          · left; exact h2
          · right; exact ⟨rfl, ih h1 h2⟩

theorem strLt_total {a b : Str} (h1 : strLt a b = false) (h2 : strLt b a = false) : a = b := by
  induction a generalizing b with
  | nil =>
    cases b with
    | nil => rfl
    | cons y ys => simp [strLt] at h1
  | cons x xs ih =>
    cases b with
    | nil => simp [strLt] at h2
    | cons y ys =>
      simp only [strLt, Bool.or_eq_false_iff, decide_eq_false_iff_not, Bool.and_eq_false_iff, beq_eq_false_iff_ne] at h1 h2
      have e : x = y := Char.toNat_inj.1 (by omega)
      subst e
      simp only [ne_eq, not_true, false_or] at h1 h2
      rw [ih h1.2 h2.2]

theorem strLt_asymm {a b : Str} (h : strLt a b = true) : strLt b a = false := by
  cases h' : strLt b a with
  | false => rfl
  | true =>
    have := strLt_trans h h'
    rw [strLt_irrefl] at this; cases this

theorem strLe_trans (a b c : Str) (h1 : strLe a b = true) (h2 : strLe b c = true) : strLe a c = true := by
  simp only [strLe, Bool.not_eq_true'] at *
  cases h : strLt c a with
  | false => rfl
  | true =>
    -- c < a, ¬ b < a, ¬ c < b
    cases h3 : strLt a b with
    | true => have := strLt_trans h h3; rw [h2] at this; cases this
    | false =>
      have := strLt_total h3 h1
      subst this; rw [h] at h2; cases h2

theorem strLe_total (a b : Str) : (strLe a b || strLe b a) = true := by
  simp only [strLe]
  cases h : strLt b a with
  | false => rfl
  | true => simp [strLt_asymm h]

/-! ## The order of the files -/

/-- The order in which files are taken: bigger first, then by path. -/
def FBefore (a b : FInfo) : Prop := b.size < a.size ∨ (a.size = b.size ∧ strLe a.path b.path = true)

theorem cmpBySize_le {a b : FInfo} : decide (cmpBySize a b ≤ 0) = true ↔ FBefore a b := by
  unfold cmpBySize FBefore strLe
  simp only [decide_eq_true_eq]
  by_cases h : (b.size : Int) - a.size = 0
  · have he : a.size = b.size := by omega
    simp only [h, ne_eq, not_true, if_false, he, Nat.lt_irrefl, false_or, true_and]
    cases h1 : strLt a.path b.path with
    | true => simp [strLt_asymm h1]
    | false =>
      cases h2 : strLt b.path a.path with
      | true => simp
      | false => simp
  · simp only [ne_eq, h, not_false_eq_true, if_true]
    have : a.size ≠ b.size := by omega
    simp only [this, false_and, or_false]
    omega

theorem fBefore_trans {a b c : FInfo} (h1 : FBefore a b) (h2 : FBefore b c) : FBefore a c := by
  unfold FBefore at *
  rcases h1 with h1 | ⟨h1, h1'⟩ <;> rcases h2 with h2 | ⟨h2, h2'⟩
  · left; omega
  · left; omega
  · left; omega
  · right; exact ⟨by omega, strLe_trans _ _ _ h1' h2'⟩

theorem fBefore_total (a b : FInfo) : FBefore a b ∨ FBefore b a := by
  unfold FBefore
  have := strLe_total a.path b.path
  rw [Bool.or_eq_true] at this
  by_cases h : a.size = b.size
  · rcases this with t | t
    · exact .inl (.inr ⟨h, t⟩)
    · exact .inr (.inr ⟨h.symm, t⟩)
  · by_cases h' : b.size < a.size
    · exact .inl (.inl h')
    · exact .inr (.inl (by omega))

theorem fBefore_antisymm {a b : FInfo} (h1 : FBefore a b) (h2 : FBefore b a) : a = b := by
  unfold FBefore strLe at *
  have hs : a.size = b.size := by
    rcases h1 with h1 | h1 <;> rcases h2 with h2 | h2 <;> omega
  have h1' : strLt b.path a.path = false := by
    rcases h1 with h1 | h1
    · omega
    · simpa using h1.2
  have h2' : strLt a.path b.path = false := by
    rcases h2 with h2 | h2
    · omega
    · simpa using h2.2
  have hp := strLt_total h2' h1'
  cases a; cases b; simp at hs hp; simp [hs, hp]

theorem sortedFiles_pairwise (w : Char → Bool) (forhead : List Str) (l : List FInfo) :
    (sortedFiles w forhead l).Pairwise FBefore := by
  have := List.pairwise_mergeSort (le := fun a b => decide (cmpBySize a b ≤ 0))
    (fun a b c h1 h2 => cmpBySize_le.2 (fBefore_trans (cmpBySize_le.1 h1) (cmpBySize_le.1 h2)))
    (fun a b => by
      rw [Bool.or_eq_true, cmpBySize_le, cmpBySize_le]; exact fBefore_total a b)
    (l.filter (fun f => !specialPath w f.path && !decide (f.path ∈ forhead)))
  exact this.imp (fun h => cmpBySize_le.1 h)

theorem sortedFiles_perm (w : Char → Bool) (forhead : List Str) (l : List FInfo) :
    (sortedFiles w forhead l).Perm (l.filter (fun f => !specialPath w f.path && !decide (f.path ∈ forhead))) :=
  List.mergeSort_perm _ _

theorem sortedFiles_congr (w : Char → Bool) (forhead : List Str) {l l' : List FInfo} (h : l.Perm l') :
    sortedFiles w forhead l = sortedFiles w forhead l' := by
  refine List.Perm.eq_of_pairwise (le := FBefore) (fun a b _ _ => fBefore_antisymm)
    (sortedFiles_pairwise _ _ _) (sortedFiles_pairwise _ _ _) ?_
  exact (sortedFiles_perm _ _ _).trans ((h.filter _).trans (sortedFiles_perm _ _ _).symm)

/-! ## Removing one file -/

theorem perm_eraseIdx {α : Type} {l : List α} {i : Nat} (h : i < l.length) : (l[i] :: l.eraseIdx i).Perm l := by
  induction l generalizing i with
  | nil => simp at h
  | cons x xs ih =>
    cases i with
    | zero => simp
    | succ i =>
      simp only [List.getElem_cons_succ, List.eraseIdx_cons_succ]
      exact (List.Perm.swap _ _ _).trans ((ih (by simpa using h)).cons x)

/-- All the contents of a list of manifests. -/
def contentsOf (ms : List Manifest) : List Str := ms.flatMap (·.contents)

theorem contentsOf_append (a b : List Manifest) : contentsOf (a ++ b) = contentsOf a ++ contentsOf b := by
  simp [contentsOf]

theorem contentsOf_singleton (m : Manifest) : contentsOf [m] = m.contents := by simp [contentsOf]

/-! ## Invariants of the well-packed loop -/

theorem wpLoop_inv {max target : Int} (Inv : List FInfo → Nat → Manifest → List Manifest → Prop)
    (hclose : ∀ fs i m out, fs ≠ [] → fs.length ≤ i → Inv fs i m out → Inv fs 0 {} (out ++ [m]))
    (hbig : ∀ fs i m out (h : i < fs.length), Inv fs i m out → ((m.total + fs[i].size : Nat) : Int) > max →
      m.total = 0 → Inv (fs.eraseIdx i) 0 {} (out ++ [m.add fs[i]]))
    (hskip : ∀ fs i m out (h : i < fs.length), Inv fs i m out → ((m.total + fs[i].size : Nat) : Int) > max →
      m.total ≠ 0 → Inv fs (i + 1) m out)
    (hfull : ∀ fs i m out (h : i < fs.length), Inv fs i m out → ((m.total + fs[i].size : Nat) : Int) ≤ max →
      ((m.total + fs[i].size : Nat) : Int) > target → Inv (fs.eraseIdx i) 0 {} (out ++ [m.add fs[i]]))
    (hadd : ∀ fs i m out (h : i < fs.length), Inv fs i m out → ((m.total + fs[i].size : Nat) : Int) ≤ max →
      ((m.total + fs[i].size : Nat) : Int) ≤ target → Inv (fs.eraseIdx i) i (m.add fs[i]) out)
    (fs : List FInfo) (i : Nat) (m : Manifest) (out : List Manifest) (h0 : Inv fs i m out) :
    ∃ j, Inv [] j (wpLoop max target fs i m out).2 (wpLoop max target fs i m out).1 := by
  fun_induction wpLoop max target fs i m out with
  | case1 i m out => exact ⟨i, h0⟩
  | case2 fs i m out hf closed out1 m1 i1 hi1 f h1 h2 ih =>
    apply ih
    have hI : Inv fs i1 m1 out1 := by
      simp only [i1, m1, out1]
      by_cases hc : closed
      · simp only [hc, if_true]; exact hclose _ _ _ _ hf hc h0
      · simp only [hc, if_false]; exact h0
    exact hbig _ _ _ _ hi1 hI h1 h2
  | case3 fs i m out hf closed out1 m1 i1 hi1 f h1 h2 ih =>
    apply ih
    have hI : Inv fs i1 m1 out1 := by
      simp only [i1, m1, out1]
      by_cases hc : closed
      · simp only [hc, if_true]; exact hclose _ _ _ _ hf hc h0
      · simp only [hc, if_false]; exact h0
    exact hskip _ _ _ _ hi1 hI h1 h2
  | case4 fs i m out hf closed out1 m1 i1 hi1 f h1 h2 ih =>
    apply ih
    have hI : Inv fs i1 m1 out1 := by
      simp only [i1, m1, out1]
      by_cases hc : closed
      · simp only [hc, if_true]; exact hclose _ _ _ _ hf hc h0
      · simp only [hc, if_false]; exact h0
    exact hfull _ _ _ _ hi1 hI (Int.not_lt.1 h1) h2
  | case5 fs i m out hf closed out1 m1 i1 hi1 f h1 h2 ih =>
    apply ih
    have hI : Inv fs i1 m1 out1 := by
      simp only [i1, m1, out1]
      by_cases hc : closed
      · simp only [hc, if_true]; exact hclose _ _ _ _ hf hc h0
      · simp only [hc, if_false]; exact h0
    exact hadd _ _ _ _ hi1 hI (Int.not_lt.1 h1) (Int.not_lt.1 h2)

/-- The sum of the sizes of a manifest's contents. -/
def sizeOf (sz : Str → Nat) (m : Manifest) : Nat := (m.contents.map sz).sum

/-- Of the manifests in order: each is past the target, or nothing that comes later
would fit. -/
def Greedy (max target : Int) (sz : Str → Nat) : List Manifest → List Str → Prop
  | [], _ => True
  | m :: ms, rest =>
    (((m.total : Nat) : Int) > target ∨ ∀ p ∈ contentsOf ms ++ rest, ((m.total + sz p : Nat) : Int) > max) ∧
    Greedy max target sz ms rest

theorem greedy_mono {max target : Int} {sz : Str → Nat} {ms : List Manifest} {rest rest' : List Str}
    (h : Greedy max target sz ms rest) (hs : ∀ p ∈ rest', p ∈ rest) : Greedy max target sz ms rest' := by
  induction ms with
  | nil => trivial
  | cons m ms ih =>
    refine ⟨?_, ih h.2⟩
    rcases h.1 with h | h
    · exact .inl h
    · right
      intro p hp
      apply h
      rw [List.mem_append] at hp ⊢
      exact hp.imp id (hs p)

theorem greedy_concat {max target : Int} {sz : Str → Nat} {ms : List Manifest} {m : Manifest} {rest : List Str}
    (h : Greedy max target sz ms (m.contents ++ rest))
    (hm : ((m.total : Nat) : Int) > target ∨ ∀ p ∈ rest, ((m.total + sz p : Nat) : Int) > max) :
    Greedy max target sz (ms ++ [m]) rest := by
  induction ms with
  | nil => exact ⟨by simpa [contentsOf] using hm, trivial⟩
  | cons x xs ih =>
    refine ⟨?_, ih h.2⟩
    rcases h.1 with h | h
    · exact .inl h
    · right
      show ∀ p ∈ contentsOf (xs ++ [m]) ++ rest, _
      rw [contentsOf_append, contentsOf_singleton, List.append_assoc]
      exact h

/-- An output bag within the limit, or of one file beyond it. -/
def Bounded (max : Int) (sz : Str → Nat) (m : Manifest) : Prop :=
  ((m.total : Nat) : Int) ≤ max ∨ ∃ p, m.contents = [p] ∧ ((sz p : Nat) : Int) > max

/-- Invariant shared by the two splitters: `all` is what must be placed. -/
structure Packed (max target : Int) (sz : Str → Nat) (all : List Str) (fs : List FInfo) (m : Manifest)
    (out : List Manifest) : Prop where
  perm : (contentsOf out ++ m.contents ++ fs.map (fun f => f.path.drop 1)).Perm all
  totals : ∀ x ∈ out, x.total = sizeOf sz x
  total : m.total = sizeOf sz m
  names : ∀ x ∈ out, x.name = none
  name : m.name = none
  nonempty : ∀ x ∈ out, x.contents ≠ []
  bounded : ∀ x ∈ out, Bounded max sz x
  fits : m.contents ≠ [] → ((m.total : Nat) : Int) ≤ max
  zeros : m.contents ≠ [] → m.total = 0 → ∀ f ∈ fs, f.size = 0
  sorted : fs.Pairwise (fun a b => b.size ≤ a.size)
  sizes : ∀ f ∈ fs, sz (f.path.drop 1) = f.size
  greedy : Greedy max target sz out (m.contents ++ fs.map (fun f => f.path.drop 1))

theorem total_nil {max target : Int} {sz all fs m out} (h : Packed max target sz all fs m out)
    (hm : m.contents = []) : m.total = 0 := by
  rw [h.total, sizeOf, hm]; rfl

theorem sizeOf_add {sz : Str → Nat} {m : Manifest} {f : FInfo} (hm : m.total = sizeOf sz m)
    (hf : sz (f.path.drop 1) = f.size) : (m.add f).total = sizeOf sz (m.add f) := by
  have hf' : sz f.path.tail = f.size := by simpa using hf
  simp [Manifest.add, sizeOf, hf', hm]

theorem packed_perm_add {fs : List FInfo} {i : Nat} (hi : i < fs.length) (m : Manifest) (o : List Str) :
    (o ++ (m.add fs[i]).contents ++ (fs.eraseIdx i).map (fun f => f.path.drop 1)).Perm
      (o ++ m.contents ++ fs.map (fun f => f.path.drop 1)) := by
  have : ((fs[i].path.drop 1) :: (fs.eraseIdx i).map (fun f => f.path.drop 1)).Perm
      (fs.map (fun f => f.path.drop 1)) := by
    have := (perm_eraseIdx hi).map (fun f => f.path.drop 1)
    simpa using this
  simp only [Manifest.add, List.append_assoc, List.singleton_append]
  exact (this.append_left _).append_left _

theorem mem_add_rest {fs : List FInfo} {i : Nat} (hi : i < fs.length) (m : Manifest) :
    ∀ p ∈ (m.add fs[i]).contents ++ (fs.eraseIdx i).map (fun f => f.path.drop 1),
      p ∈ m.contents ++ fs.map (fun f => f.path.drop 1) := by
  intro p hp
  have := packed_perm_add hi m []
  simpa using this.subset (by simpa using hp)

/-- Closing a manifest that has contents. -/
theorem packed_close {max target : Int} {sz all fs m out} (h : Packed max target sz all fs m out)
    (hne : m.contents ≠ [])
    (hg : ((m.total : Nat) : Int) > target ∨ ∀ f ∈ fs, ((m.total + f.size : Nat) : Int) > max) :
    Packed max target sz all fs {} (out ++ [m]) where
  perm := by
    have := h.perm
    simpa [contentsOf_append, contentsOf_singleton] using this
  totals := by
    intro x hx
    rcases List.mem_append.1 hx with hx | hx
    · exact h.totals x hx
    · simp at hx; subst hx; exact h.total
  total := rfl
  names := by
    intro x hx
    rcases List.mem_append.1 hx with hx | hx
    · exact h.names x hx
    · simp at hx; subst hx; exact h.name
  name := rfl
  nonempty := by
    intro x hx
    rcases List.mem_append.1 hx with hx | hx
    · exact h.nonempty x hx
    · simp at hx; subst hx; exact hne
  bounded := by
    intro x hx
    rcases List.mem_append.1 hx with hx | hx
    · exact h.bounded x hx
    · simp at hx; subst hx; exact .inl (h.fits hne)
  fits := by simp
  zeros := by simp
  sorted := h.sorted
  sizes := h.sizes
  greedy := by
    refine greedy_concat (by simpa using h.greedy) ?_
    rcases hg with hg | hg
    · exact .inl hg
    · right
      intro p hp
      simp only [List.nil_append, List.mem_map] at hp
      obtain ⟨f, hf, rfl⟩ := hp
      rw [h.sizes f hf]; exact hg f hf

/-- Adding a file that fits. -/
theorem packed_add {max target : Int} {sz all fs m out} {i : Nat} (h : Packed max target sz all fs m out)
    (hi : i < fs.length) (hle : ((m.total + fs[i].size : Nat) : Int) ≤ max)
    (hz : m.contents = [] → fs[i].size = 0 → ∀ f ∈ fs, f.size = 0) :
    Packed max target sz all (fs.eraseIdx i) (m.add fs[i]) out where
  perm := (packed_perm_add hi m _).trans h.perm
  totals := h.totals
  total := sizeOf_add h.total (h.sizes _ (List.getElem_mem hi))
  names := h.names
  name := h.name
  nonempty := h.nonempty
  bounded := h.bounded
  fits := fun _ => hle
  zeros := by
    intro _ h0 f hf
    have hfm := List.mem_of_mem_eraseIdx hf
    have h0' : m.total + fs[i].size = 0 := h0
    by_cases hm : m.contents = []
    · exact hz hm (by omega) f hfm
    · exact h.zeros hm (by omega) f hfm
  sorted := h.sorted.sublist (List.eraseIdx_sublist _ _)
  sizes := fun f hf => h.sizes f (List.mem_of_mem_eraseIdx hf)
  greedy := greedy_mono h.greedy (mem_add_rest hi m)

/-- A file too big for any bag gets its own. -/
theorem packed_big {max target : Int} {sz all fs m out} {i : Nat} (h : Packed max target sz all fs m out)
    (hi : i < fs.length) (hgt : ((m.total + fs[i].size : Nat) : Int) > max) (h0 : m.total = 0) :
    m.contents = [] ∧ Packed max target sz all (fs.eraseIdx i) {} (out ++ [m.add fs[i]]) := by
  have hm : m.contents = [] := by
    refine Classical.byContradiction (fun hne => ?_)
    have h1 := h.fits hne
    have h2 := h.zeros hne h0 _ (List.getElem_mem hi)
    omega
  have hsz : sz (fs[i].path.drop 1) = fs[i].size := h.sizes _ (List.getElem_mem hi)
  refine ⟨hm, ?_⟩
  constructor
  · have := (packed_perm_add hi m (contentsOf out)).trans h.perm
    simpa [contentsOf_append, contentsOf_singleton] using this
  · intro x hx
    rcases List.mem_append.1 hx with hx | hx
    · exact h.totals x hx
    · simp at hx; subst hx
      exact sizeOf_add h.total hsz
  · rfl
  · intro x hx
    rcases List.mem_append.1 hx with hx | hx
    · exact h.names x hx
    · simp at hx; subst hx; exact h.name
  · rfl
  · intro x hx
    rcases List.mem_append.1 hx with hx | hx
    · exact h.nonempty x hx
    · simp at hx; subst hx; simp [Manifest.add]
  · intro x hx
    rcases List.mem_append.1 hx with hx | hx
    · exact h.bounded x hx
    · simp at hx; subst hx
      right
      refine ⟨fs[i].path.drop 1, by simp [Manifest.add, hm], ?_⟩
      rw [hsz]; omega
  · simp
  · simp
  · exact h.sorted.sublist (List.eraseIdx_sublist _ _)
  · exact fun f hf => h.sizes f (List.mem_of_mem_eraseIdx hf)
  · refine greedy_concat (greedy_mono h.greedy ?_) ?_
    · simpa using mem_add_rest hi m
    · right
      intro p _
      have : (m.add fs[i]).total = m.total + fs[i].size := rfl
      omega

/-- The well-packed loop's invariant: also, what was passed over does not fit. -/
structure WpInv (max target : Int) (sz : Str → Nat) (all : List Str) (fs : List FInfo) (i : Nat) (m : Manifest)
    (out : List Manifest) : Prop where
  packed : Packed max target sz all fs m out
  start : m.contents = [] → i = 0
  passed : ∀ j, (hj : j < fs.length) → j < i → ((m.total + fs[j].size : Nat) : Int) > max

theorem sorted_head {fs : List FInfo} (h : fs.Pairwise (fun a b => b.size ≤ a.size)) (h0 : 0 < fs.length)
    (hz : fs[0].size = 0) : ∀ f ∈ fs, f.size = 0 := by
  cases fs with
  | nil => simp at h0
  | cons x xs =>
    intro f hf
    rcases List.mem_cons.1 hf with rfl | hf
    · exact hz
    · have := (List.pairwise_cons.1 h).1 f hf
      simp at hz; omega

theorem wpLoop_packed {max target : Int} {sz : Str → Nat} {all : List Str} (fs : List FInfo) (i : Nat) (m : Manifest)
    (out : List Manifest) (h0 : WpInv max target sz all fs i m out) :
    ∃ j, WpInv max target sz all [] j (wpLoop max target fs i m out).2 (wpLoop max target fs i m out).1 := by
  refine wpLoop_inv (WpInv max target sz all) ?_ ?_ ?_ ?_ ?_ fs i m out h0
  · intro fs i m out hf hi h
    have hne : m.contents ≠ [] := by
      intro e
      have := h.start e
      have := List.length_pos_iff.2 hf
      omega
    refine ⟨packed_close h.packed hne (.inr ?_), fun _ => rfl, fun j _ hj => absurd hj (by omega)⟩
    intro f hfm
    obtain ⟨j, hj, rfl⟩ := List.getElem_of_mem hfm
    exact h.passed j hj (by omega)
  · intro fs i m out hi h hgt hz
    exact ⟨(packed_big h.packed hi hgt hz).2, fun _ => rfl, fun j _ hj => absurd hj (by omega)⟩
  · intro fs i m out hi h hgt hne
    refine ⟨h.packed, fun e => absurd (total_nil h.packed e) hne, fun j hj hji => ?_⟩
    by_cases e : j = i
    · subst e; exact hgt
    · exact h.passed j hj (by omega)
  · intro fs i m out hi h hle hgt
    have hz : m.contents = [] → fs[i].size = 0 → ∀ f ∈ fs, f.size = 0 := by
      intro e hs
      have := h.start e
      subst this
      exact sorted_head h.packed.sorted hi hs
    refine ⟨packed_close (packed_add h.packed hi hle hz) (by simp [Manifest.add]) (.inl hgt),
      fun _ => rfl, fun j _ hj => absurd hj (by omega)⟩
  · intro fs i m out hi h hle hgt
    have hz : m.contents = [] → fs[i].size = 0 → ∀ f ∈ fs, f.size = 0 := by
      intro e hs
      have := h.start e
      subst this
      exact sorted_head h.packed.sorted hi hs
    refine ⟨packed_add h.packed hi hle hz, fun e => by simp [Manifest.add] at e, fun j hj hji => ?_⟩
    rw [List.getElem_eraseIdx_of_lt hj hji]
    have hj' : j < fs.length := by omega
    have := h.passed j hj' hji
    have e : (m.add fs[i]).total = m.total + fs[i].size := rfl
    omega

/-- What a splitter's main loop guarantees about its manifests. -/
structure Result (max target : Int) (sz : Str → Nat) (all : List Str) (ms : List Manifest) : Prop where
  perm : (contentsOf ms).Perm all
  totals : ∀ x ∈ ms, x.total = sizeOf sz x
  names : ∀ x ∈ ms, x.name = none
  nonempty : ∀ x ∈ ms, x.contents ≠ []
  bounded : ∀ x ∈ ms, Bounded max sz x
  greedy : Greedy max target sz ms []

theorem packed_start {max target : Int} {sz : Str → Nat} {fs : List FInfo}
    (hs : fs.Pairwise (fun a b => b.size ≤ a.size)) (hz : ∀ f ∈ fs, sz (f.path.drop 1) = f.size) :
    Packed max target sz (fs.map (fun f => f.path.drop 1)) fs {} [] where
  perm := by simp [contentsOf]
  totals := by simp
  total := rfl
  names := by simp
  name := rfl
  nonempty := by simp
  bounded := by simp
  fits := by simp
  zeros := by simp
  sorted := hs
  sizes := hz
  greedy := trivial

theorem wpRun_result {max target : Int} {sz : Str → Nat} {fs : List FInfo}
    (hs : fs.Pairwise (fun a b => b.size ≤ a.size)) (hz : ∀ f ∈ fs, sz (f.path.drop 1) = f.size) :
    Result max target sz (fs.map (fun f => f.path.drop 1)) (wpRun max target fs) := by
  obtain ⟨j, h⟩ := wpLoop_packed (max := max) (target := target) fs 0 {} []
    ⟨packed_start hs hz, fun _ => rfl, fun j _ hj => absurd hj (by omega)⟩
  have p := h.packed
  unfold wpRun
  simp only
  by_cases hne : (wpLoop max target fs 0 {} []).2.contents ≠ []
  · rw [if_pos hne]
    have q := packed_close p hne (.inr (by simp))
    exact ⟨by simpa using q.perm, q.totals, q.names, q.nonempty, q.bounded, by simpa using q.greedy⟩
  · rw [if_neg hne]
    have e : (wpLoop max target fs 0 {} []).2.contents = [] := by simpa using hne
    refine ⟨?_, p.totals, p.names, p.nonempty, p.bounded, ?_⟩
    · have := p.perm; simpa [e] using this
    · have := p.greedy; simpa [e] using this

/-! ## The neighborly splitter -/

/-- What `selectFromDir` gives: a closed manifest, or one to which nothing of the
directory can be added. -/
def Selected1 (max target : Int) (sz : Str → Nat) (all : List Str) (out : List Manifest) (dir : Str)
    (fs : List FInfo) (m : Manifest) (r : List FInfo × Manifest × Bool) : Prop :=
  if r.2.2 then Packed max target sz all r.1 {} (out ++ [r.2.1])
  else Packed max target sz all r.1 r.2.1 out ∧
    (∀ f ∈ r.1, dirPart f.path = dir → ((r.2.1.total + f.size : Nat) : Int) > max) ∧
    (fs ≠ [] → m.contents = [] → r.2.1.contents ≠ []) ∧ (m.contents ≠ [] → r.2.1.contents ≠ []) ∧
    m.total ≤ r.2.1.total ∧ r.1.Sublist fs

theorem selectFromDir_packed {max target : Int} {sz : Str → Nat} {all : List Str} {out : List Manifest} (dir : Str)
    (fs : List FInfo) (i : Nat) (m : Manifest) (h : Packed max target sz all fs m out)
    (hstart : m.contents = [] → i = 0 ∧ ∀ h : 0 < fs.length, dir = dirPart fs[0].path)
    (hpass : ∀ j, (hj : j < fs.length) → j < i → dirPart fs[j].path = dir →
      ((m.total + fs[j].size : Nat) : Int) > max) :
    Selected1 max target sz all out dir fs m (selectFromDir max target dir fs i m) := by
  have hz : ∀ (fs : List FInfo) (i : Nat) (m : Manifest) (hi : i < fs.length), Packed max target sz all fs m out →
      (m.contents = [] → i = 0 ∧ ∀ h : 0 < fs.length, dir = dirPart fs[0].path) →
      m.contents = [] → fs[i].size = 0 → ∀ f ∈ fs, f.size = 0 := by
    intro fs i m hi h hstart e hs
    have := (hstart e).1
    subst this
    exact sorted_head h.sorted hi hs
  fun_induction selectFromDir max target dir fs i m with
  | case1 fs i m hi f hd hgt h0 =>
    simp only [Selected1, if_true]
    exact (packed_big h hi hgt h0).2
  | case2 fs i m hi f hd hgt h0 ih =>
    apply ih h
    · intro e; exact absurd (total_nil h e) h0
    · intro j hj hji hdj
      by_cases e : j = i
      · subst e; exact hgt
      · exact hpass j hj (by omega) hdj
  | case3 fs i m hi f hd hgt htgt =>
    simp only [Selected1, if_true]
    exact packed_close (packed_add h hi (Int.not_lt.1 hgt) (hz fs i m hi h hstart)) (by simp [Manifest.add]) (.inl htgt)
  | case4 fs i m hi f hd hgt htgt ih =>
    have ih' := ih (packed_add h hi (Int.not_lt.1 hgt) (hz fs i m hi h hstart)) (fun e => by simp [Manifest.add] at e)
      (by
        intro j hj hji hdj
        rw [List.getElem_eraseIdx_of_lt hj hji] at hdj ⊢
        have hj' : j < fs.length := by omega
        have := hpass j hj' hji hdj
        have e : (m.add f).total = m.total + f.size := rfl
        omega)
    revert ih'
    generalize selectFromDir max target dir (fs.eraseIdx i) i (m.add f) = r
    unfold Selected1
    split
    · exact id
    · rintro ⟨a, b, c, d, e, g⟩
      have hne := d (by simp [Manifest.add])
      refine ⟨a, b, fun _ _ => hne, fun _ => hne, ?_, g.trans (List.eraseIdx_sublist _ _)⟩
      have : (m.add f).total = m.total + f.size := rfl
      omega
  | case5 fs i m hi f hd ih =>
    apply ih h
    · intro e
      have h1 := hstart e
      have : i = 0 := h1.1
      subst this
      exact absurd (h1.2 hi) hd
    · intro j hj hji hdj
      by_cases e : j = i
      · subst e; exact absurd hdj.symm hd
      · exact hpass j hj (by omega) hdj
  | case6 fs i m hi =>
    simp only [Selected1, Bool.false_eq_true, if_false]
    refine ⟨h, ?_, ?_, id, Nat.le_refl _, List.Sublist.refl _⟩
    · intro f hf hd
      obtain ⟨j, hj, rfl⟩ := List.getElem_of_mem hf
      exact hpass j hj (by omega) hd
    · intro hne e
      have := (hstart e).1
      have := List.length_pos_iff.2 hne
      omega

theorem nbFill_packed {max target : Int} {sz : Str → Nat} {all : List Str} {out : List Manifest} (ds : List Str)
    (fs : List FInfo) (m : Manifest) (h : Packed max target sz all fs m out)
    (hstart : m.contents = [] → fs ≠ [] ∧ ∃ d, ds.head? = some d ∧ ∀ h : 0 < fs.length, d = dirPart fs[0].path)
    (hall : ∀ f ∈ fs, dirPart f.path ∈ ds ∨ ((m.total + f.size : Nat) : Int) > max) :
    Packed max target sz all (nbFill max target ds fs m).1 {} (out ++ [(nbFill max target ds fs m).2]) := by
  induction ds generalizing fs m with
  | nil =>
    have hne : m.contents ≠ [] := by
      intro e
      obtain ⟨_, d, hd, _⟩ := hstart e
      cases hd
    exact packed_close h hne (.inr (fun f hf => by
      have := hall f hf
      simp only [List.not_mem_nil, false_or] at this
      exact this))
  | cons d ds ih =>
    have hs := selectFromDir_packed (max := max) (target := target) d fs 0 m h
      (by
        intro e
        obtain ⟨_, d', hd, h2⟩ := hstart e
        injection hd with hd
        subst hd
        exact ⟨rfl, h2⟩) (fun j _ hj => absurd hj (by omega))
    simp only [nbFill]
    revert hs
    generalize selectFromDir max target d fs 0 m = r
    unfold Selected1
    split
    · exact id
    · rintro ⟨a, b, c, e, g, i⟩
      have hne : r.2.1.contents ≠ [] := by
        by_cases e' : m.contents = []
        · exact c (hstart e').1 e'
        · exact e e'
      refine ih _ _ a (fun e' => absurd e' hne) ?_
      intro f hf
      by_cases hd : dirPart f.path = d
      · exact .inr (b f hf hd)
      · rcases hall f (i.subset hf) with h1 | h1
        · rcases List.mem_cons.1 h1 with h1 | h1
          · exact absurd h1 hd
          · exact .inl h1
        · right; omega

theorem nbLoop_packed {max target : Int} {sz : Str → Nat} {all : List Str} (fs : List FInfo) (out : List Manifest)
    (h : Packed max target sz all fs {} out) : Packed max target sz all [] {} (nbLoop max target fs out) := by
  fun_induction nbLoop max target fs out with
  | case1 out => exact h
  | case2 fs out hne r ih =>
    apply ih
    refine nbFill_packed _ _ _ h (fun _ => ⟨hne, ?_⟩) (fun f hf => .inl ((mem_dirpathsFor _ _).2 ⟨f, hf, rfl⟩))
    cases fs with
    | nil => exact absurd rfl hne
    | cons f fs => exact ⟨_, dirpathsFor_head f fs, fun _ => rfl⟩

theorem nbRun_result {max target : Int} {sz : Str → Nat} {fs : List FInfo}
    (hs : fs.Pairwise (fun a b => b.size ≤ a.size)) (hz : ∀ f ∈ fs, sz (f.path.drop 1) = f.size) :
    Result max target sz (fs.map (fun f => f.path.drop 1)) (nbRun max target fs) := by
  have p := nbLoop_packed (max := max) (target := target) fs [] (packed_start hs hz)
  unfold nbRun
  exact ⟨by simpa using p.perm, p.totals, p.names, p.nonempty, p.bounded, by simpa using p.greedy⟩

theorem run_result (s : Splitter) {sz : Str → Nat} {fs : List FInfo}
    (hs : fs.Pairwise (fun a b => b.size ≤ a.size)) (hz : ∀ f ∈ fs, sz (f.path.drop 1) = f.size) :
    Result s.max s.tsz sz (fs.map (fun f => f.path.drop 1)) (s.run fs) := by
  unfold Splitter.run
  split
  · exact wpRun_result hs hz
  · exact nbRun_result hs hz

end Verif
