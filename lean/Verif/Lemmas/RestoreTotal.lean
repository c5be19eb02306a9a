import Verif.Lemmas.RestoreWhole
/-!
# Walks exist, and copying along one succeeds
-/

namespace Verif

open Spec

theorem mem_subdirsOf {t : Tree} (h : WfTree t) {d : Path} {f : Str} :
    f ∈ subdirsOf t d ↔ t.isdir (d ++ [f]) = true := by
  rw [isdir_iff]
  unfold subdirsOf
  rw [List.mem_filterMap]
  constructor
  · rintro ⟨⟨q, n⟩, he, hf⟩
    cases n with
    | file c => simp at hf
    | dir =>
      simp only at hf
      split at hf
      · rename_i hd
        right
        obtain ⟨q', x, rfl⟩ := exists_concat (h.good q (List.mem_map.2 ⟨_, he, rfl⟩)).1
        simp only [List.dropLast_concat] at hd
        simp only [List.getLast?_append, List.getLast?_singleton, Option.some_or, Option.some.injEq] at hf
        subst hd hf
        exact dget_of_mem h.nodup he
      · cases hf
  · rintro (e | hc)
    · simp at e
    · exact ⟨(d ++ [f], .dir), mem_of_dget hc, by simp⟩

/-- The walk that PyFilesystem makes is a walk of the tree. -/
theorem isWalk_walkOf {t : Tree} (h : WfTree t) : IsWalk t (walkOf t) := by
  have hle : ∀ (l : List Nat), ∀ x ∈ l, x ≤ l.foldr max 0 := by
    intro l
    induction l with
    | nil => simp
    | cons y l ih =>
      intro x hx
      rw [List.foldr_cons]
      rcases List.mem_cons.1 hx with rfl | hx
      · exact Nat.le_max_left _ _
      · exact Nat.le_trans (ih x hx) (Nat.le_max_right _ _)
  have hdirs : ∀ d, d ∈ ([] :: (t.filter (fun e => e.2 = .dir)).map Prod.fst) ↔ t.isdir d = true := by
    intro d
    rw [isdir_iff, List.mem_cons, List.mem_map]
    refine or_congr_right ⟨?_, ?_⟩
    · rintro ⟨⟨q, n⟩, he, rfl⟩
      rw [List.mem_filter] at he
      have : n = .dir := by simpa using he.2
      subst this
      exact dget_of_mem h.nodup he.1
    · intro hd
      exact ⟨(d, .dir), List.mem_filter.2 ⟨mem_of_dget hd, by simp⟩, rfl⟩
  have hnd : ([] :: (t.filter (fun e => e.2 = .dir)).map Prod.fst).Nodup := by
    rw [List.nodup_cons]
    refine ⟨?_, ?_⟩
    · intro hx
      obtain ⟨⟨q, n⟩, he, e⟩ := List.mem_map.1 hx
      exact (h.good q (List.mem_map.2 ⟨_, (List.mem_filter.1 he).1, rfl⟩)).1 e
    · have := h.nodup
      unfold dkeys at this
      exact this.sublist (List.filter_sublist.map _)
  constructor
  · intro d
    rw [← hdirs]
    unfold walkOf
    simp only [List.mem_map, List.mem_flatMap, List.mem_range, List.mem_filter, decide_eq_true_eq]
    constructor
    · rintro ⟨s, ⟨d', ⟨n, hn, hd', _⟩, rfl⟩, rfl⟩
      exact hd'
    · intro hd
      refine ⟨_, ⟨d, ⟨d.length, ?_, hd, rfl⟩, rfl⟩, rfl⟩
      exact Nat.lt_succ_of_le (hle _ _ (List.mem_map.2 ⟨d, hd, rfl⟩))
  · unfold walkOf
    rw [List.pairwise_map, List.pairwise_flatMap]
    constructor
    · intro n _
      refine ((hnd.sublist List.filter_sublist).imp_of_mem ?_)
      intro a b ha hb hab (hpre : b <+: a)
      have h1 := (List.mem_filter.1 ha).2
      have h2 := (List.mem_filter.1 hb).2
      simp only [decide_eq_true_eq] at h1 h2
      exact hab (hpre.eq_of_length (by omega)).symm
    · refine List.Pairwise.imp ?_ (List.pairwise_lt_range)
      intro m n hmn a ha b hb (hpre : b <+: a)
      have h1 := (List.mem_filter.1 ha).2
      have h2 := (List.mem_filter.1 hb).2
      simp only [decide_eq_true_eq] at h1 h2
      have := hpre.length_le
      omega
  · intro s hs f
    unfold walkOf at hs
    obtain ⟨d, _, rfl⟩ := List.mem_map.1 hs
    exact mem_filesOf h
  · intro s hs f
    unfold walkOf at hs
    obtain ⟨d, _, rfl⟩ := List.mem_map.1 hs
    exact mem_subdirsOf h

/-! ## Copying succeeds -/

/-- The directory an operation works in. -/
def Act.base : Act → Path
  | .stat p => p
  | .file p => p.dropLast
  | .dir p => p.dropLast

/-- The directories that operations work in have been created before. -/
def AllReady (seen : List Act) : List Act → Prop
  | [] => True
  | a :: rest => (a.base = [] ∨ .dir a.base ∈ seen) ∧ AllReady (seen ++ [a]) rest

theorem allReady_append {seen l m : List Act} : AllReady seen (l ++ m) ↔ AllReady seen l ∧ AllReady (seen ++ l) m := by
  induction l generalizing seen with
  | nil => simp [AllReady]
  | cons a l ih =>
    simp only [List.cons_append, AllReady, ih, List.append_assoc, List.nil_append, and_assoc]

theorem allReady_base {seen l : List Act} {b : Path} (hb : b = [] ∨ .dir b ∈ seen) (hl : ∀ a ∈ l, a.base = b) :
    AllReady seen l := by
  induction l generalizing seen with
  | nil => trivial
  | cons a l ih =>
    refine ⟨by rw [hl a List.mem_cons_self]; exact hb, ih ?_ (fun x hx => hl x (List.mem_cons_of_mem _ hx))⟩
    exact hb.imp id (fun h => List.mem_append_left _ h)

theorem allReady_actsOf {t : Tree} (ht : WfTree t) {skip : List Str} (he : [] ∉ skip) {w : List WalkStep} (hw : IsWalk t w) :
    AllReady [] (actsOf skip w) := by
  have main : ∀ w2 w1, w = w1 ++ w2 → AllReady (actsOf skip w1) (actsOf skip w2) := by
    intro w2
    induction w2 with
    | nil => intro _ _; trivial
    | cons s w2 ih =>
      intro w1 hw12
      have hstep : actsOf skip (s :: w2) = actsOf skip [s] ++ actsOf skip w2 := by
        unfold actsOf; simp
      have happ : actsOf skip w1 ++ actsOf skip [s] = actsOf skip (w1 ++ [s]) := by
        unfold actsOf; simp
      rw [hstep, allReady_append, happ]
      refine ⟨?_, ih (w1 ++ [s]) (by rw [hw12]; simp)⟩
      by_cases hk : skipDir skip s.1 = true
      · have : actsOf skip [s] = [] := by simp [actsOf, hk]
        rw [this]; trivial
      · refine allReady_base (b := s.1) ?_ ?_
        · by_cases hs : s.1 = []
          · exact .inl hs
          · right
            obtain ⟨q, f, hqf⟩ := exists_concat hs
            have hsw : s ∈ w := by rw [hw12]; simp
            have hd : t.isdir s.1 = true := (hw.dirs s.1).1 ⟨s, hsw, rfl⟩
            have hq : t.isdir q = true := by
              rcases isdir_iff.1 hd with e | e
              · exact absurd e hs
              · have := ht.parent s.1 (mem_dkeys_iff.2 ⟨_, e⟩)
                rw [hqf, List.dropLast_concat] at this
                exact this
            obtain ⟨s', hs', hs'q⟩ := (hw.dirs q).2 hq
            have hs1 : s' ∈ w1 := by
              rw [hw12, List.mem_append, List.mem_cons] at hs'
              rcases hs' with h | rfl | h
              · exact h
              · rw [hqf] at hs'q
                exact absurd hs'q (by intro e; have := congrArg List.length e; simp at this)
              · have hord := hw.order
                rw [hw12, List.pairwise_append] at hord
                have := (List.pairwise_cons.1 hord.2.1).1 s' h
                exact absurd ⟨[f], by rw [hs'q, hqf]⟩ this
            rw [mem_actsOf]
            have hgood := dir_good ht hd
            have hgq := dir_good ht hq
            rw [skipDir_iff he hgood] at hk
            refine ⟨s', hs1, ?_, .inr (.inr ⟨f, ?_, ?_, ?_⟩)⟩
            · rw [Bool.eq_false_iff]
              intro hx
              rw [hs'q, skipDir_iff he hgq] at hx
              exact hk (deleted_mono hx ⟨[f], hqf.symm⟩)
            · have hm := (hw.subdirs s' (by rw [hw12]; simp [hs1]) f).2
              rw [hs'q, ← hqf] at hm
              exact hm hd
            · intro hx
              rw [hs'q, ← hqf] at hx
              exact hk ⟨s.1, hs, List.prefix_refl _, hx⟩
            · rw [hs'q, ← hqf]
        · intro a ha
          obtain ⟨s', hs', _, h⟩ := mem_actsOf.1 ha
          rw [List.mem_singleton] at hs'
          subst hs'
          rcases h with rfl | ⟨f, _, _, rfl⟩ | ⟨f, _, _, rfl⟩ <;> simp [Act.base]
  have := main w [] rfl
  simpa [actsOf] using this

theorem runActs_total {ow : Bool} {src d : Tree} {acts : List Act} (ha : ActsOf src acts) (hr : AllReady [] acts)
    (hc : NoClash [src, d]) (u : List Str) : ∃ s, runActs ow src acts ⟨d, u⟩ = .ok s := by
  have c1 : ∀ p, src.isdir p = true → d.isfile p = true → False := fun p h1 h2 =>
    hc d (by simp) src (by simp) p ⟨h2, h1⟩
  have c2 : ∀ p, src.isfile p = true → d.isdir p = true → False := fun p h1 h2 =>
    hc src (by simp) d (by simp) p ⟨h1, h2⟩
  have main : ∀ a2 a1 s, acts = a1 ++ a2 → AllReady a1 a2 → runActs ow src a1 ⟨d, u⟩ = .ok s →
      ∃ s', runActs ow src a2 s = .ok s' := by
    intro a2
    induction a2 with
    | nil => intro a1 s _ _ _; exact ⟨s, rfl⟩
    | cons a a2 ih =>
      intro a1 s hac hrd hs
      have ha1 : ActsOf src a1 := ha.mono (by rw [hac]; intro x hx; simp [hx])
      have hst := fun p (hp : p ≠ []) => runActs_ok ha1 hs hp
      -- the directory worked in is one
      have hdir : s.dest.isdir a.base = true := by
        rcases hrd.1 with e | e
        · rw [e]; rfl
        · have hg := ha1.dir _ e
          rw [isdir_iff]; right
          rw [hst _ hg.1.1]
          unfold actEffect
          have hf : ¬ .file a.base ∈ a1 := fun h => ha1.clash _ ⟨h, e⟩
          rw [if_neg (fun h => hf h.1)]
          cases hn : dget d a.base with
          | none => rw [if_pos ⟨e, rfl⟩]
          | some n =>
            rw [if_neg (by simp)]
            cases n with
            | dir => rfl
            | file c => exact absurd (isfile_iff.2 ⟨c, hn⟩) (fun h => c1 _ hg.2 h)
      have hstep : ∃ s1, doAct ow src s a = .ok s1 := by
        cases a with
        | stat p =>
          simp only [doAct]
          have : s.dest.exists p = true := by
            unfold Act.base at hdir
            rcases isdir_iff.1 hdir with e | e
            · simp [Tree.exists, e]
            · simp [Tree.exists, e]
          rw [if_pos this]
          exact ⟨s, rfl⟩
        | file p =>
          have hmem : .file p ∈ acts := by rw [hac]; simp
          obtain ⟨hg, c, hcr⟩ := ha.file p hmem
          have hsf : src.isfile p = true := by rw [isfile_read, hcr]; rfl
          have hnd : ∀ x : Tree, (∀ q, x.isdir q = true → q = p → s.dest.isdir q = true) → x.isdir p = true → False := by
            intro x hx hxp
            have h1 := hx p hxp rfl
            rcases isdir_iff.1 h1 with e | e
            · exact hg.1 e
            · rw [hst p hg.1] at e
              unfold actEffect at e
              have hnodir : ¬ .dir p ∈ a1 := fun h => ha.clash p ⟨hmem, by rw [hac]; simp [h]⟩
              split at e
              · rw [hcr] at e; cases e
              · rw [if_neg (fun h => hnodir h.1)] at e
                exact c2 p hsf (isdir_iff.2 (.inr e))
          have hnodir : s.dest.isdir p = false := by
            rw [Bool.eq_false_iff]; exact fun h => hnd s.dest (fun _ h _ => h) h
          simp only [doAct]
          have hrem : ∃ d', (if (ow && s.dest.exists p) = true then s.dest.remove p else .ok s.dest) = .ok d' ∧
              d'.isdir p = false ∧ d'.isdir p.dropLast = true := by
            by_cases hx : (ow && s.dest.exists p) = true
            · rw [if_pos hx]
              have hex : s.dest.exists p = true := (Bool.and_eq_true_iff.1 hx).2
              have hfile : s.dest.isfile p = true := by
                rw [exists_iff hg.1] at hex
                cases hn : dget s.dest p with
                | none => exact absurd hn hex
                | some n =>
                  cases n with
                  | file c => exact isfile_iff.2 ⟨c, hn⟩
                  | dir => rw [isdir_iff.2 (.inr hn)] at hnodir; cases hnodir
              unfold Tree.remove
              rw [if_pos hfile]
              refine ⟨_, rfl, ?_, ?_⟩
              · rw [Bool.eq_false_iff]
                intro h
                rcases isdir_iff.1 h with e | e
                · exact hg.1 e
                · rw [dget_ddel, if_pos rfl] at e; cases e
              · have hdir : s.dest.isdir p.dropLast = true := hdir
                rcases isdir_iff.1 hdir with e | e
                · rw [e]; rfl
                · rw [isdir_iff]; right
                  rw [dget_ddel, if_neg, e]
                  intro e'
                  have := congrArg List.length e'
                  rw [List.length_dropLast] at this
                  have := List.length_pos_iff.2 hg.1
                  omega
            · rw [if_neg hx]
              exact ⟨_, rfl, hnodir, hdir⟩
          obtain ⟨d', hd', hd1, hd2⟩ := hrem
          rw [hd']
          simp only
          split
          · exact ⟨_, rfl⟩
          · rw [hcr]
            simp only [Tree.write]
            rw [if_neg (by simp [hd1, hd2])]
            exact ⟨_, rfl⟩
        | dir p =>
          simp only [doAct]
          by_cases hx : s.dest.exists p = true
          · rw [if_pos hx]; exact ⟨_, rfl⟩
          · rw [if_neg hx]
            unfold Tree.mkdir
            rw [if_neg]
            · exact ⟨_, rfl⟩
            · unfold Act.base at hdir
              simp only [Bool.not_eq_true] at hx
              simp [hx, hdir]
      obtain ⟨s1, hs1⟩ := hstep
      simp only [runActs, hs1]
      refine ih (a1 ++ [a]) s1 (by rw [hac]; simp) hrd.2 ?_
      rw [runActs_append, hs]
      simp only [runActs, hs1]
  obtain ⟨s, hs⟩ := main acts [] ⟨d, u⟩ rfl hr rfl
  exact ⟨s, hs⟩

end Verif
