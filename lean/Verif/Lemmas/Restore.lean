import Verif.Spec.Restore
import Verif.Lemmas.Walk
import Verif.Lemmas.Paths
import Verif.Lemmas.Apply
/-!
# Lemmas about restoring
-/

namespace Verif
open Spec

/-! ## Trees -/

theorem exists_iff {t : Tree} {p : Path} (hp : p ≠ []) : t.exists p = true ↔ dget t p ≠ none := by
  unfold Tree.exists
  simp [hp, Option.isSome_iff_ne_none]

theorem read_of_dget {t t' : Tree} {p : Path} (h : dget t p = dget t' p) : t.read p = t'.read p := by
  unfold Tree.read; rw [h]

theorem isdir_of_dget {t t' : Tree} {p : Path} (h : dget t p = dget t' p) : t.isdir p = t'.isdir p := by
  unfold Tree.isdir; rw [h]

theorem exists_of_dget {t t' : Tree} {p : Path} (h : dget t p = dget t' p) : t.exists p = t'.exists p := by
  unfold Tree.exists; rw [h]

theorem isfile_of_dget {t t' : Tree} {p : Path} (h : dget t p = dget t' p) : t.isfile p = t'.isfile p := by
  unfold Tree.isfile; rw [h]

theorem file_ne_nil {t : Tree} (h : WfTree t) {p : Path} (hp : t.isfile p = true) : GoodPath p := by
  obtain ⟨c, hc⟩ := isfile_iff.1 hp
  exact h.good p (mem_dkeys_iff.2 (by rw [hc]; simp))

theorem dir_good {t : Tree} (h : WfTree t) {p : Path} (hp : t.isdir p = true) : ∀ c ∈ p, GoodName c := by
  rcases isdir_iff.1 hp with rfl | hc
  · simp
  · exact (h.good p (mem_dkeys_iff.2 (by rw [hc]; simp))).2

/-! ## Deleted paths -/

theorem splitOn_append (c : Char) (a b : Str) : splitOn c (a ++ c :: b) = splitOn c a ++ splitOn c b := by
  induction a with
  | nil => rw [List.nil_append, splitOn_cons_sep]; rfl
  | cons x xs ih =>
    by_cases hx : x = c
    · subst hx
      rw [List.cons_append, splitOn_cons_sep, splitOn_cons_sep, ih]; rfl
    · obtain ⟨h, t, h1, h2⟩ := splitOn_cons_ne' xs hx
      obtain ⟨h', t', h1', h2'⟩ := splitOn_cons_ne' (xs ++ c :: b) hx
      rw [List.cons_append, h2', h2]
      rw [ih, h1] at h1'
      simp only [List.cons_append, List.cons.injEq] at h1'
      rw [← h1'.1, ← h1'.2]; rfl

theorem startsWith_iff {a b : Str} : startsWith a b = true ↔ a <+: b := by
  unfold startsWith; exact List.isPrefixOf_iff_prefix

theorem startsWith_slash {s : Str} {d : Path} (hd : ∀ c ∈ d, GoodName c) :
    startsWith (s ++ ['/']) (joinPath d) = true ↔ ∃ q, q ≠ [] ∧ q <+: d ∧ q ≠ d ∧ joinPath q = s := by
  rw [startsWith_iff]
  constructor
  · rintro ⟨r, hr⟩
    have hne : d ≠ [] := by
      rintro rfl
      simp [joinPath, joinWith] at hr
    have hs := splitOn_joinPath' ⟨hne, hd⟩
    rw [← hr, List.append_assoc, List.singleton_append, splitOn_append] at hs
    refine ⟨splitOn '/' s, splitOn_ne_nil _ _, ⟨_, hs⟩, ?_, joinWith_splitOn _ _⟩
    intro e
    rw [e] at hs
    exact splitOn_ne_nil '/' r (List.append_right_eq_self.1 hs)
  · rintro ⟨q, hq, ⟨r, rfl⟩, hqd, rfl⟩
    have hr : r ≠ [] := by rintro rfl; exact hqd (by simp)
    rw [joinPath_append hq hr]
    exact ⟨joinPath r, by simp⟩

theorem skipDir_iff {skip : List Str} (he : [] ∉ skip) {d : Path} (hd : ∀ c ∈ d, GoodName c) :
    skipDir skip d = true ↔ Deleted skip d := by
  unfold skipDir Deleted
  rw [Bool.or_eq_true, List.any_eq_true, decide_eq_true_eq]
  constructor
  · rintro (h | ⟨s, hs, h⟩)
    · refine ⟨d, ?_, List.prefix_refl _, h⟩
      rintro rfl; exact he h
    · obtain ⟨q, hq, hp, _, rfl⟩ := (startsWith_slash hd).1 h
      exact ⟨q, hq, hp, hs⟩
  · rintro ⟨q, hq, hp, h⟩
    by_cases e : q = d
    · subst e; exact .inl h
    · exact .inr ⟨_, h, (startsWith_slash hd).2 ⟨q, hq, hp, e, rfl⟩⟩

theorem deleted_snoc {skip : List Str} {d : Path} {f : Str} :
    Deleted skip (d ++ [f]) ↔ Deleted skip d ∨ joinPath (d ++ [f]) ∈ skip := by
  unfold Deleted
  constructor
  · rintro ⟨q, hq, hp, h⟩
    rcases List.prefix_concat_iff.1 hp with rfl | hp
    · exact .inr h
    · exact .inl ⟨q, hq, hp, h⟩
  · rintro (⟨q, hq, hp, h⟩ | h)
    · exact ⟨q, hq, hp.trans (List.prefix_append _ _), h⟩
    · exact ⟨_, by simp, List.prefix_refl _, h⟩

theorem deleted_mono {skip : List Str} {p q : Path} (h : Deleted skip p) (hp : p <+: q) : Deleted skip q := by
  obtain ⟨r, hr, hrp, hs⟩ := h
  exact ⟨r, hr, hrp.trans hp, hs⟩

/-! ## The operations of a walk -/

theorem mem_actsOf {skip : List Str} {w : List WalkStep} {a : Act} :
    a ∈ actsOf skip w ↔ ∃ s ∈ w, skipDir skip s.1 = false ∧
      (a = .stat s.1 ∨ (∃ f ∈ s.2.2, joinPath (s.1 ++ [f]) ∉ skip ∧ a = .file (s.1 ++ [f])) ∨
        (∃ f ∈ s.2.1, joinPath (s.1 ++ [f]) ∉ skip ∧ a = .dir (s.1 ++ [f]))) := by
  unfold actsOf
  rw [List.mem_flatMap]
  refine exists_congr (fun s => and_congr_right (fun _ => ?_))
  by_cases h : skipDir skip s.1 = true
  · rw [if_pos h]; simp [h]
  · rw [if_neg h]
    simp only [List.mem_cons, List.mem_append, List.mem_map, List.mem_filter, decide_eq_true_eq]
    have : skipDir skip s.1 = false := by simpa using h
    rw [this]
    simp only [true_and]
    refine or_congr_right (or_congr ?_ ?_) <;>
      exact exists_congr (fun f => by rw [and_assoc]; simp only [eq_comm])

theorem file_mem_acts {t : Tree} (ht : WfTree t) {w : List WalkStep} (hw : IsWalk t w) {skip : List Str}
    (he : [] ∉ skip) {p : Path} :
    .file p ∈ actsOf skip w ↔ t.isfile p = true ∧ ¬ Deleted skip p := by
  rw [mem_actsOf]
  constructor
  · rintro ⟨s, hs, hk, h | ⟨f, hf, hn, h⟩ | ⟨f, hf, hn, h⟩⟩
    · cases h
    · simp only [Act.file.injEq] at h; subst h
      have hd : t.isdir s.1 = true := (hw.dirs _).1 ⟨s, hs, rfl⟩
      refine ⟨(hw.files s hs f).1 hf, fun hdel => ?_⟩
      rcases deleted_snoc.1 hdel with h | h
      · rw [(skipDir_iff he (dir_good ht hd)).2 h] at hk; cases hk
      · exact hn h
    · cases h
  · rintro ⟨hf, hdel⟩
    have hg := file_ne_nil ht hf
    obtain ⟨d, f, rfl⟩ := exists_concat hg.1
    obtain ⟨c, hc⟩ := isfile_iff.1 hf
    have hd : t.isdir d = true := by
      have := ht.parent (d ++ [f]) (mem_dkeys_iff.2 (by rw [hc]; simp))
      simpa using this
    obtain ⟨s, hs, rfl⟩ := (hw.dirs d).2 hd
    rw [deleted_snoc, not_or] at hdel
    refine ⟨s, hs, ?_, .inr (.inl ⟨f, (hw.files s hs f).2 hf, hdel.2, rfl⟩)⟩
    cases hk : skipDir skip s.1 with
    | false => rfl
    | true => exact absurd ((skipDir_iff he (dir_good ht hd)).1 hk) hdel.1

theorem dir_mem_acts {t : Tree} (ht : WfTree t) {w : List WalkStep} (hw : IsWalk t w) {skip : List Str}
    (he : [] ∉ skip) {p : Path} :
    .dir p ∈ actsOf skip w ↔ p ≠ [] ∧ t.isdir p = true ∧ ¬ Deleted skip p := by
  rw [mem_actsOf]
  constructor
  · rintro ⟨s, hs, hk, h | ⟨f, hf, hn, h⟩ | ⟨f, hf, hn, h⟩⟩
    · cases h
    · cases h
    · simp only [Act.dir.injEq] at h; subst h
      have hd : t.isdir s.1 = true := (hw.dirs _).1 ⟨s, hs, rfl⟩
      refine ⟨by simp, (hw.subdirs s hs f).1 hf, fun hdel => ?_⟩
      rcases deleted_snoc.1 hdel with h | h
      · rw [(skipDir_iff he (dir_good ht hd)).2 h] at hk; cases hk
      · exact hn h
  · rintro ⟨hne, hf, hdel⟩
    obtain ⟨d, f, rfl⟩ := exists_concat hne
    have hc : dget t (d ++ [f]) = some .dir := by
      rcases isdir_iff.1 hf with h | h
      · simp at h
      · exact h
    have hd : t.isdir d = true := by
      have := ht.parent (d ++ [f]) (mem_dkeys_iff.2 (by rw [hc]; simp))
      simpa using this
    obtain ⟨s, hs, rfl⟩ := (hw.dirs d).2 hd
    rw [deleted_snoc, not_or] at hdel
    refine ⟨s, hs, ?_, .inr (.inr ⟨f, (hw.subdirs s hs f).2 hf, hdel.2, rfl⟩)⟩
    cases hk : skipDir skip s.1 with
    | false => rfl
    | true => exact absurd ((skipDir_iff he (dir_good ht hd)).1 hk) hdel.1

/-! ## Running them -/

/-- What operations make of the entry `n` at `p`. -/
def actEffect (ow : Bool) (src : Tree) (acts : List Act) (p : Path) (n : Option Node) : Option Node :=
  if .file p ∈ acts ∧ (ow = true ∨ n = none) then (src.read p).map Node.file
  else if .dir p ∈ acts ∧ n = none then some .dir
  else n

theorem doAct_ok {ow : Bool} {src : Tree} {s s' : Copying} {a : Act} (h : doAct ow src s a = .ok s')
    {p : Path} (hp : p ≠ []) : dget s'.dest p = actEffect ow src [a] p (dget s.dest p) := by
  unfold actEffect
  cases a with
  | stat q =>
    simp only [doAct] at h
    split at h
    · cases h; simp
    · cases h
  | dir q =>
    simp only [doAct] at h
    by_cases hq : s.dest.exists q = true
    · rw [if_pos hq] at h; cases h
      by_cases e : p = q
      · subst e
        rw [exists_iff hp] at hq
        simp [hq]
      · simp [e]
    · rw [if_neg hq] at h
      cases hm : s.dest.mkdir q with
      | error e => rw [hm] at h; cases h
      | ok d =>
        rw [hm] at h; cases h
        obtain ⟨rfl, _⟩ := Tree.mkdir_ok hm
        rw [dget_dset]
        by_cases e : p = q
        · subst e
          have : dget s.dest p = none := by
            rw [exists_iff hp] at hq; simpa using hq
          simp [this]
        · rw [if_neg (fun h => e h.symm)]; simp [e]
  | file q =>
    simp only [doAct] at h
    by_cases e : p = q
    · subst e
      by_cases ho : (ow && s.dest.exists p) = true
      · rw [if_pos ho] at h
        rw [Bool.and_eq_true] at ho
        unfold Tree.remove at h
        by_cases hf : s.dest.isfile p = true
        · rw [if_pos hf] at h
          have hx : (Tree.exists (ddel s.dest p) p) = false := by
            unfold Tree.exists; rw [dget_ddel, if_pos rfl]; simp [hp]
          simp only [hx] at h
          rw [if_neg (by simp)] at h
          cases hc : src.read p with
          | none => rw [hc] at h; cases h
          | some c =>
            rw [hc] at h
            simp only at h
            cases hw : Tree.write (ddel s.dest p) p c with
            | error e => rw [hw] at h; cases h
            | ok d =>
              rw [hw] at h; cases h
              obtain ⟨rfl, _⟩ := Tree.write_ok hw
              rw [dget_dset, if_pos rfl]
              simp [ho.1]
        · rw [if_neg hf] at h; cases h
      · rw [if_neg ho] at h
        simp only at h
        by_cases hx : s.dest.exists p = true
        · rw [if_pos hx] at h; cases h
          have hn := (exists_iff hp).1 hx
          have ho' : ow = false := by
            rw [hx, Bool.and_true] at ho; simpa using ho
          simp [hn, ho']
        · rw [if_neg hx] at h
          have hn : dget s.dest p = none := by rw [exists_iff hp] at hx; simpa using hx
          cases hc : src.read p with
          | none => rw [hc] at h; cases h
          | some c =>
            rw [hc] at h
            simp only at h
            cases hw : s.dest.write p c with
            | error e => rw [hw] at h; cases h
            | ok d =>
              rw [hw] at h; cases h
              obtain ⟨rfl, _⟩ := Tree.write_ok hw
              rw [dget_dset, if_pos rfl]
              simp [hn]
    · have hd : ∀ d, (if (ow && s.dest.exists q) = true then s.dest.remove q else .ok s.dest) = .ok d →
          dget d p = dget s.dest p := by
        intro d hd
        by_cases ho : (ow && s.dest.exists q) = true
        · rw [if_pos ho] at hd
          unfold Tree.remove at hd
          by_cases hf : s.dest.isfile q = true
          · rw [if_pos hf] at hd; cases hd
            rw [dget_ddel, if_neg (fun h => e h.symm)]
          · rw [if_neg hf] at hd; cases hd
        · rw [if_neg ho] at hd; cases hd; rfl
      have hrhs : actEffect ow src [.file q] p (dget s.dest p) = dget s.dest p := by
        unfold actEffect; simp [e]
      unfold actEffect at hrhs
      rw [hrhs]
      cases ho : (if (ow && s.dest.exists q) = true then s.dest.remove q else .ok s.dest) with
      | error e => rw [ho] at h; cases h
      | ok d =>
        rw [ho] at h
        simp only at h
        rw [← hd d ho]
        by_cases hx : d.exists q = true
        · rw [if_pos hx] at h; cases h; rfl
        · rw [if_neg hx] at h
          cases hc : src.read q with
          | none => rw [hc] at h; cases h
          | some c =>
            rw [hc] at h
            simp only at h
            cases hw : d.write q c with
            | error e => rw [hw] at h; cases h
            | ok d =>
              rw [hw] at h; cases h
              obtain ⟨rfl, _⟩ := Tree.write_ok hw
              rw [dget_dset, if_neg (fun h => e h.symm)]

theorem actEffect_cons {ow : Bool} {src : Tree} {a : Act} {rest : List Act} {p : Path}
    (hc : ¬ (.file p ∈ a :: rest ∧ .dir p ∈ a :: rest)) (hs : .file p ∈ a :: rest → ∃ c, src.read p = some c)
    (n : Option Node) :
    actEffect ow src (a :: rest) p n = actEffect ow src rest p (actEffect ow src [a] p n) := by
  unfold actEffect
  by_cases hf : .file p ∈ a :: rest
  · obtain ⟨c, hcs⟩ := hs hf
    have hnd : .dir p ∉ a :: rest := fun h => hc ⟨hf, h⟩
    have hnd1 : .dir p ≠ a := fun h => hnd (by simp [h])
    have hnd2 : .dir p ∉ rest := fun h => hnd (by simp [h])
    by_cases hfa : .file p = a
    · subst hfa
      simp only [hcs, List.mem_cons, true_or, true_and, hnd2, false_and, if_false, List.mem_nil_iff, or_false,
        Option.map_some, hnd1]
      by_cases hn : ow = true ∨ n = none
      · simp [hn]
      · simp only [hn, and_false, if_false]
    · have hfr : .file p ∈ rest := by
        rcases List.mem_cons.1 hf with h | h
        · exact absurd h hfa
        · exact h
      simp [hfa, hfr, hnd1, hnd2]
  · have h1 : .file p ≠ a := fun h => hf (by simp [h])
    have h2 : .file p ∉ rest := fun h => hf (by simp [h])
    by_cases hda : .dir p = a
    · subst hda
      by_cases hn : n = none <;> simp [h2, hn]
    · simp [h1, h2, hda]

/-- The operations belong to a source: what is copied are files of it, what is created are
directories of it. -/
structure ActsOf (src : Tree) (acts : List Act) : Prop where
  file : ∀ p, .file p ∈ acts → GoodPath p ∧ ∃ c, src.read p = some c
  dir : ∀ p, .dir p ∈ acts → GoodPath p ∧ src.isdir p = true

theorem ActsOf.clash {src : Tree} {acts : List Act} (h : ActsOf src acts) (p : Path) :
    ¬ (.file p ∈ acts ∧ .dir p ∈ acts) := by
  rintro ⟨h1, h2⟩
  obtain ⟨hg, c, hc⟩ := h.file p h1
  rcases isdir_iff.1 (h.dir p h2).2 with e | e
  · exact hg.1 e
  · rw [Tree.read, e] at hc; cases hc

theorem ActsOf.mono {src : Tree} {acts acts' : List Act} (h : ActsOf src acts) (hs : ∀ a ∈ acts', a ∈ acts) :
    ActsOf src acts' := ⟨fun p hp => h.file p (hs _ hp), fun p hp => h.dir p (hs _ hp)⟩

theorem actsOf_ok {t : Tree} (ht : WfTree t) {w : List WalkStep} (hw : IsWalk t w) {skip : List Str}
    (he : [] ∉ skip) : ActsOf t (actsOf skip w) := by
  constructor
  · intro p hp
    have := ((file_mem_acts ht hw he).1 hp).1
    exact ⟨file_ne_nil ht this, by rw [isfile_read] at this; exact Option.isSome_iff_exists.1 this⟩
  · intro p hp
    obtain ⟨h1, h2, _⟩ := (dir_mem_acts ht hw he).1 hp
    exact ⟨⟨h1, dir_good ht h2⟩, h2⟩

theorem runActs_ok {ow : Bool} {src : Tree} {acts : List Act} (ha : ActsOf src acts) {s s' : Copying}
    (h : runActs ow src acts s = .ok s') {p : Path} (hp : p ≠ []) :
    dget s'.dest p = actEffect ow src acts p (dget s.dest p) := by
  induction acts generalizing s with
  | nil => cases h; simp [actEffect]
  | cons a rest ih =>
    simp only [runActs] at h
    cases h1 : doAct ow src s a with
    | error e => rw [h1] at h; cases h
    | ok s1 =>
      rw [h1] at h
      rw [ih (ha.mono (fun a ha => List.mem_cons_of_mem _ ha)) h, doAct_ok h1 hp]
      exact (actEffect_cons (ha.clash p) (fun hf => (ha.file p hf).2) _).symm

/-- The paths copied. -/
theorem runActs_updated {ow : Bool} {src : Tree} {acts : List Act} (ha : ActsOf src acts) {s s' : Copying}
    (h : runActs ow src acts s = .ok s') (x : Str) :
    x ∈ s'.updated ↔ x ∈ s.updated ∨
      ∃ p, .file p ∈ acts ∧ (ow = true ∨ dget s.dest p = none) ∧ x = slashPath p := by
  induction acts generalizing s with
  | nil => cases h; simp
  | cons a rest ih =>
    simp only [runActs] at h
    cases h1 : doAct ow src s a with
    | error e => rw [h1] at h; cases h
    | ok s1 =>
      rw [h1] at h
      have hr := ha.mono (acts' := rest) (fun a ha => List.mem_cons_of_mem _ ha)
      rw [ih hr h]
      -- one step
      have hu : x ∈ s1.updated ↔ x ∈ s.updated ∨
          ∃ p, .file p = a ∧ (ow = true ∨ dget s.dest p = none) ∧ x = slashPath p := by
        cases a with
        | stat q =>
          simp only [doAct] at h1
          split at h1
          · cases h1; simp
          · cases h1
        | dir q =>
          simp only [doAct] at h1
          split at h1
          · cases h1; simp
          · split at h1
            · cases h1
            · cases h1; simp
        | file q =>
          have hq := (ha.file q List.mem_cons_self).1.1
          simp only [doAct] at h1
          cases ho : (if (ow && s.dest.exists q) = true then s.dest.remove q else .ok s.dest) with
          | error e => rw [ho] at h1; cases h1
          | ok d =>
            rw [ho] at h1
            simp only at h1
            by_cases hx : d.exists q = true
            · rw [if_pos hx] at h1; cases h1
              have hno : ¬ (ow && s.dest.exists q) = true := by
                intro hh
                rw [if_pos hh] at ho
                unfold Tree.remove at ho
                split at ho
                · cases ho
                  rw [exists_iff hq, dget_ddel, if_pos rfl] at hx
                  exact hx rfl
                · cases ho
              rw [if_neg hno] at ho; cases ho
              have : ¬ (ow = true ∨ dget s.dest q = none) := by
                rintro (h | h)
                · rw [h, hx] at hno; exact hno rfl
                · exact (exists_iff hq).1 hx h
              constructor
              · exact .inl
              · rintro (h | ⟨p, hp, h, _⟩)
                · exact h
                · cases hp; exact absurd h this
            · rw [if_neg hx] at h1
              have hy : ow = true ∨ dget s.dest q = none := by
                by_cases hoo : ow = true
                · exact .inl hoo
                · rw [if_neg (by simp [hoo])] at ho; cases ho
                  right
                  rw [exists_iff hq] at hx; simpa using hx
              cases hc : src.read q with
              | none => rw [hc] at h1; cases h1
              | some c =>
                rw [hc] at h1
                simp only at h1
                cases hw : d.write q c with
                | error e => rw [hw] at h1; cases h1
                | ok d' =>
                  rw [hw] at h1; cases h1
                  simp only [List.mem_append, List.mem_singleton]
                  refine or_congr_right ⟨fun h => ⟨q, rfl, hy, h⟩, ?_⟩
                  rintro ⟨p, hp, _, h⟩
                  cases hp; exact h
      rw [hu]
      have hdest : ∀ p, p ≠ [] → dget s1.dest p = actEffect ow src [a] p (dget s.dest p) := fun p hp => doAct_ok h1 hp
      constructor
      · rintro ((h | ⟨p, rfl, hn, rfl⟩) | ⟨p, hp, hn, rfl⟩)
        · exact .inl h
        · exact .inr ⟨p, List.mem_cons_self, hn, rfl⟩
        · refine .inr ⟨p, List.mem_cons_of_mem _ hp, ?_, rfl⟩
          rcases hn with hn | hn
          · exact .inl hn
          · right
            rw [hdest p (ha.file p (List.mem_cons_of_mem _ hp)).1.1] at hn
            obtain ⟨c, hc⟩ := (ha.file p (List.mem_cons_of_mem _ hp)).2
            unfold actEffect at hn
            split at hn
            · rw [hc] at hn; cases hn
            · split at hn
              · cases hn
              · exact hn
      · rintro (h | ⟨p, hp, hn, rfl⟩)
        · exact .inl (.inl h)
        · by_cases e : .file p = a
          · exact .inl (.inr ⟨p, e, hn, rfl⟩)
          · have hpr : .file p ∈ rest := by
              rcases List.mem_cons.1 hp with h | h
              · exact absurd h e
              · exact h
            refine .inr ⟨p, hpr, ?_, rfl⟩
            rcases hn with hn | hn
            · exact .inl hn
            · right
              have hd : .dir p ≠ a := fun h => ha.clash p ⟨hp, by simp [h]⟩
              rw [hdest p (ha.file p hp).1.1, hn]
              simp [actEffect, e, hd]

theorem wf_ddel {t : Tree} (h : WfTree t) {p : Path} (hp : t.isfile p = true) : WfTree (ddel t p) := by
  have hk : ∀ q, q ∈ dkeys (ddel t p) → q ∈ dkeys t ∧ q ≠ p := by
    intro q hq
    rw [mem_dkeys_iff, dget_ddel] at hq
    by_cases e : p = q
    · rw [if_pos e] at hq; simp at hq
    · rw [if_neg e] at hq
      exact ⟨mem_dkeys_iff.2 hq, fun h => e h.symm⟩
  refine ⟨nodup_ddel h.nodup _, fun q hq => h.good q (hk q hq).1, fun q hq => ?_⟩
  have := h.parent q (hk q hq).1
  rcases isdir_iff.1 this with e | e
  · rw [e]; rfl
  · rw [isdir_iff]; right
    rw [dget_ddel, if_neg]
    · exact e
    · rintro rfl
      obtain ⟨c, hc⟩ := isfile_iff.1 hp
      rw [hc] at e; cases e

theorem wf_doAct {ow : Bool} {src : Tree} {s s' : Copying} {a : Act} (ha : ActsOf src [a]) (hw : WfTree s.dest)
    (h : doAct ow src s a = .ok s') : WfTree s'.dest := by
  cases a with
  | stat q =>
    simp only [doAct] at h
    split at h
    · cases h; exact hw
    · cases h
  | dir q =>
    simp only [doAct] at h
    split at h
    · cases h; exact hw
    · split at h
      · cases h
      · rename_i hm
        cases h
        exact wf_mkdir hw (ha.dir q List.mem_cons_self).1 hm
  | file q =>
    simp only [doAct] at h
    cases ho : (if (ow && s.dest.exists q) = true then s.dest.remove q else .ok s.dest) with
    | error e => rw [ho] at h; cases h
    | ok d =>
      rw [ho] at h
      simp only at h
      have hd : WfTree d := by
        by_cases hx : (ow && s.dest.exists q) = true
        · rw [if_pos hx] at ho
          unfold Tree.remove at ho
          split at ho
          · rename_i hf; cases ho; exact wf_ddel hw hf
          · cases ho
        · rw [if_neg hx] at ho; cases ho; exact hw
      split at h
      · cases h; exact hd
      · split at h
        · cases h
        · split at h
          · cases h
          · rename_i hm
            cases h
            exact wf_write hd (ha.file q List.mem_cons_self).1 hm

theorem wf_runActs {ow : Bool} {src : Tree} {acts : List Act} (ha : ActsOf src acts) {s s' : Copying}
    (hw : WfTree s.dest) (h : runActs ow src acts s = .ok s') : WfTree s'.dest := by
  induction acts generalizing s with
  | nil => cases h; exact hw
  | cons a rest ih =>
    simp only [runActs] at h
    cases h1 : doAct ow src s a with
    | error e => rw [h1] at h; cases h
    | ok s1 =>
      rw [h1] at h
      exact ih (ha.mono (fun a ha => List.mem_cons_of_mem _ ha))
        (wf_doAct (ha.mono (by simp)) hw h1) h

theorem runActs_append {ow : Bool} {src : Tree} (a b : List Act) (s : Copying) :
    runActs ow src (a ++ b) s = match runActs ow src a s with
      | .error e => .error e
      | .ok s => runActs ow src b s := by
  induction a generalizing s with
  | nil => rfl
  | cons x rest ih =>
    simp only [List.cons_append, runActs]
    cases doAct ow src s x with
    | error e => rfl
    | ok s1 => exact ih s1

end Verif
