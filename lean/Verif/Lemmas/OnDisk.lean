import Verif.Spec.OnDisk
import Verif.Lemmas.TagDir
import Verif.Lemmas.Paths
import Verif.Lemmas.Apply
import Verif.Lemmas.RestoreAll
/-!
# Lemmas about head bag objects and the disk
-/

namespace Verif

open Spec

/-! ## Where paths lead -/

theorem startsWith_slash_head (p : Str) : (startsWith ['/'] p = true) ↔ p.head? = some '/' := by
  cases p with
  | nil => simp [startsWith]
  | cons c cs =>
    simp only [startsWith, List.isPrefixOf, Bool.and_true, beq_iff_eq, List.head?_cons, Option.some.injEq]
    exact ⟨Eq.symm, Eq.symm⟩

theorem follow_filter (cur : Path) (cs : List Str) :
    follow cur (cs.filter (fun c => c ≠ [] && c ≠ ['.'])) = follow cur cs := by
  induction cs generalizing cur with
  | nil => rfl
  | cons c cs ih =>
    by_cases h : c = [] ∨ c = ['.']
    · rw [List.filter_cons, if_neg (by rcases h with rfl | rfl <;> simp), ih]
      simp [follow, h]
    · have h' : c ≠ [] ∧ c ≠ ['.'] := not_or.1 h
      rw [List.filter_cons, if_pos (by simp [h'.1, h'.2])]
      simp only [follow, h, if_false, ih]

theorem osResolve_follow {disk : Tree} {cs : List Str} {cur q : Path} (h : osResolve disk cur cs = some q) :
    q = follow cur cs := by
  induction cs generalizing cur with
  | nil => simp only [osResolve, Option.some.injEq] at h; exact h.symm
  | cons c cs ih =>
    simp only [osResolve] at h
    split at h
    · cases h
    · simp only [follow]
      by_cases h1 : c = [] ∨ c = ['.']
      · rw [if_pos h1] at h ⊢; exact ih h
      · rw [if_neg h1] at h ⊢
        by_cases h2 : c = ['.', '.']
        · rw [if_pos h2] at h ⊢; exact ih h
        · rw [if_neg h2] at h ⊢; exact ih h

/-- A path all of whose steps start from directories is resolved. -/
theorem osResolve_passable {disk : Tree} {cs : List Str} {cur : Path}
    (h : ∀ a b, cs = a ++ b → b ≠ [] → disk.isdir (follow cur a) = true) : osResolve disk cur cs = some (follow cur cs) := by
  induction cs generalizing cur with
  | nil => rfl
  | cons c cs ih =>
    have h0 : disk.isdir cur = true := h [] (c :: cs) rfl (by simp)
    have hs := fun a b (e : cs = a ++ b) hb => h (c :: a) b (by rw [e]; rfl) hb
    simp only [follow] at hs
    simp only [osResolve, follow, h0, Bool.true_eq_false, if_false]
    by_cases h1 : c = [] ∨ c = ['.']
    · simp only [if_pos h1] at hs ⊢; exact ih hs
    · simp only [if_neg h1] at hs ⊢
      by_cases h2 : c = ['.', '.']
      · simp only [if_pos h2] at hs ⊢; exact ih hs
      · simp only [if_neg h2] at hs ⊢; exact ih hs

theorem placeOf_follow {disk : Tree} {bagdir : Path} {dir : Str} {rest : List Str} {q : Path}
    (h : placeOf disk bagdir dir rest = some q) : q = follow (leadsTo bagdir dir) rest := by
  have := osResolve_follow h
  rw [this, follow_append, leadsTo]
  simp only [startsWith_slash_head]

theorem follow_empties (cur : Path) (cs : List Str) (h : ∀ c ∈ cs, c = []) : follow cur cs = cur := by
  induction cs with
  | nil => rfl
  | cons c cs ih =>
    rw [follow, if_pos (.inl (h c (by simp)))]
    exact ih (fun d hd => h d (by simp [hd]))

theorem mkdirPlace_follow {disk : Tree} {bagdir : Path} {dir : Str} {q : Path}
    (h : mkdirPlace disk bagdir dir = some q) : q = leadsTo bagdir dir := by
  have := osResolve_follow h
  rw [this, leadsTo]
  simp only [startsWith_slash_head]
  generalize splitOn '/' dir = l
  have e : l = (l.reverse.dropWhile (· = [])).reverse ++ (l.reverse.takeWhile (· = [])).reverse := by
    rw [← List.reverse_append, List.takeWhile_append_dropWhile, List.reverse_reverse]
  have := follow_append (if dir.head? = some '/' then [] else bagdir) (l.reverse.dropWhile (· = [])).reverse
    (l.reverse.takeWhile (· = [])).reverse
  rw [← e] at this
  rw [this, follow_empties _ (l.reverse.takeWhile (· = [])).reverse]
  intro c hc
  have key : ∀ m : List Str, c ∈ m.takeWhile (· = []) → c = [] := by
    intro m
    induction m with
    | nil => simp
    | cons x xs ih =>
      rw [List.takeWhile_cons]
      split
      · rename_i hx
        intro hm
        rcases List.mem_cons.1 hm with e | e
        · rw [e]; simpa using hx
        · exact ih e
      · simp
  exact key _ (List.mem_reverse.1 hc)

theorem newPlace_follow {disk : Tree} {cs : List Str} {cur q : Path} (hs : ∀ c ∈ cs, '/' ∉ c)
    (h : newPlace disk cur cs = some q) : q = follow cur cs := by
  induction cs generalizing cur with
  | nil => simp only [newPlace, Option.some.injEq] at h; exact h.symm
  | cons c cs ih =>
    simp only [newPlace] at h
    have hs' : ∀ c ∈ cs, '/' ∉ c := fun d hd => hs d (by simp [hd])
    split at h
    · simp only [follow]
      by_cases h1 : c = [] ∨ c = ['.']
      · rw [if_pos h1] at h ⊢; exact ih hs' h
      · rw [if_neg h1] at h ⊢
        by_cases h2 : c = ['.', '.']
        · rw [if_pos h2] at h ⊢; exact ih hs' h
        · rw [if_neg h2] at h ⊢; exact ih hs' h
    · split at h
      · cases h
      · rename_i hc
        simp only [Bool.or_eq_true, decide_eq_true_eq, not_or] at hc
        injection h with h
        rw [← follow_filter, follow_good, ← h]
        intro d hd
        have hm := List.mem_filter.1 hd
        have hd2 : d ≠ [] ∧ d ≠ ['.'] := by simpa using hm.2
        refine ⟨hd2.1, hs d hm.1, hd2.2, ?_⟩
        rintro rfl
        exact hc.2 hm.1

theorem leadsTo_rel {cwd : Path} {p : Str} (h : p.head? ≠ some '/') : leadsTo cwd p = follow cwd (splitOn '/' p) := by
  rw [leadsTo, if_neg h]

theorem head_osJoin_split (d : Str) : (osJoin (splitOn '/' d)).head? ≠ some '/' := by
  have key : ∀ (l : List Str) (a : Str), (∀ c ∈ l, '/' ∉ c) → a.head? ≠ some '/' →
      (l.foldl osJoin1 a).head? ≠ some '/' := by
    intro l
    induction l with
    | nil => intro a _ h; exact h
    | cons b l ih =>
      intro a hl ha
      refine ih _ (fun c hc => hl c (by simp [hc])) ?_
      have hb : b.head? ≠ some '/' := by
        intro e
        cases b with
        | nil => cases e
        | cons x xs => injection e with e; subst e; exact hl ('/' :: xs) (by simp) (by simp)
      cases a with
      | nil => simpa [osJoin1] using hb
      | cons x xs =>
        unfold osJoin1
        split
        · exact hb
        · split <;> simpa using ha
  have hs : ∀ c ∈ splitOn '/' d, '/' ∉ c := fun c hc => sep_not_mem_splitOn hc
  cases h : splitOn '/' d with
  | nil => simp [osJoin]
  | cons a l =>
    rw [h] at hs
    refine key l a (fun c hc => hs c (by simp [hc])) ?_
    intro e
    cases a with
    | nil => cases e
    | cons x xs => injection e with e; subst e; exact hs ('/' :: xs) (by simp) (by simp)

theorem leadsTo_osJoin (cwd : Path) (d : Str) : leadsTo cwd (osJoin (splitOn '/' d)) = follow cwd (splitOn '/' d) := by
  rw [leadsTo_rel (head_osJoin_split d), ← follow_filter, ← follow_filter cwd (splitOn '/' d)]
  exact congrArg (follow cwd) (comps_osJoin_split d)

/-! ## Renaming keeps trees well-formed -/

theorem wf_rename {t t' : Tree} (hw : WfTree t) {old new : Path} (hr : t.rename old new = .ok t')
    (hn : ∀ x, dget t (new ++ x) = none) (hg : GoodPath new) : WfTree t' := by
  obtain ⟨r1, r2, r3, r4⟩ := rename_ok hr
  have hnew : dget t new = none := by simpa using hn []
  have e3 := fun x => r3 x hnew hn
  have hpar : t.isdir new.dropLast = true := by
    unfold Tree.rename at hr
    split at hr
    · cases hr
    · rename_i hc
      simp only [Bool.or_eq_true, Bool.not_eq_true', not_or, Bool.not_eq_false] at hc
      exact hc.1.2
  have hold : old ≠ [] := by
    rintro rfl; exact r2 (List.nil_prefix)
  -- directories that stay
  have stay : ∀ p, t.isdir p = true → ¬ old <+: p → t'.isdir p = true := by
    intro p hp ho
    rcases isdir_iff.1 hp with e | e
    · rw [e]; rfl
    · rw [isdir_iff]; right
      rw [r4 p, if_neg (fun h => ho (List.isPrefixOf_iff_prefix.1 h)), e]
      rintro ⟨x, rfl⟩
      rw [hn] at e; cases e
  refine ⟨?_, ?_, ?_⟩
  · unfold Tree.rename at hr
    split at hr
    · cases hr
    · injection hr with hr
      rw [← hr]
      simp only [dkeys, List.map_append, List.map_map]
      rw [List.nodup_append]
      refine ⟨?_, ?_, ?_⟩
      · have := hw.nodup
        unfold dkeys at this
        exact this.sublist (List.filter_sublist.map _)
      · have hnd := hw.nodup
        unfold dkeys at hnd
        have hnd2 := hnd.sublist ((List.filter_sublist (p := fun e => old.isPrefixOf e.1) (l := t)).map Prod.fst)
        have hall : ∀ e ∈ t.filter (fun e => old.isPrefixOf e.1), old <+: e.1 := by
          intro e he
          exact List.isPrefixOf_iff_prefix.1 (List.mem_filter.1 he).2
        revert hnd2 hall
        generalize t.filter (fun e => old.isPrefixOf e.1) = l
        intro hnd2 hall
        induction l with
        | nil => simp
        | cons y ys ih =>
          simp only [List.map_cons, List.nodup_cons] at hnd2 ⊢
          refine ⟨?_, ih hnd2.2 (fun e he => hall e (by simp [he]))⟩
          intro hm
          obtain ⟨z, hz, hzz⟩ := List.mem_map.1 hm
          apply hnd2.1
          obtain ⟨a, ha⟩ := hall y (by simp)
          obtain ⟨b, hb⟩ := hall z (by simp [hz])
          simp only [Function.comp, List.append_cancel_left_eq, ← ha, ← hb, List.drop_left] at hzz
          rw [← ha, ← hzz, hb]
          exact List.mem_map.2 ⟨z, hz, rfl⟩
      · intro a ha b hb hab
        subst hab
        obtain ⟨z, _, hz⟩ := List.mem_map.1 hb
        obtain ⟨y, hy, hyy⟩ := List.mem_map.1 ha
        simp only [Function.comp] at hz
        have : a ∈ dkeys t := List.mem_map.2 ⟨y, (List.mem_filter.1 hy).1, hyy⟩
        rw [← hz] at this
        exact dget_eq_none_iff.1 (hn _) this
  · intro p hp
    by_cases h : new <+: p
    · obtain ⟨x, rfl⟩ := h
      obtain ⟨v, hv⟩ := mem_dkeys_iff.1 hp
      rw [e3] at hv
      have := hw.good _ (mem_dkeys_iff.2 ⟨v, hv⟩)
      refine ⟨by simp [hg.1], ?_⟩
      intro c hc
      rcases List.mem_append.1 hc with h | h
      · exact hg.2 c h
      · exact this.2 c (List.mem_append.2 (.inr h))
    · obtain ⟨v, hv⟩ := mem_dkeys_iff.1 hp
      rw [r4 p h] at hv
      split at hv
      · cases hv
      · exact hw.good p (mem_dkeys_iff.2 ⟨v, hv⟩)
  · intro p hp
    obtain ⟨v, hv⟩ := mem_dkeys_iff.1 hp
    by_cases h : new <+: p
    · obtain ⟨x, rfl⟩ := h
      by_cases hx : x = []
      · subst hx
        rw [List.append_nil]
        exact stay _ hpar (fun ho => r2 (ho.trans (List.dropLast_prefix _)))
      · rw [List.dropLast_append_of_ne_nil hx]
        rw [e3] at hv
        have := hw.parent _ (mem_dkeys_iff.2 ⟨v, hv⟩)
        rw [List.dropLast_append_of_ne_nil hx] at this
        rw [isdir_iff]; right
        rw [e3]
        rcases isdir_iff.1 this with e | e
        · exact absurd (List.append_eq_nil_iff.1 e).1 hold
        · exact e
    · rw [r4 p h] at hv
      split at hv
      · cases hv
      · rename_i ho
        exact stay _ (hw.parent p (mem_dkeys_iff.2 ⟨v, hv⟩))
          (fun hh => ho (List.isPrefixOf_iff_prefix.2 (hh.trans (List.dropLast_prefix _))))

theorem wf_ddel_leaf {t : Tree} (h : WfTree t) {p : Path}
    (hp : t.any (fun e => p.isPrefixOf e.1 && e.1 ≠ p) = false) : WfTree (ddel t p) := by
  have hk : ∀ q, q ∈ dkeys (ddel t p) → q ∈ dkeys t ∧ q ≠ p := by
    intro q hq
    rw [mem_dkeys_iff, dget_ddel] at hq
    by_cases e : p = q
    · rw [if_pos e] at hq; simp at hq
    · rw [if_neg e] at hq
      exact ⟨mem_dkeys_iff.2 hq, fun h => e h.symm⟩
  refine ⟨nodup_ddel h.nodup _, fun q hq => h.good q (hk q hq).1, fun q hq => ?_⟩
  have := h.parent q (hk q hq).1
  rcases isdir_iff.1 this with e | e
  · rw [e]; rfl
  · rw [isdir_iff]; right
    rw [dget_ddel, if_neg]
    · exact e
    · intro e2
      obtain ⟨y, hy, hyq⟩ := List.mem_map.1 (hk q hq).1
      rw [List.any_eq_false] at hp
      apply hp y hy
      rw [hyq, e2]
      simp only [Bool.and_eq_true, decide_eq_true_eq]
      refine ⟨List.isPrefixOf_iff_prefix.2 (List.dropLast_prefix _), ?_⟩
      intro e3
      have hl := congrArg List.length e3
      have := List.length_pos_iff.2 (h.good q (hk q hq).1).1
      simp at hl; omega

theorem wf_removedirs {t : Tree} (h : WfTree t) (p : Path) : WfTree (t.removedirs p) := by
  fun_induction Tree.removedirs t p with
  | case1 => exact h
  | case2 => exact h
  | case3 t p hp hc ih => exact ih (wf_ddel_leaf h (Bool.eq_false_iff.2 hc))

/-- Something that has something below it, and what is above that, is not removed. -/
theorem removedirs_keeps {t : Tree} {p q r : Path} (hq : r <+: q) (hne : q ≠ r) (hm : dget t q ≠ none)
    (hqp : ¬ q <+: p) : dget (t.removedirs p) r = dget t r := by
  fun_induction Tree.removedirs t p with
  | case1 => rfl
  | case2 => rfl
  | case3 t p hp hc ih =>
    have hpq : p ≠ q := by rintro rfl; exact hqp (List.prefix_refl _)
    rw [ih (by rw [dget_ddel, if_neg hpq]; exact hm) (fun h => hqp (h.trans (List.dropLast_prefix _))), dget_ddel, if_neg]
    rintro rfl
    apply hc
    rw [List.any_eq_true]
    have : q ∈ dkeys t := Classical.byContradiction (fun hh => hm (dget_eq_none_iff.2 hh))
    obtain ⟨y, hy, hyq⟩ := List.mem_map.1 this
    refine ⟨y, hy, ?_⟩
    rw [hyq]
    simp [List.isPrefixOf_iff_prefix.2 hq, hne]

theorem wf_renames {t t' : Tree} (h : WfTree t) {old new : Path} (hr : t.renames old new = .ok t')
    (hn : t.exists new = false) (hg : GoodPath new) : WfTree t' := by
  unfold Tree.renames at hr
  split at hr
  · cases hr
  · rename_i t1 h1
    split at hr
    · cases hr
    · rename_i t2 h2
      injection hr with hr
      rw [← hr]
      refine wf_removedirs (wf_rename (wf_makedirsFrom h ?_ h1) h2 ?_ hg) _
      · intro c hc
        exact hg.2 c ((List.dropLast_sublist _).subset (by simpa using hc))
      · intro x
        rcases makedirsFrom_ok h1 (new ++ x) with e | e
        · rw [e, none_below h hn]
        · exfalso
          have := e.1.length_le
          have hl := List.length_pos_iff.2 hg.1
          simp at this; omega

end Verif

namespace Verif

open Spec

/-! ## What happens outside of the bag -/

/-- The disk is a disk, the bag is there, and outside of it everything is as in `t0`. -/
structure Kept (t0 : Tree) (bagdir : Path) (t : Tree) : Prop where
  wf : WfTree t
  bag : t.isdir bagdir = true
  same : ∀ p, ¬ Inside bagdir p → dget t p = dget t0 p

theorem prefix_antisymm {a b : Path} (h1 : a <+: b) (h2 : b <+: a) : a = b :=
  h1.eq_of_length (Nat.le_antisymm h1.length_le h2.length_le)

theorem kept_mkdir {t0 t t' : Tree} {B q : Path} (k : Kept t0 B t) (hq : Inside B q) (hg : ∀ c ∈ q, GoodName c)
    (h : t.mkdir q = .ok t') : Kept t0 B t' := by
  obtain ⟨e, h1, h2⟩ := Tree.mkdir_ok h
  have hne : q ≠ [] := by rintro rfl; simp [Tree.exists] at h1
  refine ⟨wf_mkdir k.wf ⟨hne, hg⟩ h, ?_, fun p hp => ?_⟩
  · rw [e, isdir_iff]
    rcases isdir_iff.1 k.bag with hb | hb
    · exact .inl hb
    · right; rw [dget_dset]; split
      · rfl
      · exact hb
  · rw [e, dget_dset, if_neg, k.same p hp]
    rintro rfl; exact hp hq

theorem kept_write {t0 t t' : Tree} {B q : Path} {c : Str} (k : Kept t0 B t) (hq : Inside B q)
    (hg : ∀ c ∈ q, GoodName c) (h : t.write q c = .ok t') : Kept t0 B t' := by
  obtain ⟨e, h1, h2⟩ := Tree.write_ok h
  have hne : q ≠ [] := by rintro rfl; simp [Tree.isdir] at h1
  refine ⟨wf_write k.wf ⟨hne, hg⟩ h, ?_, fun p hp => ?_⟩
  · rw [e, isdir_iff]
    rcases isdir_iff.1 k.bag with hb | hb
    · exact .inl hb
    · right; rw [dget_dset, if_neg, hb]
      rintro rfl; rw [k.bag] at h1; cases h1
  · rw [e, dget_dset, if_neg, k.same p hp]
    rintro rfl; exact hp hq

theorem kept_remove {t0 t t' : Tree} {B q : Path} (k : Kept t0 B t) (hq : Inside B q) (h : t.remove q = .ok t') :
    Kept t0 B t' := by
  have hf : t.isfile q = true := by
    unfold Tree.remove at h
    split at h
    · assumption
    · cases h
  have e := remove_ok h
  refine ⟨e ▸ wf_ddel k.wf hf, ?_, fun p hp => ?_⟩
  · rw [e, isdir_iff]
    rcases isdir_iff.1 k.bag with hb | hb
    · exact .inl hb
    · right; rw [dget_ddel, if_neg, hb]
      rintro rfl
      obtain ⟨c, hc⟩ := isfile_iff.1 hf
      rw [hb] at hc; cases hc
  · rw [e, dget_ddel, if_neg, k.same p hp]
    rintro rfl; exact hp hq

theorem kept_renames {t0 t t' : Tree} {B old new : Path} (k : Kept t0 B t) (ho : Inside B old) (hn : Inside B new)
    (hg : ∀ c ∈ new, GoodName c) (he : t.exists new = false) (h : t.renames old new = .ok t') : Kept t0 B t' := by
  have hne : new ≠ [] := by rintro rfl; simp [Tree.exists] at he
  have hwf := wf_renames k.wf h he ⟨hne, hg⟩
  have hmove := (renames_ok k.wf h he).1 []
  simp only [List.append_nil] at hmove
  unfold Tree.renames at h
  split at h
  · cases h
  · rename_i t1 h1
    split at h
    · cases h
    · rename_i t2 h2
      injection h with h
      have m := makedirsFrom_ok h1
      simp only [List.nil_append] at m
      obtain ⟨r1, r2, r3, r4⟩ := rename_ok h2
      have hn1 : ∀ x, dget t1 (new ++ x) = none := by
        intro x
        rcases m (new ++ x) with e | e
        · rw [e, none_below k.wf he]
        · have := e.1.length_le
          have hl := List.length_pos_iff.2 hne
          simp at this; omega
      have hold1 : dget t1 old = dget t old := by
        rcases m old with e | e
        · exact e
        · exact absurd (e.1.trans (List.dropLast_prefix _)) r2
      have holdk : old ∈ dkeys t := by
        rw [hold1] at r1
        exact Classical.byContradiction (fun hc => r1 (dget_eq_none_iff.2 hc))
      have hnew2 : dget t2 new ≠ none := by
        have := r3 [] (by simpa using hn1 []) hn1
        simp only [List.append_nil] at this
        rw [this]; exact r1
      have hno : ¬ new <+: old.dropLast := by
        intro hp
        have hpre := hp.trans (List.dropLast_prefix _)
        have hne2 : new ≠ old := by rintro rfl; exact r2 (List.prefix_refl _)
        rcases isdir_iff.1 (wf_prefix_dir k.wf holdk hpre hne2) with e | e
        · exact hne e
        · simp [Tree.exists, hne, e] at he
      have hBnew : B ≠ new := by
        rintro rfl
        rcases isdir_iff.1 k.bag with e | e
        · exact hne e
        · simp [Tree.exists, hne, e] at he
      refine ⟨hwf, ?_, fun p hp => ?_⟩
      · rcases isdir_iff.1 k.bag with hb | hb
        · rw [hb]; rfl
        · rw [isdir_iff]; right
          have h3 : ¬ new <+: B := fun hh => hBnew (prefix_antisymm hn hh)
          have h4 : ¬ old <+: B := fun hh => r2 (hh.trans hn)
          rw [← h, removedirs_keeps hn (Ne.symm hBnew) hnew2 hno, r4 B h3,
            if_neg (fun hh => h4 (List.isPrefixOf_iff_prefix.1 hh))]
          rcases m B with e | e
          · rw [e, hb]
          · exact e.2.2
      · have h3 : ¬ new <+: p := fun hh => hp (hn.trans hh)
        have h4 : ¬ old <+: p := fun hh => hp (ho.trans hh)
        have e2 : dget t2 p = dget t p := by
          rw [r4 p h3, if_neg (fun hh => h4 (List.isPrefixOf_iff_prefix.1 hh))]
          rcases m p with e | ⟨e1, e2, _⟩
          · exact e
          · exfalso
            have hpB : p <+: B := by
              rcases List.prefix_or_prefix_of_prefix (e1.trans (List.dropLast_prefix _)) hn with hh | hh
              · exact hh
              · exact absurd hh hp
            have hpB' : p ≠ B := by rintro rfl; exact hp (List.prefix_refl _)
            by_cases hp0 : p = []
            · have hw1 := wf_makedirsFrom k.wf (by
                intro c hc
                exact hg c ((List.dropLast_sublist _).subset (by simpa using hc))) h1
              rename_i hd
              rw [hp0] at hd
              exact (hw1.good [] (mem_dkeys_iff.2 ⟨_, hd⟩)).1 rfl
            · rcases isdir_iff.1 k.bag with hb | hb
              · rw [hb] at hpB; exact hp0 (List.prefix_nil.1 hpB)
              · rcases isdir_iff.1 (wf_prefix_dir k.wf (mem_dkeys_iff.2 ⟨_, hb⟩) hpB hpB') with e | e
                · exact hp0 e
                · rw [e] at e2; cases e2
        rw [← k.same p hp, ← e2, ← h]
        rcases removedirs_spec t2 old.dropLast p with e | ⟨e, _⟩
        · exact e
        · have hpB : p <+: B := by
            rcases List.prefix_or_prefix_of_prefix (e.trans (List.dropLast_prefix _)) ho with hh | hh
            · exact hh
            · exact absurd hh hp
          exact removedirs_keeps (hpB.trans hn) (fun hh => h3 (hh ▸ List.prefix_refl _)) hnew2 hno

/-! ## The actions -/

/-- The bag, and where its object writes. -/
structure Confined (t0 : Tree) (B : Path) (s : OnDisk) : Prop where
  kept : Kept t0 B s.disk
  dir : Inside B (leadsTo B (tagDir s.info))

theorem confined_lift {t0 : Tree} {B : Path} {s : OnDisk} {r : Except PyErr Tree} (c : Confined t0 B s)
    (h : ∀ t, r = .ok t → Kept t0 B t) : Confined t0 B (s.lift r).2 := by
  unfold OnDisk.lift
  split
  · exact c
  · exact ⟨h _ rfl, c.dir⟩

theorem confined_next {t0 : Tree} {B : Path} {r : Done} {f : OnDisk → Done} (c : Confined t0 B r.2)
    (h : ∀ s, Confined t0 B s → Confined t0 B (f s).2) : Confined t0 B (r.next f).2 := by
  unfold Done.next
  split
  · exact c
  · exact h _ c

theorem confined_ensure {t0 : Tree} {B : Path} (hB : ∀ c ∈ B, GoodName c) {s : OnDisk} (c : Confined t0 B s) :
    Confined t0 B (s.ensureTagdir B).2 := by
  unfold OnDisk.ensureTagdir
  split
  · exact c
  · split
    · exact c
    · rename_i q hq
      have e := mkdirPlace_follow hq
      exact confined_lift c (fun t ht => kept_mkdir c.kept (e ▸ c.dir) (e ▸ goodName_leadsTo hB _) ht)

theorem placeOf_tag {disk : Tree} {B q : Path} {dir name : Str} (hn : GoodName name)
    (h : placeOf disk B dir [name] = some q) : q = leadsTo B dir ++ [name] := by
  rw [placeOf_follow h, follow_good]
  simpa using hn

theorem confined_write {t0 : Tree} {B : Path} (hB : ∀ c ∈ B, GoodName c) {name text : Str} (hn : GoodName name)
    {s : OnDisk} (c : Confined t0 B s) : Confined t0 B (s.writeTag B name text).2 := by
  unfold OnDisk.writeTag
  split
  · exact c
  · rename_i q hq
    have e := placeOf_tag hn hq
    refine confined_lift c (fun t ht => kept_write c.kept (e ▸ c.dir.trans (List.prefix_append _ _)) ?_ ht)
    intro d hd
    rw [e] at hd
    rcases List.mem_append.1 hd with h | h
    · exact goodName_leadsTo hB _ d h
    · rw [List.mem_singleton.1 h]; exact hn

theorem confined_remove {t0 : Tree} {B : Path} {name : Str} (hn : GoodName name)
    {s : OnDisk} (c : Confined t0 B s) : Confined t0 B (s.removeTag B name).2 := by
  unfold OnDisk.removeTag
  split
  · exact c
  · rename_i q hq
    have e := placeOf_tag hn hq
    exact confined_lift c (fun t ht => kept_remove c.kept (e ▸ c.dir.trans (List.prefix_append _ _)) ht)

theorem tagDir_dset_one (info : Info) (d : Str) :
    tagDir (dset info py!"Multibag-Tag-Directory" (.one d)) = d := by
  unfold tagDir
  rw [dget_dset, if_pos rfl]

theorem newPlace_exists {disk : Tree} {cs : List Str} {cur q : Path} (hw : WfTree disk) (hcur : GoodPath cur ∨ cur = [])
    (hs : ∀ c ∈ cs, '/' ∉ c) (h : newPlace disk cur cs = some q)
    (he : ∀ r, osResolve disk cur cs = some r → disk.exists r = false) : disk.exists q = false := by
  induction cs generalizing cur with
  | nil =>
    simp only [newPlace, Option.some.injEq] at h
    exact h ▸ he cur rfl
  | cons c cs ih =>
    simp only [newPlace] at h
    have hs' : ∀ c ∈ cs, '/' ∉ c := fun d hd => hs d (by simp [hd])
    have hc : ∀ d ∈ cur, GoodName d := by
      rcases hcur with e | e
      · exact e.2
      · simp [e]
    split at h
    · rename_i hd
      simp only [osResolve, hd, Bool.true_eq_false, if_false] at he
      by_cases h1 : c = [] ∨ c = ['.']
      · simp only [if_pos h1] at h he; exact ih hcur hs' h he
      · simp only [if_neg h1] at h he
        by_cases h2 : c = ['.', '.']
        · simp only [if_pos h2] at h he
          refine ih ?_ hs' h he
          by_cases h3 : cur.dropLast = []
          · exact .inr h3
          · exact .inl ⟨h3, fun d hd => hc d ((List.dropLast_sublist _).subset hd)⟩
        · simp only [if_neg h2] at h he
          refine ih (.inl ⟨by simp, ?_⟩) hs' h he
          intro d hd
          rcases List.mem_append.1 hd with hh | hh
          · exact hc d hh
          · rw [List.mem_singleton.1 hh]
            exact ⟨fun e => h1 (.inl e), hs c (by simp), fun e => h1 (.inr e), h2⟩
    · split at h
      · cases h
      · rename_i hx
        injection h with h
        have hx' : disk.exists cur = false := by
          simp only [Bool.or_eq_true, not_or, Bool.not_eq_true] at hx
          exact hx.1
        rw [← h]
        simp only [Tree.exists, none_below hw hx', Option.isSome_none, Bool.or_false, decide_eq_false_iff_not]
        intro e
        have := (List.append_eq_nil_iff.1 e).1
        rw [this] at hx'
        simp [Tree.exists] at hx'

theorem confined_setTagDir {t0 : Tree} {B : Path} (hB : ∀ c ∈ B, GoodName c) {dirname : Str} {migrate : Bool}
    (hd : Inside B (follow B (splitOn '/' dirname))) {s : OnDisk} (c : Confined t0 B s) :
    Confined t0 B (s.setTagDir B dirname migrate).2 := by
  have hd' : Inside B (leadsTo B (osJoin (splitOn '/' dirname))) := by rw [leadsTo_osJoin]; exact hd
  revert hd'
  have hrel := head_osJoin_split dirname
  revert hrel
  unfold OnDisk.setTagDir
  simp only
  generalize osJoin (splitOn '/' dirname) = d
  intro hrel hd'
  split
  · exact c
  · split
    · exact c
    · rename_i t ht
      refine ⟨?_, by rw [tagDir_dset_one]; exact hd'⟩
      split at ht
      · split at ht
        · cases ht
        · rename_i hex
          split at ht
          · cases ht; exact c.kept
          · rename_i old hold
            have eold := placeOf_follow hold
            simp only [follow] at eold
            split at ht
            · split at ht
              · cases ht
              · rename_i new hnew
                have enew := newPlace_follow (fun x hx => sep_not_mem_splitOn hx) hnew
                rw [← leadsTo_rel hrel] at enew
                refine kept_renames c.kept (eold ▸ c.dir) (enew ▸ hd') (enew ▸ goodName_leadsTo hB _) ?_ ht
                refine newPlace_exists c.kept.wf ?_ (fun x hx => sep_not_mem_splitOn hx) hnew ?_
                · by_cases hb : B = []
                  · exact .inr hb
                  · exact .inl ⟨hb, hB⟩
                · intro r hr
                  have : placeOf s.disk B d [] = some r := by
                    unfold placeOf
                    rw [if_neg (fun hh => hrel ((startsWith_slash_head d).1 hh)), List.append_nil]
                    exact hr
                  unfold osExists at hex
                  rw [this] at hex
                  exact Bool.eq_false_iff.2 hex
            · cases ht; exact c.kept
      · cases ht; exact c.kept

theorem confined_act {t0 : Tree} {B : Path} (hB : ∀ c ∈ B, GoodName c) {s : OnDisk} (c : Confined t0 B s)
    {a : DiskAct} (ha : NamesInside B a) : Confined t0 B (s.act B a).2 := by
  have g1 : GoodName py!"member-bags.tsv" := ⟨by decide, by decide, by decide, by decide⟩
  have g2 : GoodName py!"file-lookup.tsv" := ⟨by decide, by decide, by decide, by decide⟩
  have g3 : GoodName py!"deleted.txt" := ⟨by decide, by decide, by decide, by decide⟩
  cases a with
  | ensureTagdir => exact confined_ensure hB c
  | saveMembers text => exact confined_next (confined_ensure hB c) (fun s c => confined_write hB g1 c)
  | saveLookup text => exact confined_next (confined_ensure hB c) (fun s c => confined_write hB g2 c)
  | clearLookup =>
    simp only [OnDisk.act]
    split
    · exact confined_remove g2 c
    · exact c
  | saveDeleted paths =>
    simp only [OnDisk.act]
    refine confined_next (confined_next ?_ (fun s c => confined_ensure hB c)) (fun s c => confined_write hB g3 c)
    split
    · exact confined_remove g3 c
    · exact c
  | setTagDir d m => exact confined_setTagDir hB ha c
  | amend =>
    simp only [OnDisk.act]
    split
    · exact confined_ensure hB c
    · rename_i q hq
      have e := placeOf_tag g1 hq
      split
      · exact confined_lift c (fun t ht => kept_remove c.kept (e ▸ c.dir.trans (List.prefix_append _ _)) ht)
      · exact confined_ensure hB c
  | setInfo info => exact ⟨c.kept, ha⟩

theorem confined_acts {t0 : Tree} {B : Path} (hB : ∀ c ∈ B, GoodName c) {acts : List DiskAct}
    (ha : ∀ a ∈ acts, NamesInside B a) {s : OnDisk} (c : Confined t0 B s) : Confined t0 B (s.acts B acts) := by
  induction acts generalizing s with
  | nil => exact c
  | cons a acts ih => exact ih (fun b hb => ha b (by simp [hb])) (confined_act hB c (ha a (by simp)))

end Verif
