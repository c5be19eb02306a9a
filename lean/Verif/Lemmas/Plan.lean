import Verif.Lemmas.Split
import Verif.Lemmas.Walk
import Verif.Spec.Split
import Verif.Props.UpdateMember
/-!
# Lemmas about plans
-/

namespace Verif

open Spec

/-! ## Required paths -/

theorem findDestination_isNone {ms : List Manifest} {p : Str} :
    (findDestination ms p).isNone = true ↔ p ∉ contentsOf ms := by
  unfold findDestination contentsOf
  rw [Option.isNone_iff_eq_none, List.find?_eq_none]
  simp

theorem mem_missing {required : List Str} {ms : List Manifest} {p : Str} :
    p ∈ missing required ms ↔ p ∈ required ∧ p ∉ contentsOf ms := by
  unfold missing
  rw [List.mem_filter, findDestination_isNone]

theorem contentsOf_completePlan (n : Str) (size : Str → Nat) (req : List Str) (ms : List Manifest) :
    contentsOf (completePlan n size req ms) = contentsOf ms ++ missing req ms := by
  unfold completePlan
  simp only
  split
  · rename_i h; simp [h]
  · rw [contentsOf_append, contentsOf_singleton]

theorem emptyDir_iff {t : Tree} (h : WfTree t) {d : Path} (hd : t.isdir d = true) :
    (subdirsOf t d = [] ∧ filesOf t d = []) ↔ EmptyDir t d := by
  constructor
  · rintro ⟨h1, h2⟩
    refine ⟨hd, fun p hp hne e => ?_⟩
    have hk : p ∈ dkeys t := by
      rw [Tree.exists] at hp
      simp only [hne, decide_false, Bool.false_or] at hp
      cases hg : dget t p with
      | none => rw [hg] at hp; cases hp
      | some n => exact mem_dkeys_iff.2 ⟨n, hg⟩
    obtain ⟨n, hn⟩ := mem_dkeys_iff.1 hk
    have hm := (dget_iff_mem h.nodup).1 hn
    obtain ⟨i, l, rfl⟩ := exists_concat (l := p) hne
    simp at e
    subst e
    cases n with
    | dir =>
      have : l ∈ subdirsOf t i := List.mem_filterMap.2 ⟨_, hm, by simp⟩
      rw [h1] at this; cases this
    | file c =>
      have : l ∈ filesOf t i := List.mem_filterMap.2 ⟨_, hm, by simp⟩
      rw [h2] at this; cases this
  · rintro ⟨_, h1⟩
    have key : ∀ (q : Path) (n : Node), (q, n) ∈ t → q.dropLast = d → False := by
      intro q n hm e
      have hg := (dget_iff_mem h.nodup).2 hm
      have hk := h.good q (mem_dkeys_iff.2 ⟨n, hg⟩)
      exact h1 q (by simp [Tree.exists, hg]) hk.1 e
    constructor
    · rw [List.eq_nil_iff_forall_not_mem]
      intro x hx
      obtain ⟨⟨q, n⟩, hm, hx⟩ := List.mem_filterMap.1 hx
      cases n with
      | dir =>
        simp only at hx
        split at hx
        · exact key _ _ hm ‹_›
        · cases hx
      | file c => simp at hx
    · rw [List.eq_nil_iff_forall_not_mem]
      intro x hx
      obtain ⟨⟨q, n⟩, hm, hx⟩ := List.mem_filterMap.1 hx
      cases n with
      | dir => simp at hx
      | file c =>
        simp only at hx
        split at hx
        · exact key _ _ hm ‹_›
        · cases hx

theorem mem_nonstandard {w : Char → Bool} {t : Tree} (h : WfTree t) {p : Str} :
    p ∈ nonstandard w t ↔
      (∃ d f, t.isfile (d ++ [f]) = true ∧ specialName w f = false ∧ p = joinPath (d ++ [f])) ∨
      (∃ d, EmptyDir t d ∧ p = joinPath d) := by
  have hroot : t.isdir [] = true := by simp [Tree.isdir]
  unfold nonstandard
  rw [List.mem_flatMap]
  constructor
  · rintro ⟨d, hd, hp⟩
    have hdir := ((mem_walkDirs h hroot).1 hd).1
    rcases List.mem_append.1 hp with hp | hp
    · split at hp
      · rename_i he
        simp at hp
        exact .inr ⟨d, (emptyDir_iff h hdir).1 he, hp⟩
      · cases hp
    · obtain ⟨f, hf, rfl⟩ := List.mem_map.1 hp
      rw [List.mem_filter, mem_filesOf h] at hf
      exact .inl ⟨d, f, hf.1, by simpa using hf.2, rfl⟩
  · rintro (⟨d, f, hf, hs, rfl⟩ | ⟨d, hd, rfl⟩)
    · refine ⟨d, (mem_walkDirs h hroot).2 ⟨?_, List.nil_prefix, by simp⟩, ?_⟩
      · have := isfile_iff.1 hf
        obtain ⟨c, hc⟩ := this
        simpa using h.parent _ (mem_dkeys_iff.2 ⟨_, hc⟩)
      · refine List.mem_append.2 (.inr (List.mem_map.2 ⟨f, ?_, rfl⟩))
        rw [List.mem_filter, mem_filesOf h]
        exact ⟨hf, by simpa using hs⟩
    · refine ⟨d, (mem_walkDirs h hroot).2 ⟨hd.1, List.nil_prefix, by simp⟩, ?_⟩
      refine List.mem_append.2 (.inl ?_)
      rw [if_pos ((emptyDir_iff h hd.1).2 hd)]
      simp

/-- Good paths and the root. -/
def GoodOrRoot (p : Path) : Prop := p = [] ∨ GoodPath p

theorem joinPath_inj' {p q : Path} (hp : GoodOrRoot p) (hq : GoodOrRoot q) (h : joinPath p = joinPath q) : p = q := by
  rcases hp with rfl | hp <;> rcases hq with rfl | hq
  · rfl
  · exact absurd h.symm (joinPath_ne_nil hq)
  · exact absurd h (joinPath_ne_nil hp)
  · exact joinPath_inj hp hq h

theorem filesOf_nodup {t : Tree} (h : WfTree t) (d : Path) : (filesOf t d).Nodup := by
  unfold filesOf List.Nodup
  rw [List.pairwise_filterMap]
  have hp : t.Pairwise (fun a b => a.1 ≠ b.1) := by
    have := h.nodup
    unfold dkeys List.Nodup at this
    rwa [List.pairwise_map] at this
  refine hp.imp_of_mem ?_
  rintro ⟨a, na⟩ ⟨b, nb⟩ ha hb hne x hx y hy e
  subst e
  have ga := (h.good a (mem_dkeys_iff.2 ⟨na, (dget_iff_mem h.nodup).2 ha⟩)).1
  have gb := (h.good b (mem_dkeys_iff.2 ⟨nb, (dget_iff_mem h.nodup).2 hb⟩)).1
  cases na with
  | dir => simp at hx
  | file ca =>
    cases nb with
    | dir => simp at hy
    | file cb =>
      simp only at hx hy
      split at hx
      · split at hy
        · obtain ⟨i, l, rfl⟩ := exists_concat ga
          obtain ⟨i', l', rfl⟩ := exists_concat gb
          simp at *
          apply hne <;> simp_all
        · cases hy
      · cases hx

theorem walkDirs_nodup {t : Tree} (h : WfTree t) : (walkDirs t [] (fun _ => false)).Nodup := by
  unfold walkDirs
  apply List.Pairwise.filter
  unfold dirsBelow
  rw [List.pairwise_cons]
  constructor
  · intro d hd e
    obtain ⟨⟨q, n⟩, hm, rfl⟩ := List.mem_map.1 hd
    have := List.mem_filter.1 hm
    simp only at e
    simp [← e] at this
  · have : ((t.filter (fun e => e.2 = .dir && ([] : Path).isPrefixOf e.1 && e.1 ≠ [])).map Prod.fst).Sublist
        (dkeys t) := List.Sublist.map _ List.filter_sublist
    exact List.Pairwise.sublist this h.nodup

theorem nonstandard_nodup {w : Char → Bool} {t : Tree} (h : WfTree t) : (nonstandard w t).Nodup := by
  have hroot : t.isdir [] = true := by simp [Tree.isdir]
  have good : ∀ d, t.isdir d = true → GoodOrRoot d := by
    intro d hd
    by_cases e : d = []
    · exact .inl e
    · exact .inr (isdir_good h hd e)
  unfold nonstandard List.Nodup
  rw [List.pairwise_flatMap]
  constructor
  · intro d hd
    have hdir := ((mem_walkDirs h hroot).1 hd).1
    rw [List.pairwise_append]
    refine ⟨?_, ?_, ?_⟩
    · split <;> simp
    · rw [List.pairwise_map]
      refine ((filesOf_nodup h d).filter _).imp_of_mem ?_
      intro a b ha hb hne e
      have ga := isfile_good h ((mem_filesOf h).1 (List.mem_filter.1 ha).1)
      have gb := isfile_good h ((mem_filesOf h).1 (List.mem_filter.1 hb).1)
      have := joinPath_inj ga gb e
      simp at this
      exact hne this
    · intro a ha b hb e
      split at ha
      · rename_i he
        rw [he.2] at hb
        simp at hb
      · cases ha
  · refine (walkDirs_nodup h).imp_of_mem ?_
    intro d d' hd hd' hne a ha b hb e
    have hdir := ((mem_walkDirs h hroot).1 hd).1
    have hdir' := ((mem_walkDirs h hroot).1 hd').1
    have cls : ∀ (d : Path) (x : Str), t.isdir d = true →
        x ∈ (if subdirsOf t d = [] ∧ filesOf t d = [] then [joinPath d] else []) ++
          ((filesOf t d).filter (fun f => !specialName w f)).map (fun f => joinPath (d ++ [f])) →
        (x = joinPath d ∧ t.isdir d = true) ∨ ∃ f, x = joinPath (d ++ [f]) ∧ t.isfile (d ++ [f]) = true := by
      intro d x hdir hx
      rcases List.mem_append.1 hx with hx | hx
      · split at hx
        · simp at hx; exact .inl ⟨hx, hdir⟩
        · cases hx
      · obtain ⟨f, hf, rfl⟩ := List.mem_map.1 hx
        exact .inr ⟨f, rfl, (mem_filesOf h).1 (List.mem_filter.1 hf).1⟩
    rcases cls d a hdir ha with ⟨ea, _⟩ | ⟨f, ea, hf⟩ <;> rcases cls d' b hdir' hb with ⟨eb, _⟩ | ⟨f', eb, hf'⟩
    · exact hne (joinPath_inj' (good _ hdir) (good _ hdir') (by rw [← ea, ← eb, e]))
    · have := joinPath_inj' (good _ hdir) (.inr (isfile_good h hf')) (by rw [← ea, ← eb, e])
      rw [this, isfile_not_isdir hf' (by simp)] at hdir
      cases hdir
    · have := joinPath_inj' (.inr (isfile_good h hf)) (good _ hdir') (by rw [← ea, ← eb, e])
      rw [← this, isfile_not_isdir hf (by simp)] at hdir'
      cases hdir'
    · have := joinPath_inj (isfile_good h hf) (isfile_good h hf') (by rw [← ea, ← eb, e])
      have := congrArg List.dropLast this
      simp at this
      exact hne this

/-! ## The listing -/

theorem mem_treeListing {size : Str → Nat} {t : Tree} (h : WfTree t) {f : FInfo} :
    f ∈ treeListing size t ↔ ∃ q, t.isfile q = true ∧ f = { path := '/' :: joinPath q, size := size (joinPath q) } := by
  unfold treeListing
  rw [List.mem_filterMap]
  constructor
  · rintro ⟨⟨q, n⟩, hm, hf⟩
    cases n with
    | dir => simp at hf
    | file c =>
      simp at hf
      exact ⟨q, isfile_iff.2 ⟨c, (dget_iff_mem h.nodup).2 hm⟩, hf.symm⟩
  · rintro ⟨q, hq, rfl⟩
    obtain ⟨c, hc⟩ := isfile_iff.1 hq
    exact ⟨(q, .file c), (dget_iff_mem h.nodup).1 hc, rfl⟩

theorem treeListing_nodup {size : Str → Nat} {t : Tree} (h : WfTree t) :
    ((treeListing size t).map (fun f => f.path.drop 1)).Nodup := by
  unfold treeListing List.Nodup
  rw [List.pairwise_map, List.pairwise_filterMap]
  have hp : t.Pairwise (fun a b => a.1 ≠ b.1) := by
    have := h.nodup
    unfold dkeys List.Nodup at this
    rwa [List.pairwise_map] at this
  refine hp.imp_of_mem ?_
  rintro ⟨a, na⟩ ⟨b, nb⟩ ha hb hne x hx y hy e
  have ga := (h.good a (mem_dkeys_iff.2 ⟨na, (dget_iff_mem h.nodup).2 ha⟩))
  have gb := (h.good b (mem_dkeys_iff.2 ⟨nb, (dget_iff_mem h.nodup).2 hb⟩))
  cases na with
  | dir => simp at hx
  | file ca =>
    cases nb with
    | dir => simp at hy
    | file cb =>
      simp at hx hy
      subst hx
      subst hy
      simp at e
      exact hne (joinPath_inj ga gb e)

/-- The files a splitter's main loop works on. -/
theorem mem_sorted {w : Char → Bool} {forhead : List Str} {size : Str → Nat} {t : Tree} {listing : List FInfo}
    (h : WfTree t) (hl : listing.Perm (treeListing size t)) {f : FInfo} :
    f ∈ sortedFiles w forhead listing ↔ ∃ q, t.isfile q = true ∧ specialName w (joinPath q) = false ∧
      ('/' :: joinPath q) ∉ forhead ∧ f = { path := '/' :: joinPath q, size := size (joinPath q) } := by
  rw [(sortedFiles_perm w forhead listing).mem_iff, List.mem_filter, hl.mem_iff, mem_treeListing h]
  constructor
  · rintro ⟨⟨q, hq, rfl⟩, hf⟩
    simp [specialPath] at hf
    exact ⟨q, hq, hf.1, hf.2, rfl⟩
  · rintro ⟨q, hq, h1, h2, rfl⟩
    exact ⟨⟨q, hq, rfl⟩, by simp [specialPath, h1, h2]⟩

theorem sorted_nodup {w : Char → Bool} {forhead : List Str} {size : Str → Nat} {t : Tree} {listing : List FInfo}
    (h : WfTree t) (hl : listing.Perm (treeListing size t)) :
    ((sortedFiles w forhead listing).map (fun f => f.path.drop 1)).Nodup := by
  have h1 := (sortedFiles_perm w forhead listing).map (fun f => f.path.drop 1)
  rw [h1.nodup_iff]
  have h2 : ((listing.filter (fun f => !specialPath w f.path && !decide (f.path ∈ forhead))).map
      (fun f => f.path.drop 1)).Sublist (listing.map (fun f => f.path.drop 1)) :=
    List.Sublist.map _ List.filter_sublist
  exact List.Pairwise.sublist h2 (((hl.map _).nodup_iff).2 (treeListing_nodup h))

theorem sorted_sizes {w : Char → Bool} {forhead : List Str} {size : Str → Nat} {t : Tree} {listing : List FInfo}
    (h : WfTree t) (hl : listing.Perm (treeListing size t)) :
    ∀ f ∈ sortedFiles w forhead listing, size (f.path.drop 1) = f.size := by
  intro f hf
  obtain ⟨q, _, _, _, rfl⟩ := (mem_sorted h hl).1 hf
  rfl

theorem sorted_desc (w : Char → Bool) (forhead : List Str) (l : List FInfo) :
    (sortedFiles w forhead l).Pairwise (fun a b => b.size ≤ a.size) := by
  refine (sortedFiles_pairwise w forhead l).imp ?_
  intro a b h
  rcases h with h | h <;> omega

/-- What the main loop of a splitter gives for a bag. -/
theorem main_result (s : Splitter) (w : Char → Bool) (size : Str → Nat) {t : Tree} {listing : List FInfo}
    (h : WfTree t) (hl : listing.Perm (treeListing size t)) :
    Result s.max s.tsz size ((sortedFiles w s.forhead listing).map (fun f => f.path.drop 1))
      (s.run (sortedFiles w s.forhead listing)) :=
  run_result s (sorted_desc _ _ _) (sorted_sizes h hl)

theorem mem_main (s : Splitter) (w : Char → Bool) (size : Str → Nat) {t : Tree} {listing : List FInfo}
    (h : WfTree t) (hl : listing.Perm (treeListing size t)) {p : Str} :
    p ∈ contentsOf (s.run (sortedFiles w s.forhead listing)) ↔
      ∃ q, t.isfile q = true ∧ specialName w (joinPath q) = false ∧ ('/' :: joinPath q) ∉ s.forhead ∧ p = joinPath q := by
  rw [(main_result s w size h hl).perm.mem_iff, List.mem_map]
  constructor
  · rintro ⟨f, hf, rfl⟩
    obtain ⟨q, h1, h2, h3, rfl⟩ := (mem_sorted h hl).1 hf
    exact ⟨q, h1, h2, h3, rfl⟩
  · rintro ⟨q, h1, h2, h3, rfl⟩
    exact ⟨_, (mem_sorted h hl).2 ⟨q, h1, h2, h3, rfl⟩, rfl⟩

theorem plan_nodup (s : Splitter) (w : Char → Bool) (bagName : Str) (size : Str → Nat) {t : Tree} {listing : List FInfo}
    (h : WfTree t) (hl : listing.Perm (treeListing size t)) :
    (contentsOf (s.createPlan w bagName size t listing)).Nodup := by
  unfold Splitter.createPlan
  rw [contentsOf_completePlan, List.nodup_append]
  refine ⟨((main_result s w size h hl).perm.nodup_iff).2 (sorted_nodup h hl), (nonstandard_nodup h).filter _, ?_⟩
  intro a ha b hb e
  subst e
  exact (mem_missing.1 hb).2 ha

theorem occurrences_eq (ms : List Manifest) (p : Str) :
    occurrences (ms.map (·.contents)) p = (contentsOf ms).count p := by
  induction ms with
  | nil => rfl
  | cons m ms ih =>
    simp only [occurrences, contentsOf, List.map_cons, List.sum_cons, List.flatMap_cons, List.count_append] at *
    rw [ih]

/-! ## Special names -/

theorem dotMatch_self (s : Str) (h : '\n' ∉ s) : dotMatch s s = true := by
  induction s with
  | nil => rfl
  | cons c cs ih =>
    simp at h
    simp only [dotMatch, ih h.2, Bool.and_true]
    split
    · simp; exact fun e => h.1 e.symm
    · simp

theorem reserved_special {w : Char → Bool} {f : Str} (h : Reserved w f) : specialName w f = true := by
  unfold specialName
  simp only [Bool.or_eq_true]
  have self : ∀ (g : Str → Bool) (s : Str), g s = true → atEnd g s = true := by
    intro g s hg; simp [atEnd, hg]
  rcases h with rfl | rfl | rfl | ⟨alg, hne, hw, rfl | rfl⟩
  · exact .inl (.inl (.inl (self _ _ (by decide))))
  · exact .inl (.inl (.inr (self _ _ (by decide))))
  · exact .inl (.inr (self _ _ (by decide)))
  all_goals
    have hr : (alg ++ py!".txt").reverse = 't' :: 'x' :: 't' :: '.' :: alg.reverse := by simp
    have hwt : wordTxt w (alg ++ py!".txt") = true := by
      unfold wordTxt
      rw [hr]
      simp [hne]
      exact hw
  · have : manifestMatch w (py!"manifest-" ++ alg ++ py!".txt") = true := by
      unfold manifestMatch
      have e : afterPrefix py!"manifest-" (py!"manifest-" ++ alg ++ py!".txt") = some (alg ++ py!".txt") := by
        simp [afterPrefix]
      rw [e]
      exact hwt
    exact .inr (self _ _ this)
  · have : manifestMatch w (py!"tagmanifest-" ++ alg ++ py!".txt") = true := by
      unfold manifestMatch
      have e0 : afterPrefix py!"manifest-" (py!"tagmanifest-" ++ alg ++ py!".txt") = none := by
        simp [afterPrefix]
      have e : afterPrefix py!"tagmanifest-" (py!"tagmanifest-" ++ alg ++ py!".txt") = some (alg ++ py!".txt") := by
        simp [afterPrefix]
      rw [e0, e]
      exact hwt
    exact .inr (self _ _ this)

/-- A string that matches a pattern ending in `.txt` has a slash only in the place of
the dot. -/
theorem dotMatch_slash {a : Str} {u v : Str} (ha : '/' ∉ a ∧ '.' ∉ a)
    (h : dotMatch (a ++ py!".txt") (u ++ '/' :: v) = true) : v = py!"txt" := by
  induction a generalizing u with
  | nil =>
    cases u with
    | nil =>
      match v with
      | [] => simp [dotMatch] at h
      | [_] => simp [dotMatch] at h
      | [_, _] => simp [dotMatch] at h
      | [x, y, z] => simp [dotMatch] at h; simp [h]
      | _ :: _ :: _ :: _ :: _ => simp [dotMatch] at h
    | cons c u =>
      exfalso
      match u, h with
      | [], h => simp [dotMatch] at h
      | [_], h => simp [dotMatch] at h
      | [_, _], h => simp [dotMatch] at h
      | [_, _, _], h => simp [dotMatch] at h
      | _ :: _ :: _ :: _ :: _, h => simp [dotMatch] at h
  | cons c a ih =>
    simp at ha
    cases u with
    | nil =>
      simp [dotMatch] at h
      rcases h.1 with e | e
      · exact absurd e.symm ha.2.1
      · exact absurd e ha.1.1
    | cons x u =>
      simp only [List.cons_append, dotMatch, Bool.and_eq_true] at h
      exact ih ⟨ha.1.2, ha.2.2⟩ h.2

theorem wordTxt_slash {w : Char → Bool} (hw : w '/' = false) {u v : Str} (h : wordTxt w (u ++ '/' :: v) = true) :
    v = py!"txt" := by
  unfold wordTxt at h
  split at h
  · rename_i t1 x t2 c body e
    simp only [Bool.and_eq_true, decide_eq_true_eq] at h
    obtain ⟨⟨⟨⟨⟨rfl, rfl⟩, rfl⟩, _⟩, _⟩, hb⟩ := h
    have e' : u ++ '/' :: v = body.reverse ++ [c, 't', 'x', 't'] := by
      have := congrArg List.reverse e
      simpa using this
    have hb' : '/' ∉ body := by
      intro hm
      have := List.all_eq_true.1 hb _ hm
      rw [hw] at this; cases this
    -- compare the reversed strings
    have er : v.reverse ++ '/' :: u.reverse = 't' :: 'x' :: 't' :: c :: body := by
      have := congrArg List.reverse e'
      simpa using this
    match hv : v.reverse, er with
    | [], er => simp at er
    | [_], er => simp at er
    | [_, _], er => simp at er
    | [a, b, d], er =>
      simp at er
      obtain ⟨rfl, rfl, rfl, _⟩ := er
      have := congrArg List.reverse hv
      simpa using this
    | a :: b :: d :: g :: r, er =>
      simp at er
      obtain ⟨_, _, _, _, er⟩ := er
      exact absurd (er ▸ by simp) hb'
  · cases h

theorem afterPrefix_some {p s r : Str} (h : afterPrefix p s = some r) : s = p ++ r := by
  unfold afterPrefix at h
  split at h
  · rename_i hp
    injection h with h
    subst h
    obtain ⟨q, rfl⟩ := List.isPrefixOf_iff_prefix.1 hp
    simp
  · cases h

theorem slash_split {p u v r : Str} (hp : '/' ∉ p) (h : u ++ '/' :: v = p ++ r) : ∃ u', r = u' ++ '/' :: v := by
  induction p generalizing u with
  | nil => exact ⟨u, h.symm⟩
  | cons c p ih =>
    simp at hp
    cases u with
    | nil => simp at h; exact absurd h.1 hp.1
    | cons x u => simp at h; exact ih hp.2 h.2

theorem manifestMatch_slash {w : Char → Bool} (hw : w '/' = false) {u v : Str}
    (h : manifestMatch w (u ++ '/' :: v) = true) : v = py!"txt" := by
  unfold manifestMatch at h
  split at h
  · rename_i r hr
    obtain ⟨u', rfl⟩ := slash_split (by decide) (afterPrefix_some hr)
    exact wordTxt_slash hw h
  · split at h
    · rename_i r hr
      obtain ⟨u', rfl⟩ := slash_split (by decide) (afterPrefix_some hr)
      exact wordTxt_slash hw h
    · cases h

theorem atEnd_slash {f : Str → Bool} (hf : ∀ u v, f (u ++ '/' :: v) = true → v = py!"txt") {u v : Str}
    (h : atEnd f (u ++ '/' :: v) = true) : v = py!"txt" ∨ v = py!"txt\n" := by
  unfold atEnd at h
  rw [Bool.or_eq_true] at h
  rcases h with h | h
  · exact .inl (hf _ _ h)
  · simp only [Bool.and_eq_true, decide_eq_true_eq] at h
    obtain ⟨h1, h2⟩ := h
    by_cases e : v = []
    · subst e; simp at h1
    · obtain ⟨i, l, rfl⟩ := exists_concat e
      have h3 : (u ++ '/' :: (i ++ [l])).getLast? = some l := by
        rw [← List.cons_append, ← List.append_assoc, List.getLast?_concat]
      have h4 : (u ++ '/' :: (i ++ [l])).dropLast = u ++ '/' :: i := by
        rw [← List.cons_append, ← List.append_assoc, List.dropLast_concat]
      rw [h3] at h1
      injection h1 with h1
      rw [h4] at h2
      right
      rw [hf _ _ h2, h1]; rfl

/-- A path with a slash that matches a special name has a plain last component. -/
theorem specialName_slash {w : Char → Bool} (hw : w '/' = false) {u v : Str}
    (h : specialName w (u ++ '/' :: v) = true) : specialName w v = false := by
  have hv : v = py!"txt" ∨ v = py!"txt\n" := by
    unfold specialName at h
    simp only [Bool.or_eq_true] at h
    rcases h with ((h | h) | h) | h
    · exact atEnd_slash (fun u v hh => dotMatch_slash (a := py!"bagit") (by decide) hh) h
    · exact atEnd_slash (fun u v hh => dotMatch_slash (a := py!"bag-info") (by decide) hh) h
    · exact atEnd_slash (fun u v hh => dotMatch_slash (a := py!"fetch") (by decide) hh) h
    · exact atEnd_slash (fun u v hh => manifestMatch_slash hw hh) h
  rcases hv with rfl | rfl <;> rfl

/-! ## Names taken for reserved ones -/

theorem dotMatch_iff (stem f : Str) (h : '.' ∉ stem) :
    dotMatch (stem ++ py!".txt") f = true ↔ ∃ c, c ≠ '\n' ∧ f = stem ++ c :: py!"txt" := by
  induction stem generalizing f with
  | nil =>
    match f with
    | [] => simp [dotMatch]
    | [a] => simp [dotMatch]
    | [a, b] => simp [dotMatch]
    | [a, b, c] => simp [dotMatch]
    | [a, b, c, d] =>
      simp only [List.nil_append, dotMatch, if_true, Bool.and_eq_true, decide_eq_true_eq, List.cons.injEq, and_true,
        ne_eq, show ('t' : Char) ≠ '.' from by decide, show ('x' : Char) ≠ '.' from by decide, if_false]
      constructor
      · rintro ⟨h1, h2, h3, h4⟩; exact ⟨a, h1, rfl, h2, h3, h4⟩
      · rintro ⟨c', h1, rfl, h2, h3, h4⟩; exact ⟨h1, h2, h3, h4⟩
    | a :: b :: c :: d :: e :: f => simp [dotMatch]
  | cons x xs ih =>
    have hx : x ≠ '.' := fun e => h (e ▸ List.mem_cons_self)
    cases f with
    | nil => simp [dotMatch]
    | cons y ys =>
      rw [List.cons_append, dotMatch, if_neg hx, Bool.and_eq_true, ih ys (fun hm => h (List.mem_cons_of_mem _ hm))]
      simp only [decide_eq_true_eq, List.cons_append, List.cons.injEq]
      constructor
      · rintro ⟨rfl, c, hc, rfl⟩; exact ⟨c, hc, rfl, rfl⟩
      · rintro ⟨c, hc, rfl, rfl⟩; exact ⟨rfl, c, hc, rfl⟩

theorem wordTxt_iff (w : Char → Bool) (s : Str) : wordTxt w s = true ↔
    ∃ alg c, alg ≠ [] ∧ (∀ x ∈ alg, w x = true) ∧ c ≠ '\n' ∧ s = alg ++ c :: py!"txt" := by
  unfold wordTxt
  constructor
  · intro h
    split at h
    · rename_i t1 x t2 c body hr
      simp only [Bool.and_eq_true, decide_eq_true_eq, Bool.not_eq_true', List.isEmpty_eq_false_iff, List.all_eq_true] at h
      obtain ⟨⟨⟨⟨⟨rfl, rfl⟩, rfl⟩, hc⟩, hb⟩, hw⟩ := h
      refine ⟨body.reverse, c, by simpa using hb, fun x hx => hw x (List.mem_reverse.1 hx), hc, ?_⟩
      have := congrArg List.reverse hr
      rw [List.reverse_reverse] at this
      rw [this]; simp
    · cases h
  · rintro ⟨alg, c, h1, h2, h3, rfl⟩
    simp only [List.reverse_append, List.reverse_cons, List.reverse_nil, List.nil_append, List.cons_append]
    simp [h1, h3]
    intro x hx; exact h2 x hx

theorem afterPrefix_iff {p s r : Str} : afterPrefix p s = some r ↔ s = p ++ r := by
  unfold afterPrefix
  split
  · rename_i h
    obtain ⟨t, rfl⟩ := List.isPrefixOf_iff_prefix.1 h
    simp
  · rename_i h
    constructor
    · intro e; cases e
    · rintro rfl; exact absurd (List.isPrefixOf_iff_prefix.2 ⟨r, rfl⟩) h

theorem manifestMatch_iff (w : Char → Bool) (s : Str) : manifestMatch w s = true ↔
    ∃ alg c, alg ≠ [] ∧ (∀ x ∈ alg, w x = true) ∧ c ≠ '\n' ∧
      (s = py!"manifest-" ++ alg ++ c :: py!"txt" ∨ s = py!"tagmanifest-" ++ alg ++ c :: py!"txt") := by
  unfold manifestMatch
  cases h : afterPrefix py!"manifest-" s with
  | some r =>
    have := afterPrefix_iff.1 h
    subst this
    simp only [wordTxt_iff]
    constructor
    · rintro ⟨alg, c, h1, h2, h3, rfl⟩; exact ⟨alg, c, h1, h2, h3, .inl (by simp)⟩
    · rintro ⟨alg, c, h1, h2, h3, e | e⟩
      · exact ⟨alg, c, h1, h2, h3, by simpa using e⟩
      · simp at e
  | none =>
    have hn : ∀ r, s ≠ py!"manifest-" ++ r := by
      intro r e; rw [afterPrefix_iff.2 e] at h; cases h
    cases h2 : afterPrefix py!"tagmanifest-" s with
    | some r =>
      have := afterPrefix_iff.1 h2
      subst this
      simp only [wordTxt_iff]
      constructor
      · rintro ⟨alg, c, h1, hw, h3, rfl⟩; exact ⟨alg, c, h1, hw, h3, .inr (by simp)⟩
      · rintro ⟨alg, c, h1, h2, h3, e | e⟩
        · exact absurd (by simp at e) (hn (alg ++ c :: py!"txt"))
        · exact ⟨alg, c, h1, h2, h3, by simpa using e⟩
    | none =>
      simp only [Bool.false_eq_true, false_iff]
      rintro ⟨alg, c, _, _, _, e | e⟩
      · exact hn (alg ++ c :: py!"txt") (by simpa using e)
      · have e' : s = py!"tagmanifest-" ++ (alg ++ c :: py!"txt") := by simpa using e
        rw [afterPrefix_iff.2 e'] at h2; cases h2

theorem atEnd_iff (f : Str → Bool) (s : Str) : atEnd f s = true ↔ ∃ g, f g = true ∧ (s = g ∨ s = g ++ ['\n']) := by
  unfold atEnd
  rw [Bool.or_eq_true, Bool.and_eq_true, decide_eq_true_eq]
  constructor
  · rintro (h | ⟨h1, h2⟩)
    · exact ⟨s, h, .inl rfl⟩
    · refine ⟨_, h2, .inr ?_⟩
      obtain ⟨ys, rfl⟩ := List.getLast?_eq_some_iff.1 h1
      simp
  · rintro ⟨g, h, rfl | rfl⟩
    · exact .inl h
    · exact .inr ⟨by simp, by simpa using h⟩

theorem special_iff {w : Char → Bool} {f : Str} : specialName w f = true ↔ TakenForReserved w f := by
  unfold specialName TakenForReserved
  rw [Bool.or_eq_true, Bool.or_eq_true, Bool.or_eq_true, atEnd_iff, atEnd_iff, atEnd_iff, atEnd_iff]
  simp only [show py!"bagit.txt" = py!"bagit" ++ py!".txt" from rfl, show py!"bag-info.txt" = py!"bag-info" ++ py!".txt" from rfl,
    show py!"fetch.txt" = py!"fetch" ++ py!".txt" from rfl]
  simp only [dotMatch_iff py!"bagit" _ (by decide), dotMatch_iff py!"bag-info" _ (by decide),
    dotMatch_iff py!"fetch" _ (by decide), manifestMatch_iff]
  constructor
  · rintro (((⟨g, ⟨c, hc, rfl⟩, hg⟩ | ⟨g, ⟨c, hc, rfl⟩, hg⟩) | ⟨g, ⟨c, hc, rfl⟩, hg⟩) | ⟨g, ⟨alg, c, h1, h2, hc, e⟩, hg⟩)
    · exact ⟨py!"bagit", c, hc, .inl rfl, hg⟩
    · exact ⟨py!"bag-info", c, hc, .inr (.inl rfl), hg⟩
    · exact ⟨py!"fetch", c, hc, .inr (.inr (.inl rfl)), hg⟩
    · rcases e with rfl | rfl
      · exact ⟨_, c, hc, .inr (.inr (.inr ⟨alg, h1, h2, .inl rfl⟩)), hg⟩
      · exact ⟨_, c, hc, .inr (.inr (.inr ⟨alg, h1, h2, .inr rfl⟩)), hg⟩
  · rintro ⟨stem, c, hc, rfl | rfl | rfl | ⟨alg, h1, h2, rfl | rfl⟩, hg⟩
    · exact .inl (.inl (.inl ⟨_, ⟨c, hc, rfl⟩, hg⟩))
    · exact .inl (.inl (.inr ⟨_, ⟨c, hc, rfl⟩, hg⟩))
    · exact .inl (.inr ⟨_, ⟨c, hc, rfl⟩, hg⟩)
    · exact .inr ⟨_, ⟨alg, c, h1, h2, hc, .inl rfl⟩, hg⟩
    · exact .inr ⟨_, ⟨alg, c, h1, h2, hc, .inr rfl⟩, hg⟩

theorem not_special_iff {w : Char → Bool} {f : Str} : specialName w f = false ↔ ¬ TakenForReserved w f := by
  rw [← special_iff, Bool.not_eq_true]

end Verif
