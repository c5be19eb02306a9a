import Verif.Model.Restorer
import Verif.Spec.Restorer
import Verif.Lemmas.Paths
import Verif.Lemmas.TagDir
/-!
# Lemmas about places on disk
-/

namespace Verif
open Spec

/-- Splitting at a slash. -/
theorem splitOn_append_slash (a b : Str) : splitOn '/' (a ++ '/' :: b) = splitOn '/' a ++ splitOn '/' b := by
  induction a with
  | nil => rw [List.nil_append, splitOn_cons_sep]; rfl
  | cons x a ih =>
    by_cases hx : x = '/'
    · subst hx; rw [List.cons_append, splitOn_cons_sep, splitOn_cons_sep, ih]; rfl
    · obtain ⟨f, fs, e, e'⟩ := splitOn_cons_ne' a hx
      obtain ⟨g, gs, d, d'⟩ := splitOn_cons_ne' (a ++ '/' :: b) hx
      rw [ih, e] at d
      rw [List.cons_append] at d
      obtain ⟨rfl, rfl⟩ := List.cons.inj d
      rw [List.cons_append, d', e']; rfl

theorem comps_slashes (k : Nat) {q : Path} (h : ∀ c ∈ q, GoodName c) :
    comps (List.replicate k '/' ++ joinPath q) = q := by
  induction k with
  | zero =>
    by_cases hq : q = []
    · subst hq; rfl
    · exact comps_joinPath ⟨hq, h⟩
  | succ k ih =>
    rw [List.replicate_succ, List.cons_append]
    unfold comps at ih ⊢
    rw [splitOn_cons_sep]
    exact ih

theorem follow_slashes (k : Nat) {q : Path} (h : ∀ c ∈ q, GoodName c) (cur : Path) :
    follow cur (splitOn '/' (List.replicate k '/' ++ joinPath q)) = cur ++ q := by
  induction k with
  | zero =>
    by_cases hq : q = []
    · subst hq; simp [joinPath, joinWith, splitOn, follow]
    · rw [List.replicate_zero, List.nil_append, splitOn_joinPath' ⟨hq, h⟩, follow_good _ h]
  | succ k ih =>
    rw [List.replicate_succ, List.cons_append, splitOn_cons_sep, follow, if_pos (.inl rfl)]
    exact ih

theorem leadsTo_slashes {k : Nat} (hk : 0 < k) {q : Path} (h : ∀ c ∈ q, GoodName c) (wd : Path) :
    leadsTo wd (List.replicate k '/' ++ joinPath q) = q := by
  obtain ⟨k, rfl⟩ : ∃ j, k = j + 1 := ⟨k - 1, by omega⟩
  unfold leadsTo
  rw [if_pos (by rw [List.replicate_succ]; rfl), follow_slashes _ h, List.nil_append]

/-- An absolute path is one or two slashes and the components of the place. -/
theorem abspath_shape {cwd : Str} {wd : Path} (h : AbsPath cwd wd) (p : Str) :
    ∃ k, 0 < k ∧ abspath cwd p = List.replicate k '/' ++ joinPath (leadsTo wd p) := by
  by_cases hp : p.head? = some '/'
  · unfold abspath
    rw [pathJoin_abs hp]
    cases p with
    | nil => simp at hp
    | cons x s =>
      obtain rfl : x = '/' := by simpa using hp
      have hf : ((splitOn '/' ('/' :: s)).foldl (normStep true) []) = leadsTo wd ('/' :: s) := by
        rw [foldl_normStep (by simp)]
        unfold leadsTo
        rw [if_pos hp]
      have h12 : 0 < initialSlashes ('/' :: s) := by
        unfold initialSlashes
        split <;> simp_all
      refine ⟨initialSlashes ('/' :: s), h12, ?_⟩
      unfold normpath
      rw [if_neg (by simp)]
      have hb : (initialSlashes ('/' :: s) != 0) = true := by simp; omega
      simp only [hb, hf]
      rw [if_neg]
      intro e
      have := (List.append_eq_nil_iff.1 e).1
      rw [List.replicate_eq_nil_iff] at this
      omega
  · exact ⟨1, by omega, normpath_join_rel h hp⟩

/-- With one slash, unless the path starts with exactly two. -/
theorem abspath_one {cwd : Str} {wd : Path} (h : AbsPath cwd wd) {p : Str} (hp : ¬ py!"//" <+: p) :
    abspath cwd p = '/' :: joinPath (leadsTo wd p) := by
  by_cases ha : p.head? = some '/'
  · unfold abspath
    rw [pathJoin_abs ha]
    cases p with
    | nil => simp at ha
    | cons x s =>
      obtain rfl : x = '/' := by simpa using ha
      have hf : ((splitOn '/' ('/' :: s)).foldl (normStep true) []) = leadsTo wd ('/' :: s) := by
        rw [foldl_normStep (by simp)]
        unfold leadsTo
        rw [if_pos ha]
      have h1 : initialSlashes ('/' :: s) = 1 := by
        unfold initialSlashes
        split
        · rfl
        · next e => exact absurd (e ▸ ⟨_, rfl⟩) hp
        · rfl
        · next e => simp_all
      unfold normpath
      rw [if_neg (by simp)]
      simp only [h1]
      rw [show ((1 : Nat) != 0) = true from rfl, hf]
      simp
  · exact normpath_join_rel h ha

theorem comps_abspath {cwd : Str} {wd : Path} (h : AbsPath cwd wd) (p : Str) :
    comps (abspath cwd p) = leadsTo wd p := by
  obtain ⟨k, _, e⟩ := abspath_shape h p
  rw [e, comps_slashes _ (goodName_leadsTo h.1.2 p)]

theorem leadsTo_abspath {cwd : Str} {wd : Path} (h : AbsPath cwd wd) (p : Str) :
    leadsTo wd (abspath cwd p) = leadsTo wd p := by
  obtain ⟨k, hk, e⟩ := abspath_shape h p
  rw [e, leadsTo_slashes hk (goodName_leadsTo h.1.2 p)]

theorem diskIsdir_eq {cwd : Str} {wd : Path} (h : AbsPath cwd wd) (disk : Tree) (p : Str) :
    diskIsdir cwd disk p = disk.isdir (leadsTo wd p) := by rw [diskIsdir, comps_abspath h]

theorem diskIsfile_eq {cwd : Str} {wd : Path} (h : AbsPath cwd wd) (disk : Tree) (p : Str) :
    diskIsfile cwd disk p = disk.isfile (leadsTo wd p) := by rw [diskIsfile, comps_abspath h]

theorem diskExists_eq {cwd : Str} {wd : Path} (h : AbsPath cwd wd) (disk : Tree) (p : Str) :
    diskExists cwd disk p = disk.exists (leadsTo wd p) := by rw [diskExists, comps_abspath h]

/-- Everything up to and including the last slash. -/
theorem head_last_slash {a c : Str} (hc : '/' ∉ c) :
    (((a ++ '/' :: c).reverse).dropWhile (· ≠ '/')).reverse = a ++ ['/'] := by
  have : (a ++ '/' :: c).reverse = c.reverse ++ '/' :: a.reverse := by simp
  rw [this, List.dropWhile_append_of_pos (by
    intro x hx
    have : x ∈ c := List.mem_reverse.1 hx
    simp only [decide_eq_true_eq]
    exact fun e => hc (e ▸ this))]
  simp

theorem all_replicate (k : Nat) : (List.replicate k '/').all (· = '/') = true := by
  rw [List.all_eq_true]; intro x hx; simp [List.eq_of_mem_replicate hx]

/-- The directory above a place. -/
theorem dirName_slashes {k : Nat} (hk : 0 < k) {q : Path} (h : ∀ c ∈ q, GoodName c) :
    dirName (List.replicate k '/' ++ joinPath q) = List.replicate k '/' ++ joinPath q.dropLast := by
  by_cases hq : q = []
  · subst hq
    obtain ⟨k, rfl⟩ : ∃ j, k = j + 1 := ⟨k - 1, by omega⟩
    have e : List.replicate (k + 1) '/' ++ joinPath [] = List.replicate k '/' ++ '/' :: [] := by
      rw [List.replicate_succ']; simp [joinPath, joinWith]
    have e2 : List.replicate (k + 1) '/' ++ joinPath ([] : Path).dropLast = List.replicate (k + 1) '/' := by
      simp [joinPath, joinWith]
    unfold dirName
    rw [e2, e, head_last_slash (by simp), ← List.replicate_succ']
    simp only [all_replicate, if_true]
  · obtain ⟨init, c, rfl⟩ := exists_concat hq
    have hc : GoodName c := h c (by simp)
    rw [List.dropLast_concat]
    by_cases hi : init = []
    · subst hi
      obtain ⟨k, rfl⟩ : ∃ j, k = j + 1 := ⟨k - 1, by omega⟩
      have e : List.replicate (k + 1) '/' ++ joinPath ([] ++ [c]) = List.replicate k '/' ++ '/' :: c := by
        rw [List.replicate_succ']; simp [joinPath, joinWith]
      have e2 : List.replicate (k + 1) '/' ++ joinPath [] = List.replicate (k + 1) '/' := by
        simp [joinPath, joinWith]
      unfold dirName
      rw [e2, e, head_last_slash hc.noslash, ← List.replicate_succ']
      simp only [all_replicate, if_true]
    · have hg : GoodPath init := ⟨hi, fun d hd => h d (by simp [hd])⟩
      have e : List.replicate k '/' ++ joinPath (init ++ [c]) =
          (List.replicate k '/' ++ joinPath init) ++ '/' :: c := by
        rw [joinPath_append hi (by simp)]; simp [joinPath, joinWith]
      unfold dirName
      rw [e, head_last_slash hc.noslash]
      have hl := joinPath_last hg
      obtain ⟨x, y, hxy⟩ := exists_concat (joinPath_ne_nil hg)
      have hy : y ≠ '/' := hl y (by rw [hxy]; simp)
      have hna : ((List.replicate k '/' ++ joinPath init ++ ['/']).all (· = '/')) = false := by
        rw [List.all_eq_false]
        exact ⟨y, by rw [hxy]; simp, by simpa using hy⟩
      simp only [hna]
      rw [hxy]
      simp [rstripBy, hy]

theorem leadsTo_dirName {cwd : Str} {wd : Path} (h : AbsPath cwd wd) (p : Str) :
    leadsTo wd (dirName (abspath cwd p)) = (leadsTo wd p).dropLast := by
  obtain ⟨k, hk, e⟩ := abspath_shape h p
  have hg := goodName_leadsTo h.1.2 p
  rw [e, dirName_slashes hk hg, leadsTo_slashes hk (fun c hc => hg c (List.dropLast_subset _ hc))]

/-- Joining follows the second path from where the first leads. -/
theorem leadsTo_pathJoin (wd : Path) {a b : Str} (ha : a ≠ []) (hb : b.head? ≠ some '/') :
    leadsTo wd (pathJoin a b) = follow (leadsTo wd a) (splitOn '/' b) := by
  unfold pathJoin isAbs
  rw [if_neg (by simpa using hb)]
  split
  · next hl =>
    simp only [Bool.or_eq_true, decide_eq_true_eq] at hl
    have hl := hl.resolve_left ha
    obtain ⟨x, y, rfl⟩ := exists_concat ha
    rw [List.getLast?_concat] at hl
    cases hl
    have e : x ++ ['/'] ++ b = x ++ '/' :: b := by simp
    unfold leadsTo
    rw [e]
    have hh : (x ++ '/' :: b).head? = (x ++ ['/']).head? := by cases x <;> rfl
    rw [hh, splitOn_append_slash, splitOn_append_slash, follow_append, follow_append]
    rfl
  · unfold leadsTo
    have hh : (a ++ '/' :: b).head? = a.head? := by
      cases a with
      | nil => exact absurd rfl ha
      | cons x a => rfl
    rw [hh, splitOn_append_slash, follow_append]

theorem pathJoin_ne_nil {a b : Str} (hb : b ≠ []) : pathJoin a b ≠ [] := by
  unfold pathJoin
  split
  · exact hb
  · split
    · exact fun e => hb (List.append_eq_nil_iff.1 e).2
    · simp

/-- A name joined to a directory. -/
theorem leadsTo_join_name (wd : Path) {a c : Str} (ha : a ≠ []) (hc : GoodName c) :
    leadsTo wd (pathJoin a c) = leadsTo wd a ++ [c] := by
  have hh : c.head? ≠ some '/' := by
    intro e
    exact hc.noslash (List.mem_of_head? e)
  rw [leadsTo_pathJoin wd ha hh, splitOn_noSep hc.noslash, follow_good _ (by simpa using hc)]

theorem pathJoin_ext {a c e : Str} (hc : c ≠ []) (hh : c.head? ≠ some '/') :
    pathJoin a c ++ e = pathJoin a (c ++ e) := by
  have hh' : (c ++ e).head? ≠ some '/' := by
    cases c with
    | nil => exact absurd rfl hc
    | cons x c => simpa using hh
  unfold pathJoin isAbs
  have e1 : decide (c.head? = some '/') = false := by simpa using hh
  have e2 : decide ((c ++ e).head? = some '/') = false := decide_eq_false hh'
  simp only [e1, e2, Bool.false_eq_true, if_false]
  split <;> simp

theorem goodName_ext {c e : Str} (hc : GoodName c) (he : e ∈ serialized) : GoodName (c ++ e) := by
  have h : '/' ∉ e ∧ 3 < e.length := by
    revert e; decide
  refine ⟨by simp [hc.nonempty], ?_, ?_, ?_⟩
  · rw [List.mem_append]; exact fun h' => h'.elim hc.noslash h.1
  · intro e'
    have := congrArg List.length e'
    simp at this; omega
  · intro e'
    have := congrArg List.length e'
    simp at this; omega

end Verif
