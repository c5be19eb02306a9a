import Verif.Lemmas.Paths
/-!
# Properties of paths (C67, C68, C69)
-/

namespace Verif
open Spec

/-- **C67**, part.  The path a bag operation uses for `p` is the place `p` leads to from the
bag's directory, and that is inside the bag unless it is in a directory next to the bag
whose name starts with the bag's name.
Missing: the property has no exception (`C67_negation`). -/
theorem C67_used_path_partial {bag : Str} {dir : Path} (h : AbsPath bag dir) {p q : Str}
    (hq : canonPath bag p = some q) :
    q = '/' :: joinPath (leadsTo dir p) ∧
    (Inside dir (leadsTo dir p) ∨ Lookalike dir (leadsTo dir p)) := by
  unfold canonPath at hq
  simp only at hq
  split at hq
  · next hs =>
    cases hq
    obtain ⟨c, r, hc, hj, hb⟩ := absPath_shape h
    rw [normpath_absPath h] at hs
    have hs' := List.isPrefixOf_iff_prefix.1 hs
    have key : normpath (pathJoin bag p) = '/' :: joinPath (leadsTo dir p) := by
      by_cases hp : p.head? = some '/'
      · rw [pathJoin_abs hp] at hs' ⊢
        rcases normpath_of_abs hp dir with e | ⟨t, e⟩
        · exact e
        · rw [e, hb, List.cons_prefix_cons, List.cons_prefix_cons] at hs'
          exact absurd hs'.2.1 hc
      · exact normpath_join_rel h hp
    refine ⟨key, ?_⟩
    rw [key, hb, ← hj, List.cons_prefix_cons] at hs'
    exact (prefix_joinPath h.1 (goodName_leadsTo h.1.2 p)).1 hs'.2
  · cases hq

/-- **C67**, part.  A relative path that leads into the bag is used as the place it leads
to. -/
theorem C67_inside_accepted {bag : Str} {dir : Path} (h : AbsPath bag dir) {p : Str}
    (hp : p.head? ≠ some '/') (hi : Inside dir (leadsTo dir p)) :
    canonPath bag p = some ('/' :: joinPath (leadsTo dir p)) := by
  unfold canonPath
  simp only
  rw [normpath_join_rel h hp, normpath_absPath h, if_pos]
  obtain ⟨c, r, hc, hj, hb⟩ := absPath_shape h
  refine List.isPrefixOf_iff_prefix.2 ?_
  rw [hb, ← hj, List.cons_prefix_cons]
  exact ⟨rfl, (prefix_joinPath h.1 (goodName_leadsTo h.1.2 p)).2 (.inl hi)⟩

/-- **C67**, part.  On a disk without directories next to the bag that start with its name,
`exists`, `isfile` and `isdir` answer for relative paths that lead inside the bag according
to the disk, and `false` for all others.
Missing: disks with such directories (`C67_negation`). -/
theorem C67_queries_partial {bag : Str} {dir : Path} (h : AbsPath bag dir) {p : Str} {disk : Tree}
    (hp : p.head? ≠ some '/') (hl : ∀ q, Lookalike dir q → disk.exists q = false) :
    (bagExists disk bag p = true ↔ Inside dir (leadsTo dir p) ∧ disk.exists (leadsTo dir p) = true) ∧
    (bagIsfile disk bag p = true ↔ Inside dir (leadsTo dir p) ∧ disk.isfile (leadsTo dir p) = true) ∧
    (bagIsdir disk bag p = true ↔ Inside dir (leadsTo dir p) ∧ disk.isdir (leadsTo dir p) = true) := by
  have hg := goodName_leadsTo h.1.2 p
  have hfe : ∀ q, disk.isfile q = true → disk.exists q = true := by
    intro q hq
    obtain ⟨c, hc⟩ := isfile_iff.1 hq
    simp [Tree.exists, hc]
  have hde : ∀ q, disk.isdir q = true → disk.exists q = true := by
    intro q hq
    rcases isdir_iff.1 hq with e | e <;> simp [Tree.exists, e]
  unfold bagExists bagIsfile bagIsdir
  by_cases hi : Inside dir (leadsTo dir p)
  · rw [C67_inside_accepted h hp hi]
    simp only [comps_abs hg, hi, true_and, and_self]
  · cases hc : canonPath bag p with
    | none => simp [hi]
    | some q =>
      obtain ⟨rfl, hil⟩ := C67_used_path_partial h hc
      have hn := hl _ (hil.resolve_left hi)
      simp only [comps_abs hg, hi, false_and, iff_false]
      refine ⟨by rw [hn]; simp, fun e => ?_, fun e => ?_⟩
      · rw [hfe _ e] at hn; cases hn
      · rw [hde _ e] at hn; cases hn

/-- **C67**, part.  On such a disk `sizeof` gives, for a relative path that leads to a file in the bag, the size of that
file, and raises an exception for everything outside the bag and for what does not exist.
Missing: disks with such directories (`C67_negation`). -/
theorem C67_sizeof_partial (blen : Str → Nat) {bag : Str} {dir : Path} (h : AbsPath bag dir) {p : Str} {disk : Tree}
    (hp : p.head? ≠ some '/') (hl : ∀ q, Lookalike dir q → disk.exists q = false) :
    (∀ c, Inside dir (leadsTo dir p) → disk.read (leadsTo dir p) = some c → bagSizeof blen disk bag p = .ok (blen c)) ∧
    ((¬ Inside dir (leadsTo dir p) ∨ disk.exists (leadsTo dir p) = false) → ∃ e, bagSizeof blen disk bag p = .error e) := by
  have hg := goodName_leadsTo h.1.2 p
  have none_ : ∀ q, disk.exists q = false → disk.read q = none ∧ disk.isdir q = false := by
    intro q hq
    unfold Tree.exists at hq
    simp only [Bool.or_eq_false_iff, decide_eq_false_iff_not] at hq
    have hd : dget disk q = none := by simpa using hq.2
    unfold Tree.read Tree.isdir
    rw [hd]
    simp [hq.1]
  unfold bagSizeof
  constructor
  · intro c hi hr
    rw [C67_inside_accepted h hp hi]
    simp only [comps_abs hg]
    rw [hr]
  · intro hno
    cases hc : canonPath bag p with
    | none => exact ⟨_, rfl⟩
    | some q =>
      obtain ⟨rfl, hil⟩ := C67_used_path_partial h hc
      have hn : disk.exists (leadsTo dir p) = false := hno.elim (fun hi => hl _ (hil.resolve_left hi)) id
      simp only [comps_abs hg]
      rw [(none_ _ hn).1, (none_ _ hn).2]
      exact ⟨_, rfl⟩

/-- The hypotheses of the theorems above are met. -/
example : AbsPath py!"/x/bag" [py!"x", py!"bag"] ∧
    leadsTo [py!"x", py!"bag"] py!"data/./../multibag//a.tsv" = [py!"x", py!"bag", py!"multibag", py!"a.tsv"] ∧
    Inside [py!"x", py!"bag"] (leadsTo [py!"x", py!"bag"] py!"data/./../multibag//a.tsv") ∧
    ¬ Inside [py!"x", py!"bag"] (leadsTo [py!"x", py!"bag"] py!"data/../../secret") ∧
    (canonPath py!"/x/bag" py!"data/../../secret" = none) ∧
    bagSizeof List.length [([py!"x"], .dir), ([py!"x", py!"bag"], .dir), ([py!"x", py!"bag", py!"a"], .file py!"abc")] py!"/x/bag" py!"./a"
      = .ok 3 := by
  refine ⟨⟨⟨by decide, ?_⟩, by decide⟩, by decide, by decide, by decide, by decide, by decide⟩
  intro c hc
  simp only [List.mem_cons, List.not_mem_nil, or_false] at hc
  rcases hc with rfl | rfl <;> exact ⟨by decide, by decide, by decide, by decide⟩

/-- **C67** fails in general: with a directory `bag2` next to the bag, `isfile` of a bag
answers about, and `sizeof` returns the size of, a file outside the bag. -/
theorem C67_negation :
    ∃ (bag : Str) (dir : Path) (p : Str) (disk : Tree), AbsPath bag dir ∧ p.head? ≠ some '/' ∧
      ¬ Inside dir (leadsTo dir p) ∧ bagIsfile disk bag p = true ∧
      bagSizeof List.length disk bag p = .ok 3 := by
  refine ⟨py!"/bag", [py!"bag"], py!"../bag2/key", [([py!"bag2"], .dir), ([py!"bag2", py!"key"], .file py!"abc")],
    ⟨⟨by decide, ?_⟩, by decide⟩, by decide, by decide, by decide, by decide⟩
  intro c hc
  simp only [List.mem_cons, List.not_mem_nil, or_false] at hc
  subst hc
  exact ⟨by decide, by decide, by decide, by decide⟩

/-- **C68**, part: which paths are rejected.  A path in a manifest or fetch file is accepted
exactly if it is relative, is not changed by the expansion of `~user` and `$VAR`, and leads
inside the bag or into a directory next to the bag that starts with the bag's name.
Missing: the property is that it is accepted exactly if it leads inside the bag (`C68_negation`). -/
theorem C68_accepted_iff_partial (env : Env) {bag : Str} {dir : Path} (h : AbsPath bag dir) (p : Str) :
    isDangerous env bag p = false ↔
      p.head? ≠ some '/' ∧ env.expanduser p = p ∧ env.expandvars p = p ∧
      (Inside dir (leadsTo dir p) ∨ Lookalike dir (leadsTo dir p)) := by
  unfold isDangerous isAbs
  by_cases hp : p.head? = some '/'
  · simp [hp]
  · by_cases hu : env.expanduser p = p
    · by_cases hv : env.expandvars p = p
      · simp only [hp, hu, hv, decide_false, Bool.false_eq_true, if_false, ne_eq, not_true_eq_false,
          Bool.not_eq_false', decide_eq_true_eq, not_false_eq_true, true_and]
        rw [normpath_join_rel h hp, normpath_absPath h]
        obtain ⟨c, r, hc, hj, hb⟩ := absPath_shape h
        rw [← prefix_joinPath h.1 (goodName_leadsTo h.1.2 p), hb, ← hj, commonPrefix_eq_left,
          List.cons_prefix_cons]
        simp
      · simp [hp, hu, hv]
    · simp [hp, hu]

/-- **C68**, part: a path that leads outside the bag, and not into a directory next to it
that starts with its name, is rejected in every environment.
Missing: such a directory (`C68_negation`). -/
theorem C68_escape_rejected_partial (env : Env) {bag : Str} {dir : Path} (h : AbsPath bag dir) {p : Str}
    (ho : ¬ Inside dir (leadsTo dir p)) (hl : ¬ Lookalike dir (leadsTo dir p)) :
    isDangerous env bag p = true := by
  cases hd : isDangerous env bag p with
  | true => rfl
  | false =>
    obtain ⟨_, _, _, hi⟩ := (C68_accepted_iff_partial env h p).1 hd
    exact (hi.elim ho hl).elim

/-- **C68**, part: a relative path that leads inside the bag and has no `$` and no leading
`~` is never rejected.
Missing: paths with these characters (`C68_negation`). -/
theorem C68_inside_accepted_partial (env : Env) {bag : Str} {dir : Path} (h : AbsPath bag dir) {p : Str}
    (hp : p.head? ≠ some '/') (hu : p.head? ≠ some '~') (hv : '$' ∉ p)
    (hi : Inside dir (leadsTo dir p)) : isDangerous env bag p = false :=
  (C68_accepted_iff_partial env h p).2 ⟨hp, env.user_only p hu, env.vars_only p hv, .inl hi⟩

/-- An environment with a user `root` and a variable `HOME`. -/
def Sample.env : Env where
  expanduser p := if p = py!"~root" then py!"/root" else p
  expandvars p := if p = py!"data/$HOME" then py!"data//root" else p
  user_only p h := if_neg (fun e => h (by rw [e]; rfl))
  vars_only p h := if_neg (fun e => h (by rw [e]; decide))

/-- The hypotheses of the theorems above are met. -/
example : AbsPath py!"/bag" [py!"bag"] ∧ Inside [py!"bag"] (leadsTo [py!"bag"] py!"data/a b.txt") ∧
    isDangerous Sample.env py!"/bag" py!"data/a b.txt" = false ∧
    ¬ Inside [py!"bag"] (leadsTo [py!"bag"] py!"data/../../etc") ∧
    isDangerous Sample.env py!"/bag" py!"data/../../etc" = true := by
  refine ⟨⟨⟨by decide, ?_⟩, by decide⟩, by decide, by decide, by decide, by decide⟩
  intro c hc
  simp only [List.mem_cons, List.not_mem_nil, or_false] at hc
  subst hc
  exact ⟨by decide, by decide, by decide, by decide⟩

/-- **C68** fails in both directions: a path into a directory next to the bag is accepted,
and a path inside the bag with a `$` in a file name is rejected. -/
theorem C68_negation :
    ∃ (env : Env) (bag : Str) (dir : Path) (p q : Str), AbsPath bag dir ∧
      ¬ Inside dir (leadsTo dir p) ∧ isDangerous env bag p = false ∧
      Inside dir (leadsTo dir q) ∧ isDangerous env bag q = true := by
  refine ⟨Sample.env, py!"/bag", [py!"bag"], py!"../bag2/key", py!"data/$HOME",
    ⟨⟨by decide, ?_⟩, by decide⟩, by decide, by decide, by decide, by decide⟩
  intro c hc
  simp only [List.mem_cons, List.not_mem_nil, or_false] at hc
  subst hc
  exact ⟨by decide, by decide, by decide, by decide⟩

/-- **C69**: below a directory given by a clean path (or the root of the file system, given
as the empty path), `relpath` of a clean relative path, with or without leading slashes,
names the entry of that directory with that path; of the empty path, the directory itself. -/
theorem C69_relpath {base rel : Path} (hb : base = [] ∨ GoodPath base) (hr : GoodPath rel) (k : Nat) :
    relpath (joinPath base) (List.replicate k '/' ++ joinPath rel) = joinPath (base ++ rel) ∧
    relpath (joinPath base) [] = joinPath base := by
  refine ⟨?_, rfl⟩
  have hne := joinPath_ne_nil hr
  have hh := joinPath_head hr
  have hls : lstripBy (· = '/') (List.replicate k '/' ++ joinPath rel) = joinPath rel := by
    unfold lstripBy
    rw [dropWhile_append_all (by intro c hc; simp [(List.mem_replicate.1 hc).2])]
    refine dropWhile_eq_self_of_head ?_
    intro c hc
    have := hh c hc
    simpa using this
  unfold relpath
  rw [if_neg (by simp [hne]), hls]
  rcases hb with rfl | hb
  · rw [show joinPath [] = [] from rfl]
    simp
  · rw [if_neg (joinPath_ne_nil hb), joinPath_append hb.1 hr.1]
    simp

/-- Different paths below a directory have different names. -/
theorem C69_injective {base rel rel' : Path} (hb : base = [] ∨ GoodPath base) (hr : GoodPath rel)
    (hr' : GoodPath rel')
    (h : relpath (joinPath base) (joinPath rel) = relpath (joinPath base) (joinPath rel')) : rel = rel' := by
  have e := (C69_relpath hb hr 0).1
  have e' := (C69_relpath hb hr' 0).1
  simp only [List.replicate_zero, List.nil_append] at e e'
  rw [e, e'] at h
  have g : ∀ r, GoodPath r → GoodPath (base ++ r) := by
    intro r hr
    refine ⟨by simp [hr.1], fun c hc => ?_⟩
    rcases List.mem_append.1 hc with hc | hc
    · rcases hb with rfl | hb
      · simp at hc
      · exact hb.2 c hc
    · exact hr.2 c hc
  exact List.append_cancel_left (joinPath_inj (g _ hr) (g _ hr') h)

/-- A concrete case. -/
example : relpath py!"top/bag" py!"//data/a b" = py!"top/bag/data/a b" ∧
    relpath [] py!"/data/a b" = py!"data/a b" ∧ GoodPath [py!"data", py!"a b"] := by
  refine ⟨by decide, by decide, by decide, ?_⟩
  intro c hc
  simp only [List.mem_cons, List.not_mem_nil, or_false] at hc
  rcases hc with rfl | rfl <;> exact ⟨by decide, by decide, by decide, by decide⟩

end Verif
