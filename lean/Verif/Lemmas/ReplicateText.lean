import Verif.Spec.ReplicateText
import Verif.Lemmas.Replicate
import Verif.Lemmas.Restorer
import Verif.Props.OnDisk
/-!
# Lemmas on `replicate` for path strings
-/

namespace Verif
open Spec

/-- What is found by following components on the disk is where they lead. -/
theorem go_follow {d : LDisk} {cs : List Str} {cur p : Path} (h : d.go cur cs = some p) : p = follow cur cs := by
  induction cs generalizing cur with
  | nil => cases h; rfl
  | cons c cs ih =>
    unfold LDisk.go at h
    split at h
    · cases h
    · unfold follow
      by_cases h1 : c = [] ∨ c = ['.']
      · rw [if_pos h1]
        rw [if_pos (by simpa using h1)] at h
        exact ih h
      · rw [if_neg h1]
        rw [if_neg (by simpa using h1)] at h
        by_cases h2 : c = ['.', '.']
        · rw [if_pos h2]; rw [if_pos h2] at h; exact ih h
        · rw [if_neg h2]; rw [if_neg h2] at h; exact ih h

/-- What changes when directories are made below `D`. -/
structure DirsAdded (D : Path) (d d' : LDisk) : Prop where
  grown : Grown D d.names d'.names
  data : d'.data = d.data
  next : d'.next = d.next
  files : ∀ p i, dget d'.names p = some (.file i) → dget d.names p = some (.file i)

theorem dirsAdded_refl (D : Path) (d : LDisk) : DirsAdded D d d := ⟨grown_refl _ _, rfl, rfl, fun _ _ h => h⟩

theorem dirsAdded_trans {D : Path} {a b c : LDisk} (h1 : DirsAdded D a b) (h2 : DirsAdded D b c) : DirsAdded D a c :=
  ⟨grown_trans h1.grown h2.grown, h2.data.trans h1.data, h2.next.trans h1.next, fun p i h => h1.files p i (h2.files p i h)⟩

/-- `D` and the directories above it are there. -/
def HasDir (d : LDisk) (D : Path) : Prop := ∀ x, x <+: D → d.isdir x = true

theorem hasDir_grown {D : Path} {d d' : LDisk} (h : HasDir d D) (g : Grown D d.names d'.names) : HasDir d' D := by
  intro x hx
  rcases ldisk_isdir_iff.1 (h x hx) with e | e
  · exact ldisk_isdir_iff.2 (.inl e)
  · exact ldisk_isdir_iff.2 (.inr (g.keep _ _ e))

theorem isdir_exists {d : LDisk} {p : Path} (h : d.isdir p = true) : d.exists p = true := by
  rcases ldisk_isdir_iff.1 h with e | e <;> simp [LDisk.exists, e]

/-- Components that stop on the way to `D` or go on from there without going up. -/
def OnWay (D : Path) (cs : List Str) : Prop := cs <+: D ∨ ∃ y, cs = D ++ y ∧ ['.', '.'] ∉ y

theorem onWay_up {D : Path} {cs : List Str} {c : Str} (h : OnWay D (cs ++ [c])) : OnWay D cs := by
  rcases h with ⟨z, h⟩ | ⟨y, h, hy⟩
  · exact .inl ⟨c :: z, by rw [← h]; simp⟩
  · rcases List.eq_nil_or_concat y with rfl | ⟨y', b, e⟩
    · refine .inl ⟨[c], by rw [h]; simp⟩
    · rw [List.concat_eq_append] at e
      subst e
      rw [← List.append_assoc] at h
      exact .inr ⟨y', (List.append_inj_left' h rfl), fun hm => hy (List.mem_append_left _ hm)⟩

/-- Such components lead to a directory that is there or to something below. -/
theorem onWay_place {d : LDisk} {D : Path} (hg : ∀ c ∈ D, GoodName c) (hd : HasDir d D) {cs : List Str} (h : OnWay D cs)
    {p : Path} (hp : d.go [] cs = some p) : d.exists p = true ∨ ∃ x, x ≠ [] ∧ p = D ++ x := by
  have e := go_follow hp
  rcases h with h | ⟨y, rfl, hy⟩
  · rw [follow_good _ (fun c hc => hg c (h.subset hc)), List.nil_append] at e
    exact .inl (isdir_exists (hd p (e ▸ h)))
  · rw [follow_append, follow_good _ hg, List.nil_append] at e
    obtain ⟨x, hx⟩ := follow_downwards hy D
    by_cases hn : x = []
    · subst hn
      rw [List.append_nil] at hx
      rw [← hx] at e
      exact .inl (isdir_exists (hd p (by rw [e]; exact List.prefix_refl _)))
    · exact .inr ⟨x, hn, by rw [e, hx]⟩

theorem mkdir_dirs {d : LDisk} {D : Path} (hg : ∀ c ∈ D, GoodName c) (hd : HasDir d D) {cs : List Str} (h : OnWay D cs) :
    DirsAdded D d (d.mkdir cs).2 := by
  unfold LDisk.mkdir
  split
  · exact dirsAdded_refl D d
  · next p hp =>
    split
    · exact dirsAdded_refl D d
    · next he =>
      rcases onWay_place hg hd h hp with e | ⟨x, hx, e⟩
      · exact absurd e he
      · have hn := (ldisk_exists_false.1 (by simpa using he)).2
        rw [e] at hn ⊢
        refine ⟨grown_dset hx hn, rfl, rfl, fun p i h => ?_⟩
        simp only [dget_dset] at h
        split at h
        · cases h
        · exact h

theorem mkdirs_dirs {D : Path} (hg : ∀ c ∈ D, GoodName c) {rs : List Str} {d : LDisk} (hd : HasDir d D)
    (h : OnWay D rs.reverse) : DirsAdded D d (d.mkdirs rs).2 := by
  induction rs generalizing d with
  | nil => exact dirsAdded_refl D d
  | cons c up ih =>
    rw [List.reverse_cons] at h
    have hs := ih hd (onWay_up h)
    unfold LDisk.mkdirs
    split
    · exact mkdir_dirs hg hd h
    · split
      · next d' e => rw [e] at hs; exact hs
      · next r d' _ e =>
        rw [e] at hs
        split
        · exact hs
        · exact dirsAdded_trans hs (mkdir_dirs hg (hasDir_grown hd hs.grown) h)

/-- What a call may change: names are added below `D`, and files get other contents only there. -/
structure TouchesOnly (D : Path) (d d' : LDisk) : Prop where
  grown : Grown D d.names d'.names
  data : ∀ j, j < d.next → d'.data j ≠ d.data j → ∃ x, dget d.names (D ++ x) = some (.file j)

theorem touches_of_dirs {D : Path} {d d' : LDisk} (h : DirsAdded D d d') : TouchesOnly D d d' :=
  ⟨h.grown, fun j _ hn => absurd (by rw [h.data]) hn⟩

theorem touches_after_dirs {D : Path} {a b c : LDisk} (h1 : DirsAdded D a b) (h2 : TouchesOnly D b c) : TouchesOnly D a c := by
  refine ⟨grown_trans h1.grown h2.grown, fun j hj hn => ?_⟩
  obtain ⟨x, hx⟩ := h2.data j (by rw [h1.next]; exact hj) (by rw [h1.data]; exact hn)
  exact ⟨x, h1.files _ _ hx⟩

theorem touchesOnly_write {D : Path} {d d' : LDisk} {x : Path} {s : Str} (hd : d.isdir D = true)
    (hw : d.write (D ++ x) s = .ok d') : TouchesOnly D d d' := by
  unfold LDisk.write at hw
  split at hw
  · cases hw
  · rename_i hc
    have hx : x ≠ [] := by
      rintro rfl
      rw [List.append_nil, hd] at hc
      simp at hc
    split at hw
    · rename_i i hi
      injection hw with hw
      subst hw
      refine ⟨grown_refl _ _, fun j hj hne => ?_⟩
      simp only at hne
      split at hne
      · rename_i e
        subst e
        exact ⟨x, hi⟩
      · exact absurd rfl hne
    · rename_i hi
      injection hw with hw
      have hn : dget d.names (D ++ x) = none := by
        cases hg : dget d.names (D ++ x) with
        | none => rfl
        | some n =>
          cases n with
          | dir => simp [LDisk.isdir, hg] at hc
          | file i => exact absurd hg (hi i)
      subst hw
      refine ⟨grown_dset hx hn, fun j hj hne => ?_⟩
      simp only at hne
      rw [if_neg (Nat.ne_of_lt hj)] at hne
      exact absurd rfl hne

/-! ## Path strings -/

/-- The components of a directory joined with a relative path. -/
theorem split_join {b : Str} {D : Path} (h : AbsPath b D) {p : Str} (hp : p.head? ≠ some '/') :
    splitOn '/' (pathJoin b p) = [] :: (D ++ splitOn '/' p) := by
  obtain ⟨c, r, hc, hj, hb⟩ := absPath_shape h
  have hl : b.getLast? ≠ some '/' := by
    have := joinPath_last h.1
    rw [h.2]
    rw [List.getLast?_cons]
    intro e
    cases hj' : joinPath D with
    | nil => exact joinPath_ne_nil h.1 hj'
    | cons x xs =>
      unfold joinPath at hj'
      rw [hj'] at e
      rw [show joinPath D = x :: xs from hj'] at this
      simp only [List.getLast?_cons, Option.getD_some, Option.some.injEq] at e
      exact this '/' (by simp [List.getLast?_cons, e]) rfl
  have hne : b ≠ [] := by rw [h.2]; simp
  unfold pathJoin isAbs
  rw [if_neg (by simpa using hp), if_neg (by simp [hne, hl]), splitOn_append_slash, h.2]
  have e : splitOn '/' ('/' :: joinWith ['/'] D) = [] :: splitOn '/' (joinWith ['/'] D) := by
    have := splitOn_append_slash [] (joinWith ['/'] D)
    simpa [splitOn] using this
  rw [e, splitOn_joinWith h.1.1 (fun c hc => (h.1.2 c hc).noslash)]
  rfl

/-- The components of a path string that are not empty. -/
def parts (s : Str) : List Str := (splitOn '/' s).filter (· ≠ [])

theorem parts_slash (a b : Str) : parts (a ++ '/' :: b) = parts a ++ parts b := by
  unfold parts
  rw [splitOn_append_slash, List.filter_append]

theorem parts_slashes (a : Str) {t : Str} (h : ∀ c ∈ t, c = '/') : parts (a ++ t) = parts a := by
  induction t generalizing a with
  | nil => rw [List.append_nil]
  | cons c t ih =>
    have hc := h c List.mem_cons_self
    subst hc
    have e := ih [] (fun x hx => h x (List.mem_cons_of_mem _ hx))
    rw [List.nil_append] at e
    rw [parts_slash, e]
    simp [parts, splitOn]

theorem parts_rstrip (s : Str) : parts (rstripBy (· = '/') s) = parts s := by
  have e : s = rstripBy (· = '/') s ++ (s.reverse.takeWhile (· = '/')).reverse := by
    unfold rstripBy
    rw [← List.reverse_append, List.takeWhile_append_dropWhile, List.reverse_reverse]
  have hall : ∀ c ∈ (s.reverse.takeWhile (· = '/')).reverse, c = '/' := by
    intro c hc
    rw [List.mem_reverse] at hc
    have hb := List.all_takeWhile (l := s.reverse) (p := fun c => decide (c = '/'))
    rw [List.all_eq_true] at hb
    simpa using hb c hc
  have h2 := parts_slashes (rstripBy (· = '/') s) hall
  rw [← e] at h2
  exact h2.symm

theorem parts_dirName {x y : Str} (hy : '/' ∉ y) : parts (dirName (x ++ '/' :: y)) = parts x := by
  have hr : ((x ++ '/' :: y).reverse.dropWhile (· ≠ '/')).reverse = x ++ ['/'] := by
    rw [List.reverse_append, List.reverse_cons, List.append_assoc,
      List.dropWhile_append_of_pos (by intro c hc; rw [List.mem_reverse] at hc; simp; rintro rfl; exact hy hc)]
    simp
  have hx : parts (x ++ ['/']) = parts x := parts_slashes x (by simp)
  unfold dirName
  simp only [hr]
  split
  · exact hx
  · rw [parts_rstrip, hx]

/-- Every path with a slash is split at its last one. -/
theorem last_slash {s : Str} (h : '/' ∈ s) : ∃ x y, s = x ++ '/' :: y ∧ '/' ∉ y := by
  induction s with
  | nil => cases h
  | cons c s ih =>
    by_cases hs : '/' ∈ s
    · obtain ⟨x, y, e, hy⟩ := ih hs
      exact ⟨c :: x, y, by rw [e]; rfl, hy⟩
    · have hc : '/' = c := by
        rcases List.mem_cons.1 h with e | e
        · exact e
        · exact absurd e hs
      subst hc
      exact ⟨[], s, rfl, hs⟩

theorem onWay_dirName {D : Path} {s : Str} (hs : '/' ∈ s) (h : OnWay D (parts s)) : OnWay D (parts (dirName s)) := by
  obtain ⟨x, y, rfl, hy⟩ := last_slash hs
  rw [parts_dirName hy]
  rw [parts_slash] at h
  have e : parts y = [] ∨ ∃ c, parts y = [c] := by
    unfold parts
    rw [splitOn_noSep hy]
    by_cases hn : y = []
    · left; simp [hn]
    · right; exact ⟨y, by simp [hn]⟩
  rcases e with e | ⟨c, e⟩
  · rw [e, List.append_nil] at h; exact h
  · rw [e] at h; exact onWay_up h

theorem onWay_join {b : Str} {D : Path} (h : AbsPath b D) {p : Str} (hp : p.head? ≠ some '/')
    (hup : ['.', '.'] ∉ splitOn '/' p) : OnWay D (parts (pathJoin b p)) := by
  refine .inr ⟨parts p, ?_, fun hm => hup (List.mem_filter.1 hm).1⟩
  unfold parts
  rw [split_join h hp, List.filter_cons_of_neg (by simp), List.filter_append]
  congr 1
  rw [List.filter_eq_self]
  intro c hc
  simpa using (h.1.2 c hc).nonempty

/-- What is found on the disk is where the path leads. -/
theorem place_leads {d : LDisk} {s : Str} {p : Path} (h : d.place s = some p) : p = leadsTo [] s := by
  rw [go_follow h]
  unfold leadsTo
  simp

theorem leadsTo_dest {b : Str} {D : Path} (h : AbsPath b D) {p : Str} (hp : p.head? ≠ some '/') :
    leadsTo [] (pathJoin b p) = follow D (splitOn '/' p) := by
  unfold leadsTo
  rw [split_join h hp]
  simp only [ite_self]
  rw [show follow [] ([] :: (D ++ splitOn '/' p)) = follow [] (D ++ splitOn '/' p) from rfl, follow_append,
    follow_good _ h.1.2, List.nil_append]

end Verif

namespace Verif
open Spec

/-- What is in a directory that is there on all the way down can be looked up. -/
theorem go_good {d : LDisk} {p : Path} (hg : ∀ c ∈ p, GoodName c) {cur : Path}
    (h : ∀ x y, p = x ++ y → y ≠ [] → d.isdir (cur ++ x) = true) : d.go cur p = some (cur ++ p) := by
  induction p generalizing cur with
  | nil => simp [LDisk.go]
  | cons c p ih =>
    have hc := hg c List.mem_cons_self
    have h0 := h [] (c :: p) rfl (by simp)
    rw [List.append_nil] at h0
    unfold LDisk.go
    rw [h0]
    simp only [Bool.not_true, Bool.false_eq_true, if_false]
    rw [if_neg (by simp [hc.nonempty, hc.nodot]), if_neg hc.nodotdot, ih (fun x hx => hg x (List.mem_cons_of_mem _ hx))]
    · simp
    · intro x y e hy
      have := h (c :: x) y (by rw [e]; rfl) hy
      simpa [List.append_assoc] using this

/-- And only then. -/
theorem go_good_dirs {d : LDisk} {p : Path} (hg : ∀ c ∈ p, GoodName c) {cur r : Path} (h : d.go cur p = some r) :
    ∀ x y, p = x ++ y → y ≠ [] → d.isdir (cur ++ x) = true := by
  induction p generalizing cur with
  | nil =>
    intro x y e hy
    exact absurd (List.append_eq_nil_iff.1 e.symm).2 hy
  | cons c p ih =>
    have hc := hg c List.mem_cons_self
    unfold LDisk.go at h
    split at h
    · cases h
    · next hd =>
      rw [if_neg (by simp [hc.nonempty, hc.nodot]), if_neg hc.nodotdot] at h
      intro x y e hy
      cases x with
      | nil => simpa using hd
      | cons a x =>
        simp only [List.cons_append, List.cons.injEq] at e
        have := ih (fun x hx => hg x (List.mem_cons_of_mem _ hx)) h x y e.2 hy
        rw [← e.1]
        simpa [List.append_assoc] using this

theorem go_cons (d : LDisk) (cur : Path) (c : Str) (cs : List Str) :
    d.go cur (c :: cs) = if !d.isdir cur then none else if c = [] || c = ['.'] then d.go cur cs
      else if c = ['.', '.'] then d.go cur.dropLast cs else d.go (cur ++ [c]) cs := rfl

theorem go_append {d : LDisk} (cur : Path) (a b : List Str) :
    d.go cur (a ++ b) = (d.go cur a).bind (fun r => d.go r b) := by
  induction a generalizing cur with
  | nil => rfl
  | cons c a ih =>
    rw [List.cons_append, go_cons, go_cons]
    split
    · rfl
    · split
      · exact ih cur
      · split
        · exact ih cur.dropLast
        · exact ih (cur ++ [c])

theorem go_empties {d : LDisk} {cur r : Path} {cs : List Str} (h : d.go cur cs = some r) :
    d.go cur (cs.filter (· ≠ [])) = some r := by
  induction cs generalizing cur with
  | nil => exact h
  | cons c cs ih =>
    by_cases hc : c = []
    · subst hc
      rw [List.filter_cons_of_neg (by simp)]
      unfold LDisk.go at h
      split at h
      · cases h
      · exact ih (by simpa using h)
    · rw [List.filter_cons_of_pos (by simpa using hc)]
      unfold LDisk.go at h ⊢
      split at h
      · cases h
      · next hd =>
        rw [if_neg hd]
        split at h
        · next h1 => rw [if_pos h1]; exact ih h
        · next h1 =>
          rw [if_neg h1]
          split at h
          · next h2 => rw [if_pos h2]; exact ih h
          · next h2 => rw [if_neg h2]; exact ih h

theorem place_abs {d : LDisk} {p : Path} (hg : ∀ c ∈ p, GoodName c)
    (h : ∀ x y, p = x ++ y → y ≠ [] → d.isdir x = true) : d.place ('/' :: joinPath p) = some p := by
  unfold LDisk.place
  have e : splitOn '/' ('/' :: joinPath p) = [] :: splitOn '/' (joinPath p) := by
    have := splitOn_append_slash [] (joinPath p)
    simpa [splitOn] using this
  have h0 : d.isdir [] = true := ldisk_isdir_iff.2 (.inl rfl)
  rw [e]
  unfold LDisk.go
  rw [h0]
  simp only [Bool.not_true, Bool.false_eq_true, if_false, decide_true, Bool.true_or, if_true]
  by_cases hp : p = []
  · subst hp
    simp [joinPath, joinWith, splitOn, LDisk.go, h0]
  · rw [splitOn_joinPath' ⟨hp, hg⟩]
    have := go_good (d := d) hg (cur := []) (by simpa using h)
    simpa using this

end Verif

namespace Verif
open Spec

theorem makedirsFrom_concat (t : LTree) (pre y : Path) (c : Str) :
    t.makedirsFrom pre (y ++ [c]) =
      match t.makedirsFrom pre y with
      | .error e => .error e
      | .ok t' => if dget t' (pre ++ y ++ [c]) = some .dir then .ok t' else t'.mkdir (pre ++ y ++ [c]) := by
  induction y generalizing t pre with
  | nil =>
    simp only [List.nil_append, LTree.makedirsFrom, List.append_nil]
    split
    · rfl
    · split <;> simp_all
  | cons a y ih =>
    rw [List.cons_append]
    unfold LTree.makedirsFrom
    split
    · rw [ih]; simp [List.append_assoc]
    · split
      · rfl
      · rw [ih]; simp [List.append_assoc]

theorem makedirsFrom_there {t : LTree} {pre y : Path}
    (h : ∀ x z, y = x ++ z → x ≠ [] → dget t (pre ++ x) = some .dir) : t.makedirsFrom pre y = .ok t := by
  induction y generalizing pre with
  | nil => rfl
  | cons c y ih =>
    unfold LTree.makedirsFrom
    rw [if_pos (h [c] y rfl (by simp))]
    refine ih (fun x z e hx => ?_)
    have := h (c :: x) z (by rw [e]; rfl) (by simp)
    simpa [List.append_assoc] using this

theorem lmakedirs_new {t t' : LTree} {pre y : Path} (h : t.makedirsFrom pre y = .ok t') {p : Path}
    (hn : dget t p = none) (hs : dget t' p ≠ none) : ∃ x z, y = x ++ z ∧ x ≠ [] ∧ p = pre ++ x := by
  induction y generalizing t pre with
  | nil => cases h; exact absurd hn hs
  | cons c y ih =>
    unfold LTree.makedirsFrom at h
    split at h
    · obtain ⟨x, z, e, hx, hp⟩ := ih h hn
      exact ⟨c :: x, z, by rw [e]; rfl, by simp, by rw [hp]; simp⟩
    · split at h
      · cases h
      · next t1 hm =>
        obtain ⟨e1, _, _⟩ := lmkdir_ok hm
        by_cases ep : pre ++ [c] = p
        · exact ⟨[c], y, rfl, by simp, ep.symm⟩
        · obtain ⟨x, z, e, hx, hp⟩ := ih h (by rw [e1, dget_dset, if_neg ep]; exact hn)
          exact ⟨c :: x, z, by rw [e]; rfl, by simp, by rw [hp]; simp⟩

/-- Where no file is in the way, `os.makedirs` of the Python library makes the missing directories one by one. -/
theorem mkdirs_eq {D y : Path} (hgD : ∀ c ∈ D, GoodName c) (hgy : ∀ c ∈ y, GoodName c) {d : LDisk} (hd : HasDir d D)
    (hr : Rooted d) (hw : ∀ x z, y = x ++ z → d.exists (D ++ x) = true → d.isdir (D ++ x) = true)
    (hn : d.exists (D ++ y) = false) :
    ∃ t, d.names.makedirsFrom D y = .ok t ∧ d.mkdirs (D ++ y).reverse = (.made, { d with names := t }) ∧
      HasDir { d with names := t } (D ++ y) := by
  rcases List.eq_nil_or_concat y with rfl | ⟨y', c, e⟩
  · rw [List.append_nil, isdir_exists (hd D (List.prefix_refl _))] at hn; cases hn
  · rw [List.concat_eq_append] at e
    subst e
    have hgy' : ∀ a ∈ y', GoodName a := fun a ha => hgy a (List.mem_append_left _ ha)
    have hc := hgy c (by simp)
    have hgp : ∀ a ∈ D ++ y', GoodName a := fun a ha => (List.mem_append.1 ha).elim (hgD a) (hgy' a)
    have hgp2 : ∀ a ∈ D ++ y' ++ [c], GoodName a := by
      intro a ha
      rcases List.mem_append.1 ha with h | h
      · exact hgp a h
      · rw [List.mem_singleton.1 h]; exact hc
    have hrev : (D ++ (y' ++ [c])).reverse = c :: (D ++ y').reverse := by
      rw [← List.append_assoc, List.reverse_append]; rfl
    rw [hrev, makedirsFrom_concat]
    rw [← List.append_assoc] at hn ⊢
    unfold LDisk.mkdirs
    rw [List.reverse_reverse]
    -- making the last directory when the others are there
    have last : ∀ e : LDisk, HasDir e (D ++ y') → dget e.names (D ++ y' ++ [c]) = none →
        e.mkdir (D ++ y' ++ [c]) = (.made, { e with names := dset e.names (D ++ y' ++ [c]) .dir }) ∧
        e.names.mkdir (D ++ y' ++ [c]) = .ok (dset e.names (D ++ y' ++ [c]) .dir) ∧
        HasDir { e with names := dset e.names (D ++ y' ++ [c]) .dir } (D ++ y' ++ [c]) := by
      intro e he hnone
      have hgo : e.go [] (D ++ y' ++ [c]) = some (D ++ y' ++ [c]) := by
        have := go_good (d := e) hgp2 (cur := []) (by
          intro x z hx hz
          rw [List.nil_append]
          refine he x ?_
          rcases List.eq_nil_or_concat z with rfl | ⟨z', b, ez⟩
          · exact absurd rfl hz
          · rw [List.concat_eq_append] at ez
            subst ez
            rw [← List.append_assoc] at hx
            exact ⟨z', (List.append_inj_left' hx rfl).symm⟩)
        simpa using this
      have hne : e.exists (D ++ y' ++ [c]) = false := ldisk_exists_false.2 ⟨by simp, hnone⟩
      refine ⟨?_, ?_, ?_⟩
      · unfold LDisk.mkdir
        rw [hgo]
        simp only [hne, Bool.false_eq_true, if_false]
      · unfold LTree.mkdir
        rw [if_neg]
        have hp := ldisk_isdir_iff.1 (he (D ++ y') (List.prefix_refl _))
        simp only [hnone, List.dropLast_concat, Bool.or_eq_true, decide_eq_true_eq, Option.isSome_none, Bool.false_eq_true,
          or_false, Bool.not_eq_true', Bool.or_eq_false_iff, decide_eq_false_iff_not, not_or, not_and]
        exact ⟨by simp, fun h1 h2 => hp.elim h1 h2⟩
      · intro x hx
        by_cases ex : D ++ y' ++ [c] = x
        · exact ldisk_isdir_iff.2 (.inr (by rw [dget_dset, if_pos ex]))
        · have hx' : x <+: D ++ y' := by
            rcases List.prefix_concat_iff.1 hx with h | h
            · exact absurd h.symm ex
            · exact h
          rcases ldisk_isdir_iff.1 (he x hx') with h | h
          · exact ldisk_isdir_iff.2 (.inl h)
          · exact ldisk_isdir_iff.2 (.inr (by simp only [dget_dset]; rw [if_neg ex]; exact h))
    by_cases hex : d.exists (D ++ y') = true
    · have hdir := hw y' [c] rfl hex
      have hhd : HasDir d (D ++ y') := by
        intro x ⟨z, hz⟩
        by_cases hz0 : z = []
        · subst hz0; rw [List.append_nil] at hz; rw [hz]; exact hdir
        · refine hr x z hz0 ?_
          rw [hz]; exact hex
      have hgo : d.go [] (D ++ y') = some (D ++ y') := by
        have := go_good (d := d) hgp (cur := []) (by
          intro x z hx hz; rw [List.nil_append]; exact hhd x ⟨z, hx.symm⟩)
        simpa using this
      have hnone := (ldisk_exists_false.1 hn).2
      obtain ⟨h1, h2, h3⟩ := last d hhd hnone
      have hthere : d.names.makedirsFrom D y' = .ok d.names := by
        refine makedirsFrom_there (fun x z e hx => ?_)
        rcases ldisk_isdir_iff.1 (hhd (D ++ x) ⟨z, by rw [e, List.append_assoc]⟩) with h | h
        · exact absurd (List.append_eq_nil_iff.1 h).2 hx
        · exact h
      rw [hgo, hthere]
      simp only [Option.elim_some, hex, if_true]
      rw [if_neg (by rw [hnone]; simp)]
      exact ⟨_, h2, h1, h3⟩
    · have hex' : d.exists (D ++ y') = false := by simpa using hex
      obtain ⟨t, ht, hm, hh⟩ := mkdirs_eq hgD hgy' hd hr (fun x z e => hw x (z ++ [c]) (by rw [e, List.append_assoc])) hex'
      have hgo : (d.go [] (D ++ y')).elim false d.exists = false := by
        cases hg : d.go [] (D ++ y') with
        | none => rfl
        | some r =>
          have := go_follow hg
          rw [follow_good _ hgp, List.nil_append] at this
          rw [this]; exact hex'
      have hnone : dget t (D ++ y' ++ [c]) = none := by
        have ht' : d.names.makedirsFrom (D ++ []) y' = .ok t := by rw [List.append_nil]; exact ht
        cases hg : dget t (D ++ y' ++ [c]) with
        | none => rfl
        | some n =>
          exfalso
          obtain ⟨x, z, hx, _, e⟩ := lmakedirs_new ht (p := D ++ y' ++ [c]) (ldisk_exists_false.1 hn).2 (by rw [hg]; simp)
          rw [List.append_assoc] at e
          have := congrArg List.length (List.append_cancel_left e)
          have h3 := congrArg List.length hx
          simp only [List.length_append, List.length_cons, List.length_nil] at this h3
          omega
      obtain ⟨h1, h2, h3⟩ := last { d with names := t } hh hnone
      rw [hgo, ht, hm]
      simp only [Bool.false_eq_true, if_false]
      rw [if_neg (by rw [hnone]; simp), if_neg hc.nodot]
      exact ⟨_, h2, h1, h3⟩
termination_by y.length
decreasing_by
  rename_i e _ _ _ _ _ _ _ _
  subst_vars; simp_all

end Verif

namespace Verif
open Spec

theorem go_can {d : LDisk} {cs : List Str} {cur : Path} (h : ∀ x y, cs = x ++ y → y ≠ [] → d.isdir (follow cur x) = true) :
    d.go cur cs = some (follow cur cs) := by
  induction cs generalizing cur with
  | nil => rfl
  | cons c cs ih =>
    have h0 : d.isdir cur = true := h [] (c :: cs) rfl (by simp)
    have hstep : ∀ cur', (∀ x, follow cur (c :: x) = follow cur' x) → d.go cur' cs = some (follow cur' cs) := by
      intro cur' e
      refine ih (fun x y exy hy => ?_)
      rw [← e]
      exact h (c :: x) y (by rw [exy]; rfl) hy
    rw [go_cons, h0]
    simp only [Bool.not_true, Bool.false_eq_true, if_false]
    by_cases h1 : c = [] ∨ c = ['.']
    · have e : ∀ x, follow cur (c :: x) = follow cur x := by
        intro x
        show (if c = [] ∨ c = ['.'] then _ else _) = _
        rw [if_pos h1]
      rw [if_pos (by simpa using h1), e]
      exact hstep cur e
    · rw [if_neg (by simpa using h1)]
      by_cases h2 : c = ['.', '.']
      · have e : ∀ x, follow cur (c :: x) = follow cur.dropLast x := by
          intro x
          show (if c = [] ∨ c = ['.'] then _ else if c = ['.', '.'] then _ else _) = _
          rw [if_neg h1, if_pos h2]
        rw [if_pos h2, e]
        exact hstep _ e
      · have e : ∀ x, follow cur (c :: x) = follow (cur ++ [c]) x := by
          intro x
          show (if c = [] ∨ c = ['.'] then _ else if c = ['.', '.'] then _ else _) = _
          rw [if_neg h1, if_neg h2]
        rw [if_neg h2, e]
        exact hstep _ e

theorem hasDir_of_rooted {d : LDisk} (hr : Rooted d) {D : Path} (h : d.isdir D = true) : HasDir d D := by
  intro x ⟨z, hz⟩
  by_cases hz0 : z = []
  · subst hz0; rw [List.append_nil] at hz; rw [hz]; exact h
  · exact hr x z hz0 (by rw [hz]; exact isdir_exists h)

theorem place_can {d : LDisk} {b : Str} {D : Path} (hD : AbsPath b D) (hd : HasDir d D) {p : Str}
    (hp : p.head? ≠ some '/') (h : CanFollow d D p) : d.place (pathJoin b p) = some (leadsTo D p) := by
  have h0 : d.isdir [] = true := ldisk_isdir_iff.2 (.inl rfl)
  have e : leadsTo D p = follow D (splitOn '/' p) := by unfold leadsTo; rw [if_neg hp]
  unfold LDisk.place
  rw [split_join hD hp, go_cons, h0]
  simp only [Bool.not_true, Bool.false_eq_true, if_false, decide_true, Bool.true_or, if_true]
  rw [go_append, go_good hD.1.2 (fun x y e _ => by rw [List.nil_append]; exact hd x ⟨y, e.symm⟩), List.nil_append]
  simp only [Option.bind_some]
  rw [go_can h, e]

theorem go_replicate_nil {d : LDisk} {cur r : Path} {k : Nat} (h : d.go cur (List.replicate k []) = some r) : r = cur := by
  have := go_follow h
  rw [this, follow_empties _ _ (fun c hc => (List.mem_replicate.1 hc).2)]

theorem splitOn_slashes {t : Str} (h : ∀ c ∈ t, c = '/') : splitOn '/' t = List.replicate (t.length + 1) [] := by
  induction t with
  | nil => rfl
  | cons c t ih =>
    have hc := h c List.mem_cons_self
    subst hc
    have e := splitOn_append_slash [] t
    rw [List.nil_append] at e
    rw [e, ih (fun x hx => h x (List.mem_cons_of_mem _ hx))]
    rfl

/-- The directory of a path that is looked up is there. -/
theorem place_dirName {d : LDisk} {x y : Str} (hy : '/' ∉ y) {p : Path} (h : d.place (x ++ '/' :: y) = some p) :
    ∃ r, d.place (dirName (x ++ '/' :: y)) = some r ∧ d.isdir r = true ∧ d.go r [y] = some p := by
  unfold LDisk.place at h
  rw [splitOn_append_slash, go_append, splitOn_noSep hy] at h
  cases hx : d.go [] (splitOn '/' x) with
  | none => rw [hx] at h; cases h
  | some r =>
    rw [hx] at h
    simp only [Option.bind_some] at h
    have hdir : d.isdir r = true := by
      rw [go_cons] at h
      split at h
      · cases h
      · next hd => simpa using hd
    refine ⟨r, ?_, hdir, h⟩
    have hr : ((x ++ '/' :: y).reverse.dropWhile (· ≠ '/')).reverse = x ++ ['/'] := by
      rw [List.reverse_append, List.reverse_cons, List.append_assoc,
        List.dropWhile_append_of_pos (by intro c hc; rw [List.mem_reverse] at hc; simp; rintro rfl; exact hy hc)]
      simp
    have hx' : d.go [] (splitOn '/' (x ++ ['/'])) = some r := by
      rw [splitOn_append_slash, go_append, hx]
      simp only [Option.bind_some]
      rw [show splitOn '/' ([] : Str) = [[]] from rfl, go_cons, hdir]
      rfl
    unfold dirName LDisk.place
    simp only [hr]
    split
    · exact hx'
    · have e : x ++ ['/'] = rstripBy (· = '/') (x ++ ['/']) ++ ((x ++ ['/']).reverse.takeWhile (· = '/')).reverse := by
        unfold rstripBy
        rw [← List.reverse_append, List.takeWhile_append_dropWhile, List.reverse_reverse]
      have hall : ∀ c ∈ ((x ++ ['/']).reverse.takeWhile (· = '/')).reverse, c = '/' := by
        intro c hc
        rw [List.mem_reverse] at hc
        have hb := List.all_takeWhile (l := (x ++ ['/']).reverse) (p := fun c => decide (c = '/'))
        rw [List.all_eq_true] at hb
        simpa using hb c hc
      revert e hall
      generalize rstripBy (fun c => decide (c = '/')) (x ++ ['/']) = z
      generalize ((x ++ ['/']).reverse.takeWhile (· = '/')).reverse = t
      intro e hall
      cases t with
      | nil => rw [List.append_nil] at e; rw [← e]; exact hx'
      | cons c t =>
        have hc := hall c List.mem_cons_self
        subst hc
        rw [e, splitOn_append_slash, go_append,
          splitOn_slashes (fun c hc => hall c (List.mem_cons_of_mem _ hc))] at hx'
        cases hz : d.go [] (splitOn '/' z) with
        | none => rw [hz] at hx'; cases hx'
        | some r' =>
          rw [hz] at hx'
          simp only [Option.bind_some] at hx'
          rw [go_replicate_nil hx']

end Verif
