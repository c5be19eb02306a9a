import Verif.Lemmas.SplitRun
import Verif.Lemmas.ApplyTotal
import Verif.Lemmas.Below
/-!
# Splitting in a file system
-/

namespace Verif
open Spec

/-- A path without empty, `.` and `..` components. -/
def Clean (p : Path) : Prop := ∀ c ∈ p, GoodName c

theorem clean_append {a b : Path} (ha : Clean a) (hb : Clean b) : Clean (a ++ b) := by
  intro c hc
  rcases List.mem_append.1 hc with h | h
  · exact ha c h
  · exact hb c h

theorem below_clean {dir p : Path} (hd : Clean dir) (hp : Clean p) : below dir p = dir ++ p := by
  unfold below
  rw [foldl_normStep (fun c hc => (hd c hc).nodotdot), follow_good _ hp]

theorem bagDir_eq {outdir : Str} {O : Path} (h : AbsPath outdir O) (n : Str) : bagDir outdir n = leadsTo O n := by
  rw [bagDir, ← comps_abspath h n]
  rfl

theorem leadsTo_plain {n : Str} (h : GoodName n) (O : Path) : leadsTo O n = O ++ [n] := by
  have hh : n.head? ≠ some '/' := by
    intro e
    cases n with
    | nil => cases e
    | cons a n =>
      simp only [List.head?_cons, Option.some.injEq] at e
      subst e
      exact h.noslash (List.mem_cons_self ..)
  have hs : splitOn '/' n = [n] := by
    have := splitOn_joinPath' (p := [n]) ⟨by simp, by simpa using h⟩
    simpa [joinPath, joinWith] using this
  rw [leadsTo, if_neg hh, hs, follow_good _ (by simpa using h)]

/-- Only what is below `cur` has changed. -/
def Within (cur : Path) (t t' : Tree) : Prop :=
  WfTree t' ∧ (∀ q, (cur <+: q → q = cur) → dget t' q = dget t q) ∧ ∀ d, ¬ d <+: cur → ¬ cur <+: d → t'.below d = t.below d

theorem append_ne_nil_prefix {cur p : Path} (h : p ≠ []) : ¬ (cur <+: cur ++ p → cur ++ p = cur) := by
  intro hc
  have := hc (List.prefix_append ..)
  rw [List.append_right_eq_self] at this
  exact h this

theorem within_dset {cur p : Path} {t : Tree} {n : Node} (hp : p ≠ []) (hw : WfTree (dset t (cur ++ p) n)) :
    Within cur t (dset t (cur ++ p) n) := by
  refine ⟨hw, fun q hq => ?_, fun d h1 h2 => below_dset_other (fun h => ?_)⟩
  · rw [dget_dset, if_neg (fun (e : cur ++ p = q) => append_ne_nil_prefix hp (e ▸ hq))]
  · exfalso
    rcases List.prefix_or_prefix_of_prefix h (List.prefix_append cur p) with h | h
    · exact h1 h
    · exact h2 h

theorem within_write {cur p : Path} {t t' : Tree} {c : Str} (hw : WfTree t) (hd : t.isdir cur = true) (hc : Clean cur)
    (hp : Clean p) (h : t.write (cur ++ p) c = .ok t') : p ≠ [] ∧ t' = dset t (cur ++ p) (.file c) ∧ Within cur t t' := by
  obtain ⟨rfl, h1, _⟩ := Tree.write_ok h
  have hne : p ≠ [] := by
    rintro rfl
    rw [List.append_nil, hd] at h1
    cases h1
  exact ⟨hne, rfl, within_dset hne (wf_write hw ⟨by simp [hne], clean_append hc hp⟩ h)⟩

theorem within_mkdir {cur p : Path} {t t' : Tree} (hw : WfTree t) (hd : t.isdir cur = true) (hc : Clean cur)
    (hp : Clean p) (h : t.mkdir (cur ++ p) = .ok t') : p ≠ [] ∧ t' = dset t (cur ++ p) .dir ∧ Within cur t t' := by
  obtain ⟨rfl, h1, _⟩ := Tree.mkdir_ok h
  have hne : p ≠ [] := by
    rintro rfl
    rw [isdir_iff] at hd
    unfold Tree.exists at h1
    rw [List.append_nil] at h1
    rcases hd with rfl | hd
    · simp at h1
    · rw [hd] at h1; simp at h1
  exact ⟨hne, rfl, within_dset hne (wf_mkdir hw ⟨by simp [hne], clean_append hc hp⟩ h)⟩

/-- Directories that are there are passed. -/
theorem makedirsFrom_skip {t : Tree} {pre a b : Path} (h : ∀ r, r <+: a → t.isdir (pre ++ r) = true) :
    t.makedirsFrom pre (a ++ b) = t.makedirsFrom (pre ++ a) b := by
  induction a generalizing pre with
  | nil => simp
  | cons c a ih =>
    rw [List.cons_append, Tree.makedirsFrom, if_pos (h [c] (by simp)), ih]
    · simp
    · intro r hr
      have := h (c :: r) (by rw [List.cons_prefix_cons]; exact ⟨rfl, hr⟩)
      simpa using this

theorem makedirs_at {cur p : Path} {t : Tree} (hw : WfTree t) (hd : t.isdir cur = true) :
    t.makedirsFrom [] (cur ++ p) = t.makedirsFrom cur p := by
  rw [makedirsFrom_skip (pre := [])]
  · rfl
  · intro r hr
    exact prefix_dir hw hd hr

theorem below_makedirs {cur d : Path} (h1 : ¬ d <+: cur) (h2 : ¬ cur <+: d) {pre rest : Path} (hpre : cur <+: pre) {t t' : Tree}
    (h : t.makedirsFrom pre rest = .ok t') : t'.below d = t.below d := by
  induction rest generalizing pre t with
  | nil =>
    simp only [Tree.makedirsFrom, Except.ok.injEq] at h
    rw [h]
  | cons c rest ih =>
    simp only [Tree.makedirsFrom] at h
    have hp : cur <+: pre ++ [c] := hpre.trans (List.prefix_append ..)
    split at h
    · exact ih hp h
    · cases hk : t.mkdir (pre ++ [c]) with
      | error e => rw [hk] at h; cases h
      | ok t1 =>
        rw [hk] at h
        obtain ⟨rfl, _⟩ := Tree.mkdir_ok hk
        rw [ih hp h]
        refine below_dset_other (fun hc => ?_)
        exfalso
        rcases List.prefix_or_prefix_of_prefix hc hp with hc | hc
        · exact h1 hc
        · exact h2 hc

theorem within_makedirs {cur p : Path} {t t' : Tree} (hw : WfTree t) (hd : t.isdir cur = true) (hc : Clean cur)
    (hp : Clean p) (h : t.makedirsFrom [] (cur ++ p) = .ok t') : Within cur t t' := by
  refine ⟨wf_makedirsFrom hw (by rw [List.nil_append]; exact clean_append hc hp) h, fun q hq => ?_, fun d h1 h2 => ?_⟩
  rotate_left
  · rw [makedirs_at hw hd] at h
    exact below_makedirs h1 h2 (List.prefix_refl _) h
  rcases makedirsFrom_ok h q with h1 | ⟨h1, h2, h3⟩
  · exact h1
  · exfalso
    rw [List.nil_append] at h1
    rcases List.prefix_or_prefix_of_prefix h1 (List.prefix_append cur p) with h4 | h4
    · have := prefix_dir hw hd h4
      rw [isdir_iff] at this
      rcases this with rfl | h5
      · have := wf_makedirsFrom hw (by rw [List.nil_append]; exact clean_append hc hp) h
        have hm : ([] : Path) ∈ dkeys t' := by rw [mem_dkeys_iff, h3]; simp
        exact (this.good [] hm).1 rfl
      · rw [h5] at h2; cases h2
    · have e := hq h4
      subst e
      rw [isdir_iff] at hd
      rcases hd with rfl | h5
      · have := wf_makedirsFrom hw (by rw [List.nil_append]; exact clean_append hc hp) h
        have hm : ([] : Path) ∈ dkeys t' := by rw [mem_dkeys_iff, h3]; simp
        exact (this.good [] hm).1 rfl
      · rw [h5] at h2; cases h2

theorem Within.isdir {cur : Path} {t t' : Tree} (h : Within cur t t') : t'.isdir cur = t.isdir cur := by
  unfold Tree.isdir
  rw [h.2.1 cur (fun _ => rfl)]

/-! ## What is kept -/

/-- The file system as it was in the beginning, but for new things in the places where bags with names in `M` go. -/
structure DiskKept (W0 : Tree) (src : Path) (outdir : Str) (O : Path) (M : Str → Prop) (d : SplitDisk) : Prop where
  wf : WfTree d.disk
  src : d.src = src
  outdir : d.outdir = outdir
  same : ∀ q, dget d.disk q = dget W0 q ∨ (dget W0 q = none ∧ ∃ n, M n ∧ leadsTo O n <+: q)
  elsewhere : ∀ p, (∀ n, M n → ¬ p <+: leadsTo O n ∧ ¬ leadsTo O n <+: p) → d.disk.below p = W0.below p

/-- The same while a bag is written. -/
structure DiskWriting (W0 : Tree) (src : Path) (outdir : Str) (O : Path) (M : Str → Prop) (d : SplitDisk) : Prop where
  kept : DiskKept W0 src outdir O M d
  clean : Clean d.cur
  cur : ∃ n, M n ∧ d.cur = leadsTo O n
  isdir : d.disk.isdir d.cur = true
  fresh : dget W0 d.cur = none ∧ d.cur ≠ []

theorem wf_prefix {t : Tree} (h : WfTree t) {p q : Path} (hp : (dget t p).isSome = true) (hq : q <+: p) (hne : q ≠ []) :
    (dget t q).isSome = true := by
  obtain ⟨r, rfl⟩ := hq
  by_cases hr : r = []
  · subst hr; simpa using hp
  · have hk : q ++ r ∈ dkeys t := by rw [mem_dkeys_iff]; exact Option.isSome_iff_exists.1 hp
    have := prefix_dir h (h.parent _ hk) (q := q) (by
      rw [List.dropLast_append_of_ne_nil hr]
      exact List.prefix_append ..)
    rw [isdir_iff] at this
    rcases this with h1 | h1
    · exact absurd h1 hne
    · rw [h1]; rfl

theorem DiskWriting.step {W0 : Tree} {src : Path} {outdir : Str} {O : Path} {M : Str → Prop} {d : SplitDisk}
    (h0 : WfTree W0) (h : DiskWriting W0 src outdir O M d) {t : Tree} (hw : Within d.cur d.disk t) :
    DiskWriting W0 src outdir O M { d with disk := t } := by
  refine ⟨⟨hw.1, h.kept.src, h.kept.outdir, fun q => ?_, fun p hp => ?_⟩, h.clean, h.cur, by rw [← h.isdir]; exact hw.isdir, h.fresh⟩
  by_cases hq : d.cur <+: q
  · right
    obtain ⟨n, hn, e⟩ := h.cur
    refine ⟨?_, n, hn, e ▸ hq⟩
    cases hd : dget W0 q with
    | none => rfl
    | some x =>
      have := wf_prefix h0 (p := q) (by rw [hd]; rfl) hq h.fresh.2
      rw [h.fresh.1] at this
      cases this
  · rw [show dget (SplitDisk.disk { d with disk := t }) q = dget d.disk q from hw.2.1 q (fun hc => absurd hc hq)]
    exact h.kept.same q
  · obtain ⟨n, hn, e⟩ := h.cur
    rw [← h.kept.elsewhere p hp]
    exact hw.2.2 p (e ▸ (hp n hn).1) (e ▸ (hp n hn).2)

theorem diskKeeps {W0 : Tree} (h0 : WfTree W0) (src : Path) {outdir : Str} {O : Path} (hO : AbsPath outdir O) (M : Str → Prop) :
    Keeps diskFS (DiskKept W0 src outdir O M) (DiskWriting W0 src outdir O M) M Clean where
  weaken h := h.kept
  newBag {d n x} h hn hx := by
    simp only [diskFS, SplitDisk.lift] at hx
    cases hm : d.disk.mkdir (bagDir d.outdir n) with
    | error e => rw [hm] at hx; cases hx
    | ok t =>
      rw [hm] at hx
      cases hx
      obtain ⟨rfl, h1, h2⟩ := Tree.mkdir_ok hm
      rw [h.outdir, bagDir_eq hO] at h1 h2
      have hc : Clean (leadsTo O n) := goodName_leadsTo hO.1.2 n
      have hne : leadsTo O n ≠ [] := by
        intro e
        rw [e] at h1
        simp [Tree.exists] at h1
      have hno : dget d.disk (leadsTo O n) = none := by
        unfold Tree.exists at h1
        simpa [hne] using h1
      rw [h.outdir, bagDir_eq hO]
      refine ⟨⟨wf_dset h.wf ⟨hne, hc⟩ h2 (.inr rfl), h.src, rfl, fun q => ?_, fun p hp => ?_⟩, hc, ⟨n, hn, rfl⟩, ?_, ?_, hne⟩
      · rw [dget_dset]
        split
        · rename_i e
          subst e
          right
          refine ⟨?_, n, hn, List.prefix_refl _⟩
          rcases h.same (leadsTo O n) with h3 | h3
          · rw [← h3]; exact hno
          · exact h3.1
        · exact h.same q
      · rw [← h.elsewhere p hp]
        exact below_dset_other (fun hc => absurd hc (hp n hn).1)
      · rw [isdir_iff, dget_dset, if_pos rfl]; exact .inr rfl
      · rcases h.same (leadsTo O n) with h3 | h3
        · rw [← h3]; exact hno
        · exact h3.1
  finish h := h.kept
  mkdir {d p x} hp h hx := by
    simp only [diskFS, SplitDisk.lift] at hx
    rw [below_clean h.clean hp] at hx
    cases hm : d.disk.mkdir (d.cur ++ p) with
    | error e => rw [hm] at hx; cases hx
    | ok t =>
      rw [hm] at hx
      cases hx
      exact h.step h0 (within_mkdir h.kept.wf h.isdir h.clean hp hm).2.2
  makedirs {d p x} hp h hx := by
    simp only [diskFS, SplitDisk.lift] at hx
    rw [below_clean h.clean hp] at hx
    cases hm : d.disk.makedirsFrom [] (d.cur ++ p) with
    | error e => rw [hm] at hx; cases hx
    | ok t =>
      rw [hm] at hx
      cases hx
      exact h.step h0 (within_makedirs h.kept.wf h.isdir h.clean hp hm)
  write {d p c x} hp h hx := by
    simp only [diskFS, SplitDisk.lift] at hx
    rw [below_clean h.clean hp] at hx
    cases hm : d.disk.write (d.cur ++ p) c with
    | error e => rw [hm] at hx; cases hx
    | ok t =>
      rw [hm] at hx
      cases hx
      exact h.step h0 (within_write h.kept.wf h.isdir h.clean hp hm).2.2
  append {d p c x} hp h hx := by
    simp only [diskFS, SplitDisk.lift] at hx
    rw [below_clean h.clean hp] at hx
    cases hm : d.disk.write (d.cur ++ p) ((d.disk.read (d.cur ++ p)).getD [] ++ c) with
    | error e => rw [hm] at hx; cases hx
    | ok t =>
      rw [hm] at hx
      cases hx
      exact h.step h0 (within_write h.kept.wf h.isdir h.clean hp hm).2.2
  replicate {d p x} hp h hx := by
    simp only [diskFS, SplitDisk.lift] at hx
    cases hr : d.disk.read (below d.src p) with
    | none => rw [hr] at hx; cases hx
    | some c =>
      rw [hr] at hx
      simp only at hx
      rw [below_clean h.clean hp] at hx
      cases hm : d.disk.write (d.cur ++ p) c with
      | error e => rw [hm] at hx; cases hx
      | ok t =>
        rw [hm] at hx
        cases hx
        exact h.step h0 (within_write h.kept.wf h.isdir h.clean hp hm).2.2

/-! ## The same as with the bags apart -/

/-- Below `dir` the file system `t` has what `u` has. -/
def HoldsAt (t : Tree) (dir : Path) (u : Tree) : Prop := ∀ p, p ≠ [] → dget t (dir ++ p) = dget u p

/-- What holds between two bags, for the abstract disk `c` and the file system `w`. -/
structure DiskSim (N : Str → Prop) (src : Path) (outdir : Str) (O : Path) (c : CopyDisk) (w : SplitDisk) : Prop where
  wf : WfTree w.disk
  srcdir : w.src = src
  outdir : w.outdir = outdir
  clean : Clean src
  apart : ¬ src <+: O
  source : w.disk.isdir src = true ∧ HoldsAt w.disk src c.src
  out : w.disk.isdir O = true
  taken : ∀ n, N n → (n ∈ c.taken ↔ (dget w.disk (O ++ [n])).isSome = true)
  done : ∀ e ∈ c.done, GoodName e.1 ∧ w.disk.isdir (O ++ [e.1]) = true ∧ w.disk.below (O ++ [e.1]) = e.2

/-- What holds while the bag `n` is written. -/
structure DiskSimBag (N : Str → Prop) (src : Path) (outdir : Str) (O : Path) (n : Str) (c : CopyDisk) (w : SplitDisk) : Prop where
  base : DiskSim N src outdir O c w
  good : GoodName n
  cur : w.cur = O ++ [n]
  isdir : w.disk.isdir (O ++ [n]) = true
  other : ∀ e ∈ c.done, e.1 ≠ n
  elsewhere : ¬ (O ++ [n]) <+: src
  laid : w.disk.below (O ++ [n]) = c.out

theorem prefix_snoc {a O : Path} {n : Str} (h : a <+: O ++ [n]) : a <+: O ∨ a = O ++ [n] := by
  rw [List.prefix_concat_iff] at h
  exact h.symm

theorem not_snoc_prefix {O : Path} {n : Str} : ¬ (O ++ [n]) <+: O := by
  intro h
  have := h.length_le
  simp only [List.length_append, List.length_cons, List.length_nil] at this
  omega

theorem holds_below {t u : Tree} {dir : Path} (h : t.below dir = u) : HoldsAt t dir u := by
  intro p hp
  rw [← h, dget_below hp]

theorem DiskSimBag.holds {N : Str → Prop} {src : Path} {outdir : Str} {O : Path} {n : Str} {c : CopyDisk} {w : SplitDisk}
    (s : DiskSimBag N src outdir O n c w) : HoldsAt w.disk (O ++ [n]) c.out := holds_below s.laid

/-- Neither contains the other. -/
theorem not_prefix_append {a b p : Path} (h1 : ¬ a <+: b) (h2 : ¬ b <+: a) : ¬ a <+: b ++ p := by
  intro h
  rcases List.prefix_or_prefix_of_prefix h (List.prefix_append b p) with h | h
  · exact h1 h
  · exact h2 h

theorem DiskSimBag.apart {N : Str → Prop} {src : Path} {outdir : Str} {O : Path} {n : Str} {c : CopyDisk} {w : SplitDisk}
    (s : DiskSimBag N src outdir O n c w) : ¬ src <+: O ++ [n] := by
  intro h
  rcases prefix_snoc h with h | h
  · exact s.base.apart h
  · exact s.elsewhere (h ▸ List.prefix_refl _)

/-- A change below the current bag, on both sides. -/
theorem DiskSimBag.step {N : Str → Prop} {src : Path} {outdir : Str} {O : Path} {n : Str} {c : CopyDisk} {w : SplitDisk}
    (s : DiskSimBag N src outdir O n c w) {t u : Tree} (hw : Within (O ++ [n]) w.disk t) (hh : t.below (O ++ [n]) = u) :
    DiskSimBag N src outdir O n { c with out := u } { w with disk := t } := by
  have same : ∀ q, ¬ (O ++ [n]) <+: q → dget t q = dget w.disk q := fun q hq => hw.2.1 q (fun h => absurd h hq)
  have dirs : ∀ q, ¬ (O ++ [n]) <+: q → t.isdir q = w.disk.isdir q := by
    intro q hq
    unfold Tree.isdir
    rw [same q hq]
  refine ⟨⟨hw.1, s.base.srcdir, s.base.outdir, s.base.clean, s.base.apart, ⟨?_, ?_⟩, ?_, ?_, ?_⟩, s.good, s.cur, ?_, s.other,
    s.elsewhere, hh⟩
  · rw [← s.base.source.1]
    exact dirs _ s.elsewhere
  · intro p hp
    rw [show dget t (src ++ p) = dget w.disk (src ++ p) from same _ (not_prefix_append s.elsewhere s.apart)]
    exact s.base.source.2 p hp
  · rw [← s.base.out]
    refine dirs _ (fun h => ?_)
    exact not_snoc_prefix h
  · intro m hm
    rw [s.base.taken m hm]
    by_cases e : O ++ [n] = O ++ [m]
    · rw [show dget t (O ++ [m]) = dget w.disk (O ++ [m]) from hw.2.1 _ (fun _ => e.symm)]
    · rw [show dget t (O ++ [m]) = dget w.disk (O ++ [m]) from same _ (fun h => by
        rcases prefix_snoc h with h | h
        · exact not_snoc_prefix h
        · exact e h)]
  · intro x hx
    obtain ⟨h1, h2, h3⟩ := s.base.done x hx
    have hne : O ++ [n] ≠ O ++ [x.1] := by
      intro e
      have := List.append_cancel_left e
      injection this with this
      exact s.other x hx this.symm
    have a1 : ¬ (O ++ [n]) <+: O ++ [x.1] := by
      intro h
      rcases prefix_snoc h with h | h
      · exact not_snoc_prefix h
      · exact hne h
    have a2 : ¬ (O ++ [x.1]) <+: O ++ [n] := by
      intro h
      rcases prefix_snoc h with h | h
      · exact not_snoc_prefix h
      · exact hne h.symm
    refine ⟨h1, by rw [← h2]; exact dirs _ a1, ?_⟩
    rw [← h3]
    exact hw.2.2 _ a2 a1
  · rw [← s.isdir]
    exact hw.isdir

theorem holds_isdir {t u : Tree} {dir : Path} (h : HoldsAt t dir u) (hd : t.isdir dir = true) (p : Path) :
    t.isdir (dir ++ p) = u.isdir p := by
  by_cases hp : p = []
  · subst hp; rw [List.append_nil, hd]; simp [Tree.isdir]
  · unfold Tree.isdir
    rw [h p hp]
    simp [hp]

theorem holds_exists {t u : Tree} {dir : Path} (h : HoldsAt t dir u) (hd : t.isdir dir = true) (p : Path) :
    t.exists (dir ++ p) = u.exists p := by
  by_cases hp : p = []
  · subst hp
    rw [isdir_iff] at hd
    unfold Tree.exists
    rw [List.append_nil]
    rcases hd with hd | hd <;> simp [hd]
  · unfold Tree.exists
    rw [h p hp]
    simp [hp]

theorem holds_node {t u : Tree} {dir : Path} (h : HoldsAt t dir u) (hd : t.isdir dir = true) (ht : WfTree t) (hu : dget u [] = none)
    (p : Path) : t.read (dir ++ p) = u.read p ∧ t.isfile (dir ++ p) = u.isfile p := by
  by_cases hp : p = []
  · subst hp
    rw [isdir_iff] at hd
    unfold Tree.read Tree.isfile
    rw [List.append_nil, hu]
    rcases hd with rfl | hd
    · have : dget t [] = none := by
        cases e : dget t [] with
        | none => rfl
        | some x => exact absurd rfl (ht.good [] (by rw [mem_dkeys_iff, e]; exact ⟨_, rfl⟩)).1
      rw [this]
      exact ⟨rfl, rfl⟩
    · rw [hd]
      exact ⟨rfl, rfl⟩
  · unfold Tree.read Tree.isfile
    rw [h p hp]
    exact ⟨rfl, rfl⟩

theorem holds_parent {t u : Tree} {dir p : Path} (h : HoldsAt t dir u) (hd : t.isdir dir = true) (hp : p ≠ []) :
    t.isdir (dir ++ p).dropLast = u.isdir p.dropLast := by
  rw [List.dropLast_append_of_ne_nil hp]
  exact holds_isdir h hd _

theorem holds_mkdir {t u u' : Tree} {dir p : Path} (hb : t.below dir = u) (hd : t.isdir dir = true) (hm : u.mkdir p = .ok u') :
    ∃ t', t.mkdir (dir ++ p) = .ok t' ∧ t'.below dir = u' ∧ t'.isdir dir = true := by
  have h := holds_below hb
  obtain ⟨rfl, h1, h2⟩ := Tree.mkdir_ok hm
  have hp : p ≠ [] := by rintro rfl; simp [Tree.exists] at h1
  refine ⟨dset t (dir ++ p) .dir, ?_, by rw [below_dset hp, hb], ?_⟩
  · unfold Tree.mkdir
    rw [holds_exists h hd, holds_parent h hd hp, h1, h2]
    rfl
  · rw [isdir_iff] at hd ⊢
    rw [dget_dset, if_neg (fun (e : dir ++ p = dir) => hp (List.append_right_eq_self.1 e))]
    exact hd

theorem holds_write {t u u' : Tree} {dir p : Path} {c : Str} (hb : t.below dir = u) (hd : t.isdir dir = true)
    (hm : u.write p c = .ok u') : ∃ t', t.write (dir ++ p) c = .ok t' ∧ t'.below dir = u' := by
  have h := holds_below hb
  obtain ⟨rfl, h1, h2⟩ := Tree.write_ok hm
  have hp : p ≠ [] := by rintro rfl; simp [Tree.isdir] at h1
  refine ⟨dset t (dir ++ p) (.file c), ?_, by rw [below_dset hp, hb]⟩
  unfold Tree.write
  rw [holds_isdir h hd, holds_parent h hd hp, h1, h2]
  rfl

theorem holds_makedirs {t u u' : Tree} {dir pre rest : Path} (h : t.below dir = u) (hd : t.isdir dir = true)
    (hm : u.makedirsFrom pre rest = .ok u') : ∃ t', t.makedirsFrom (dir ++ pre) rest = .ok t' ∧ t'.below dir = u' := by
  induction rest generalizing t u pre with
  | nil =>
    simp only [Tree.makedirsFrom, Except.ok.injEq] at hm
    subst hm
    exact ⟨t, rfl, h⟩
  | cons c rest ih =>
    simp only [Tree.makedirsFrom] at hm ⊢
    rw [List.append_assoc, holds_isdir (holds_below h) hd]
    split at hm
    · rename_i hi
      rw [if_pos hi]
      exact ih h hd hm
    · rename_i hi
      rw [if_neg hi]
      cases hk : u.mkdir (pre ++ [c]) with
      | error e => rw [hk] at hm; cases hm
      | ok u1 =>
        rw [hk] at hm
        obtain ⟨t1, e1, h1, h2⟩ := holds_mkdir h hd hk
        rw [e1]
        exact ih h1 h2 hm

variable {src : Path} {outdir : Str} {O : Path}

/-- Nothing is listed under the empty path. -/
def Rootless (c : CopyDisk) : Prop := dget c.src [] = none ∧ dget c.out [] = none

theorem rootless_dset {t : Tree} {p : Path} {x : Node} (h : dget t [] = none) (hp : p ≠ []) : dget (dset t p x) [] = none := by
  rw [dget_dset, if_neg hp]
  exact h

theorem rootless_makedirs {t t' : Tree} {p : Path} (h : dget t [] = none) (hm : t.makedirsFrom [] p = .ok t') : dget t' [] = none := by
  rcases makedirsFrom_ok hm [] with h1 | ⟨_, _, h3⟩
  · rw [h1]; exact h
  · exfalso
    have : ∀ (pre rest : Path) (t t' : Tree), dget t [] = none → t.makedirsFrom pre rest = .ok t' → dget t' [] = none := by
      intro pre rest
      induction rest generalizing pre with
      | nil =>
        intro t t' h hm
        simp only [Tree.makedirsFrom, Except.ok.injEq] at hm
        subst hm
        exact h
      | cons c rest ih =>
        intro t t' h hm
        simp only [Tree.makedirsFrom] at hm
        split at hm
        · exact ih _ _ _ h hm
        · cases hk : t.mkdir (pre ++ [c]) with
          | error e => rw [hk] at hm; cases hm
          | ok t1 =>
            rw [hk] at hm
            obtain ⟨rfl, _⟩ := Tree.mkdir_ok hk
            exact ih _ _ _ (rootless_dset h (by simp)) hm
    rw [this [] p t t' h hm] at h3
    cases h3

theorem disk_simulates {N : Str → Prop} (hN : ∀ n, N n → GoodName n) (hO : AbsPath outdir O) :
    Simulates copyFS diskFS (fun c w => DiskSim N src outdir O c w ∧ Rootless c)
      (fun n _ c w => DiskSimBag N src outdir O n c w ∧ Rootless c) (fun _ => false) N Clean where
  exists_eq {b L c l p} hp s := by
    simp only [diskFS, copyFS]
    rw [s.1.cur, below_clean (clean_append hO.1.2 (by simpa [Clean] using s.1.good)) hp]
    exact holds_exists s.1.holds s.1.isdir p
  isdir_eq {b L c l p} hp s := by
    simp only [diskFS, copyFS]
    rw [s.1.cur, below_clean (clean_append hO.1.2 (by simpa [Clean] using s.1.good)) hp]
    exact holds_isdir s.1.holds s.1.isdir p
  isfile_eq {b L c l p} hp s := by
    simp only [diskFS, copyFS]
    rw [s.1.cur, below_clean (clean_append hO.1.2 (by simpa [Clean] using s.1.good)) hp]
    exact (holds_node s.1.holds s.1.isdir s.1.base.wf s.2.2 p).2
  read_eq {b L c l p} hp s := by
    simp only [diskFS, copyFS]
    rw [s.1.cur, below_clean (clean_append hO.1.2 (by simpa [Clean] using s.1.good)) hp]
    exact (holds_node s.1.holds s.1.isdir s.1.base.wf s.2.2 p).1
  srcRead_eq {b L c l p} hp s := by
    simp only [diskFS, copyFS]
    rw [s.1.base.srcdir, below_clean s.1.base.clean hp]
    exact (holds_node s.1.base.source.2 s.1.base.source.1 s.1.base.wf s.2.1 p).1
  mkdir {b L c l c' p} hp s h := by
    have hc : Clean (O ++ [b]) := clean_append hO.1.2 (by simpa [Clean] using s.1.good)
    simp only [copyFS, CopyDisk.lift] at h
    cases hm : c.out.mkdir p with
    | error e => rw [hm] at h; cases h
    | ok u =>
      rw [hm] at h
      cases h
      obtain ⟨t, h1, h2, _⟩ := holds_mkdir s.1.laid s.1.isdir hm
      obtain ⟨hne, e, hw⟩ := within_mkdir s.1.base.wf s.1.isdir hc hp h1
      refine ⟨{ l with disk := t }, ?_, ⟨s.1.step hw h2, s.2.1, ?_⟩, rfl⟩
      · simp only [diskFS, SplitDisk.lift]
        rw [s.1.cur, below_clean hc hp, h1]
      · obtain ⟨rfl, _⟩ := Tree.mkdir_ok hm
        exact rootless_dset s.2.2 hne
  makedirs {b L c l c' p} hp s h := by
    have hc : Clean (O ++ [b]) := clean_append hO.1.2 (by simpa [Clean] using s.1.good)
    simp only [copyFS, CopyDisk.lift] at h
    cases hm : c.out.makedirsFrom [] p with
    | error e => rw [hm] at h; cases h
    | ok u =>
      rw [hm] at h
      cases h
      obtain ⟨t, h1, h2⟩ := holds_makedirs s.1.laid s.1.isdir hm
      rw [List.append_nil, ← makedirs_at s.1.base.wf s.1.isdir] at h1
      refine ⟨{ l with disk := t }, ?_, ⟨s.1.step (within_makedirs s.1.base.wf s.1.isdir hc hp h1) h2, s.2.1,
        rootless_makedirs s.2.2 hm⟩, rfl⟩
      simp only [diskFS, SplitDisk.lift]
      rw [s.1.cur, below_clean hc hp, h1]
  write {b L c l c' p x} hp s _ h := by
    have hc : Clean (O ++ [b]) := clean_append hO.1.2 (by simpa [Clean] using s.1.good)
    simp only [copyFS, CopyDisk.lift] at h
    cases hm : c.out.write p x with
    | error e => rw [hm] at h; cases h
    | ok u =>
      rw [hm] at h
      cases h
      obtain ⟨t, h1, h2⟩ := holds_write s.1.laid s.1.isdir hm
      obtain ⟨hne, e, hw⟩ := within_write s.1.base.wf s.1.isdir hc hp h1
      refine ⟨{ l with disk := t }, ?_, ⟨s.1.step hw h2, s.2.1, ?_⟩, rfl⟩
      · simp only [diskFS, SplitDisk.lift]
        rw [s.1.cur, below_clean hc hp, h1]
      · obtain ⟨rfl, _⟩ := Tree.write_ok hm
        exact rootless_dset s.2.2 hne
  append {b L c l c' p x} hp s _ h := by
    have hc : Clean (O ++ [b]) := clean_append hO.1.2 (by simpa [Clean] using s.1.good)
    simp only [copyFS, CopyDisk.lift] at h
    cases hm : c.out.write p ((c.out.read p).getD [] ++ x) with
    | error e => rw [hm] at h; cases h
    | ok u =>
      rw [hm] at h
      cases h
      obtain ⟨t, h1, h2⟩ := holds_write s.1.laid s.1.isdir hm
      obtain ⟨hne, e, hw⟩ := within_write s.1.base.wf s.1.isdir hc hp h1
      refine ⟨{ l with disk := t }, ?_, ⟨s.1.step hw h2, s.2.1, ?_⟩, rfl⟩
      · simp only [diskFS, SplitDisk.lift]
        rw [s.1.cur, below_clean hc hp, (holds_node s.1.holds s.1.isdir s.1.base.wf s.2.2 p).1, h1]
      · obtain ⟨rfl, _⟩ := Tree.write_ok hm
        exact rootless_dset s.2.2 hne
  replicate {b L c l c' p} hp s _ h := by
    have hc : Clean (O ++ [b]) := clean_append hO.1.2 (by simpa [Clean] using s.1.good)
    simp only [copyFS, CopyDisk.lift] at h
    cases hr : c.src.read p with
    | none => rw [hr] at h; cases h
    | some x =>
      rw [hr] at h
      simp only at h
      cases hm : c.out.write p x with
      | error e => rw [hm] at h; cases h
      | ok u =>
        rw [hm] at h
        cases h
        obtain ⟨t, h1, h2⟩ := holds_write s.1.laid s.1.isdir hm
        obtain ⟨hne, e, hw⟩ := within_write s.1.base.wf s.1.isdir hc hp h1
        refine ⟨{ l with disk := t }, ?_, ⟨s.1.step hw h2, s.2.1, ?_⟩, rfl⟩
        · simp only [diskFS, SplitDisk.lift]
          rw [s.1.base.srcdir, below_clean s.1.base.clean hp,
            (holds_node s.1.base.source.2 s.1.base.source.1 s.1.base.wf s.2.1 p).1, hr]
          simp only
          rw [s.1.cur, below_clean hc hp, h1]
        · obtain ⟨rfl, _⟩ := Tree.write_ok hm
          exact rootless_dset s.2.2 hne
  newBag {c l c' n} L' s hn h := by
    obtain ⟨s, hr⟩ := s
    simp only [copyFS] at h
    split at h
    · cases h
    · rename_i hnt
      cases h
      have hno : dget l.disk (O ++ [n]) = none := by
        cases e : dget l.disk (O ++ [n]) with
        | none => rfl
        | some x => exact absurd ((s.taken n hn).2 (by rw [e]; rfl)) hnt
      have hc : Clean (O ++ [n]) := clean_append hO.1.2 (by simpa [Clean] using hN _ hn)
      have hm : l.disk.mkdir (O ++ [n]) = .ok (dset l.disk (O ++ [n]) .dir) := by
        unfold Tree.mkdir Tree.exists
        rw [hno]
        simp [s.out]
      have hw : WfTree (dset l.disk (O ++ [n]) .dir) := wf_mkdir s.wf ⟨by simp, hc⟩ hm
      have hnone : ∀ q, (O ++ [n]) <+: q → dget l.disk q = none := by
        intro q hq
        cases e : dget l.disk q with
        | none => rfl
        | some x =>
          have := wf_prefix s.wf (p := q) (by rw [e]; rfl) hq (by simp)
          rw [hno] at this
          cases this
      have helse : ¬ (O ++ [n]) <+: src := by
        intro h
        have h1 := prefix_dir s.wf s.source.1 h
        rw [isdir_iff, hno] at h1
        rcases h1 with h1 | h1
        · simp at h1
        · cases h1
      have hsame : ∀ q, q ≠ O ++ [n] → dget (dset l.disk (O ++ [n]) .dir) q = dget l.disk q := by
        intro q hq
        rw [dget_dset, if_neg (fun e => hq e.symm)]
      have hdirs : ∀ q, l.disk.isdir q = true → Tree.isdir (dset l.disk (O ++ [n]) .dir) q = true := by
        intro q hq
        rw [isdir_iff] at hq ⊢
        rcases hq with hq | hq
        · exact .inl hq
        · right
          rw [dget_dset]
          split
          · rfl
          · exact hq
      have hsrc : ¬ src <+: O ++ [n] := by
        intro h
        rcases prefix_snoc h with h | h
        · exact s.apart h
        · exact helse (h ▸ List.prefix_refl _)
      refine ⟨{ l with disk := dset l.disk (O ++ [n]) .dir, cur := O ++ [n] }, ?_, ⟨⟨⟨hw, s.srcdir, s.outdir, s.clean, s.apart,
        ⟨hdirs _ s.source.1, ?_⟩, hdirs _ s.out, ?_, ?_⟩, hN _ hn, rfl, ?_, ?_, helse, ?_⟩, hr.1, rfl⟩, rfl⟩
      · simp only [diskFS, SplitDisk.lift]
        rw [s.outdir, bagDir_eq hO, leadsTo_plain (hN _ hn), hm]
      · intro p hp
        rw [← s.source.2 p hp]
        exact hsame _ (fun e => hsrc (e ▸ List.prefix_append ..))
      · intro m hm'
        rw [dget_dset]
        by_cases e : n = m
        · subst e; simp
        · rw [if_neg (fun (h : O ++ [n] = O ++ [m]) => e (by
            have := List.append_cancel_left h
            injection this)), ← s.taken m hm', List.mem_cons]
          exact ⟨fun h => h.resolve_left (fun h => e h.symm), .inr⟩
      · intro x hx
        obtain ⟨h1, h2, h3⟩ := s.done x hx
        refine ⟨h1, hdirs _ h2, ?_⟩
        rw [← h3]
        refine below_dset_other (fun h => ?_)
        rcases prefix_snoc h with h | h
        · exact absurd h not_snoc_prefix
        · exact h.symm
      · rw [isdir_iff, dget_dset, if_pos rfl]; exact .inr rfl
      · intro x hx e
        subst e
        obtain ⟨h1, h2, _⟩ := s.done x hx
        rw [isdir_iff, hno] at h2
        rcases h2 with h2 | h2
        · simp at h2
        · cases h2
      · rw [below_dset_other (fun _ => rfl)]
        exact below_nil (fun p _ => hnone _ (List.prefix_append ..)) (fun k hk => Option.isSome_iff_exists.2 (mem_dkeys_iff.1 hk))
  finish {n L c l} s := by
    refine ⟨⟨⟨s.1.base.wf, s.1.base.srcdir, s.1.base.outdir, s.1.base.clean, s.1.base.apart, s.1.base.source, s.1.base.out,
      s.1.base.taken, ?_⟩, s.2.1, rfl⟩, rfl⟩
    intro x hx
    simp only [copyFS, List.mem_append, List.mem_singleton] at hx
    rcases hx with hx | rfl
    · exact s.1.base.done x hx
    · exact ⟨s.1.good, s.1.isdir, s.1.laid⟩

end Verif
