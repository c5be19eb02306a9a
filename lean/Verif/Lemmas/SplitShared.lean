import Verif.Model.SplitShared
import Verif.Spec.SplitShared
import Verif.Lemmas.Agree
import Verif.Props.SplitDisk
/-!
# Splits that run at the same time
-/

namespace Verif
open Spec

/-! ## What others do -/

/-- `Elsewhere`, as the lists that make up a file system have it. -/
structure QuietAt (src O : Path) (N : Str → Prop) (t t' : Tree) : Prop where
  wf : WfTree t'
  out : t'.isdir O = true
  source : dget t' src = dget t src ∧ t'.below src = t.below src
  bags : ∀ n, N n → dget t' (O ++ [n]) = dget t (O ++ [n]) ∧ t'.below (O ++ [n]) = t.below (O ++ [n])

theorem QuietAt.refl {src O : Path} {N : Str → Prop} {t : Tree} (hw : WfTree t) (ho : t.isdir O = true) : QuietAt src O N t t :=
  ⟨hw, ho, ⟨rfl, rfl⟩, fun _ _ => ⟨rfl, rfl⟩⟩

theorem QuietAt.trans {src O : Path} {N : Str → Prop} {a b c : Tree} (h : QuietAt src O N a b) (h' : QuietAt src O N b c) :
    QuietAt src O N a c :=
  ⟨h'.wf, h'.out, ⟨h'.source.1.trans h.source.1, h'.source.2.trans h.source.2⟩,
    fun n hn => ⟨(h'.bags n hn).1.trans (h.bags n hn).1, (h'.bags n hn).2.trans (h.bags n hn).2⟩⟩

theorem dget_alone {d : Path} {t t' : Tree} (h : dget t' d = dget t d ∧ t'.below d = t.below d) (p : Path) :
    dget t' (d ++ p) = dget t (d ++ p) := by
  by_cases hp : p = []
  · subst hp; simpa using h.1
  · rw [← dget_below hp, ← dget_below hp, h.2]

theorem isdir_alone {d : Path} {t t' : Tree} (h : dget t' d = dget t d ∧ t'.below d = t.below d) (p : Path) :
    t'.isdir (d ++ p) = t.isdir (d ++ p) := by
  unfold Tree.isdir
  rw [dget_alone h p]

theorem alone_of_leftAlone {d : Path} {t t' : Tree} (hd : d ≠ []) (h : LeftAlone d t t') :
    dget t' d = dget t d ∧ t'.below d = t.below d :=
  ⟨dget_of_same hd hd (h.1 d (List.prefix_refl _)).2.1 (h.1 d (List.prefix_refl _)).2.2, h.2⟩

theorem leftAlone_of_alone {d : Path} {t t' : Tree} (h : dget t' d = dget t d ∧ t'.below d = t.below d) : LeftAlone d t t' := by
  refine ⟨?_, h.2⟩
  rintro q ⟨p, rfl⟩
  exact sameThing_of_dget (dget_alone h p)

theorem quiet_of_elsewhere {src O : Path} {ns : List Str} {t t' : Tree} (hs : src ≠ []) (h : Elsewhere src O ns t t') :
    QuietAt src O (· ∈ ns) t t' :=
  ⟨h.wf, h.out, alone_of_leftAlone hs h.source, fun n hn => alone_of_leftAlone (by simp) (h.bags n hn)⟩

theorem DiskSim.quiet {N : Str → Prop} {src : Path} {outdir : Str} {O : Path} {c : CopyDisk} {w : SplitDisk}
    (s : DiskSim N src outdir O c w) {t : Tree} (h : QuietAt src O N w.disk t) (hd : ∀ e ∈ c.done, N e.1) :
    DiskSim N src outdir O c { w with disk := t } := by
  refine ⟨h.wf, s.srcdir, s.outdir, s.clean, s.apart, ⟨?_, fun p hp => ?_⟩, h.out, fun n hn => ?_, fun e he => ?_⟩
  · have := isdir_alone h.source []
    rw [List.append_nil] at this
    exact this.trans s.source.1
  · exact (dget_alone h.source p).trans (s.source.2 p hp)
  · rw [s.taken n hn]
    simp only
    rw [(h.bags n hn).1]
  · obtain ⟨h1, h2, h3⟩ := s.done e he
    have := isdir_alone (h.bags _ (hd e he)) []
    rw [List.append_nil] at this
    exact ⟨h1, this.trans h2, (h.bags _ (hd e he)).2.trans h3⟩

theorem DiskSimBag.quiet {N : Str → Prop} {src : Path} {outdir : Str} {O : Path} {n : Str} {c : CopyDisk} {w : SplitDisk}
    (s : DiskSimBag N src outdir O n c w) {t : Tree} (h : QuietAt src O N w.disk t) (hd : ∀ e ∈ c.done, N e.1) (hn : N n) :
    DiskSimBag N src outdir O n c { w with disk := t } := by
  refine ⟨s.base.quiet h hd, s.good, s.cur, ?_, s.other, s.elsewhere, (h.bags n hn).2.trans s.laid⟩
  have := isdir_alone (h.bags n hn) []
  rw [List.append_nil] at this
  exact this.trans s.isdir

/-! ## A split that others do not disturb -/

/-- The file system that the last operation has left. -/
def lastLeft (W : Tree) (log : List (Tree × Tree)) : Tree := (log.getLast?.map (·.2)).getD W

theorem lastLeft_snoc (W : Tree) (log : List (Tree × Tree)) (f l : Tree) : lastLeft W (log ++ [(f, l)]) = l := by
  simp [lastLeft]

/-- Names of finished bags. -/
def DoneIn (N : Str → Prop) (c : CopyDisk) : Prop := ∀ e ∈ c.done, N e.1

theorem shared_simulates {W : Tree} {found : SharedSplit → Tree} {src : Path} {outdir : Str} {O : Path} {N : Str → Prop}
    (hN : ∀ n, N n → GoodName n) (hO : AbsPath outdir O)
    (hq : ∀ s, WfTree (lastLeft W s.log) → (lastLeft W s.log).isdir O = true → QuietAt src O N (lastLeft W s.log) (found s)) :
    Simulates copyFS (sharedFS found)
      (fun c s => (DiskSim N src outdir O c (s.on (lastLeft W s.log)) ∧ Rootless c) ∧ DoneIn N c)
      (fun n _ c s => (DiskSimBag N src outdir O n c (s.on (lastLeft W s.log)) ∧ Rootless c) ∧ DoneIn N c ∧ N n)
      (fun _ => false) N Clean := by
  have D := disk_simulates (src := src) hN hO
  have base : ∀ {c : CopyDisk} {s : SharedSplit}, ((DiskSim N src outdir O c (s.on (lastLeft W s.log)) ∧ Rootless c) ∧ DoneIn N c) →
      DiskSim N src outdir O c (s.on (found s)) ∧ Rootless c := fun h =>
    ⟨h.1.1.quiet (hq _ h.1.1.wf h.1.1.out) h.2, h.1.2⟩
  have bag : ∀ {n : Str} {c : CopyDisk} {s : SharedSplit},
      ((DiskSimBag N src outdir O n c (s.on (lastLeft W s.log)) ∧ Rootless c) ∧ DoneIn N c ∧ N n) →
      DiskSimBag N src outdir O n c (s.on (found s)) ∧ Rootless c := fun h =>
    ⟨h.1.1.quiet (hq _ h.1.1.base.wf h.1.1.base.out) h.2.1 h.2.2, h.1.2⟩
  have noted : ∀ {s : SharedSplit} {t : Tree} {d : SplitDisk}, d.src = s.src → d.outdir = s.outdir →
      ∃ s', s.did t (.ok d) = .ok s' ∧ s'.on (lastLeft W s'.log) = d := by
    intro s t d h1 h2
    refine ⟨_, rfl, ?_⟩
    simp only [lastLeft_snoc, SharedSplit.on]
    rw [← h1, ← h2]
  have step : ∀ {n : Str} {c c' : CopyDisk} {s : SharedSplit} {r : Except PyErr SplitDisk},
      ((DiskSimBag N src outdir O n c (s.on (lastLeft W s.log)) ∧ Rootless c) ∧ DoneIn N c ∧ N n) → c'.done = c.done →
      (∃ l', r = .ok l' ∧ (DiskSimBag N src outdir O n c' l' ∧ Rootless c') ∧ (fun _ => false) l' = false) →
      ∃ l', s.did (found s) r = .ok l' ∧ ((DiskSimBag N src outdir O n c' (l'.on (lastLeft W l'.log)) ∧ Rootless c') ∧ DoneIn N c' ∧ N n) ∧
        (fun _ => false) l' = (fun _ => false) s := by
    rintro n c c' s r h he ⟨d, rfl, h2, _⟩
    obtain ⟨s', e1, e2⟩ := noted (s := s) (t := found s) (d := d) (h2.1.base.srcdir.trans h.1.1.base.srcdir.symm)
      (h2.1.base.outdir.trans h.1.1.base.outdir.symm)
    exact ⟨s', e1, ⟨e2 ▸ h2, by unfold DoneIn; rw [he]; exact h.2.1, h.2.2⟩, rfl⟩
  have lift : ∀ {c c' : CopyDisk} {r : Except PyErr Tree}, CopyDisk.lift c r = .ok c' → c'.done = c.done := by
    intro c c' r h
    unfold CopyDisk.lift at h
    cases r with
    | error e => cases h
    | ok t => cases h; rfl
  exact
  { exists_eq := fun hp h => D.exists_eq (L := fun _ => True) hp (bag h)
    isdir_eq := fun hp h => D.isdir_eq (L := fun _ => True) hp (bag h)
    isfile_eq := fun hp h => D.isfile_eq (L := fun _ => True) hp (bag h)
    read_eq := fun hp h => D.read_eq (L := fun _ => True) hp (bag h)
    srcRead_eq := fun hp h => D.srcRead_eq (L := fun _ => True) hp (bag h)
    mkdir := fun hp h hx => step h (lift hx) (D.mkdir (L := fun _ => True) hp (bag h) hx)
    makedirs := fun hp h hx => step h (lift hx) (D.makedirs (L := fun _ => True) hp (bag h) hx)
    write := fun hp h _ hx => step h (lift hx) (D.write (L := fun _ => True) hp (bag h) (by simp) hx)
    append := fun hp h _ hx => step h (lift hx) (D.append (L := fun _ => True) hp (bag h) (by simp) hx)
    replicate := fun {b L c l c' p} hp h _ hx => step h (by
        simp only [copyFS] at hx
        cases hr : c.src.read p with
        | none => rw [hr] at hx; cases hx
        | some x => rw [hr] at hx; exact lift hx) (D.replicate (L := fun _ => True) hp (bag h) trivial hx)
    newBag := fun {c l c' n} L' h hn hx => by
      obtain ⟨d, h1, h2, _⟩ := D.newBag (fun _ => True) (base h) hn hx
      obtain ⟨s', e1, e2⟩ := noted (s := l) (t := found l) (d := d) (h2.1.base.srcdir.trans h.1.1.srcdir.symm)
        (h2.1.base.outdir.trans h.1.1.outdir.symm)
      have hd : c'.done = c.done := by
        simp only [copyFS] at hx
        split at hx
        · cases hx
        · cases hx; rfl
      refine ⟨s', ?_, ⟨e2 ▸ h2, by unfold DoneIn; rw [hd]; exact h.2, hn⟩, rfl⟩
      simp only [sharedFS]
      rw [h1, e1]
    finish := fun {n L c l} h => by
      obtain ⟨h1, _⟩ := D.finish (L := fun _ => True) h.1
      refine ⟨⟨h1, ?_⟩, rfl⟩
      intro e he
      simp only [copyFS, List.mem_append, List.mem_singleton] at he
      rcases he with he | rfl
      · exact h.2.1 e he
      · exact h.2.2 }

/-! ## The file systems that are found -/

theorem lastLeft_cons (W : Tree) (s : Tree × Tree) (a : List (Tree × Tree)) : lastLeft W (s :: a) = lastLeft s.2 a := by
  cases a with
  | nil => rfl
  | cons x a =>
    unfold lastLeft
    rw [List.getLast?_cons_cons, List.getLast?_eq_some_getLast (List.cons_ne_nil x a)]
    rfl

theorem meanwhile_append {Q : Tree → Tree → Prop} {W : Tree} {a b : List (Tree × Tree)} :
    Meanwhile Q W (a ++ b) ↔ Meanwhile Q W a ∧ Meanwhile Q (lastLeft W a) b := by
  induction a generalizing W with
  | nil => simp [Meanwhile, lastLeft]
  | cons s a ih => rw [List.cons_append, Meanwhile, Meanwhile, ih, lastLeft_cons, and_assoc]

theorem meanwhile_mono {Q R : Tree → Tree → Prop} (h : ∀ t t', Q t t' → R t t') {W : Tree} {a : List (Tree × Tree)}
    (hm : Meanwhile Q W a) : Meanwhile R W a := by
  induction a generalizing W with
  | nil => trivial
  | cons s a ih => exact ⟨h _ _ hm.1, ih hm.2⟩

open Classical in
/-- What a split finds, if nothing disturbs it; else what it left itself. -/
noncomputable def calm (Q : Tree → Tree → Prop) (W : Tree) (seen : Nat → Tree) (s : SharedSplit) : Tree :=
  if Q (lastLeft W s.log) (seen s.log.length) then seen s.log.length else lastLeft W s.log

/-- Something has disturbed it, or will do so before the next operation. -/
def Disturbed (Q : Tree → Tree → Prop) (W : Tree) (seen : Nat → Tree) (s : SharedSplit) : Prop :=
  ¬ Meanwhile Q W (s.log ++ [(seen s.log.length, seen s.log.length)])

theorem did_disturbed {Q : Tree → Tree → Prop} {W : Tree} {seen : Nat → Tree} {s x : SharedSplit} {r : Except PyErr SplitDisk}
    (h : Disturbed Q W seen s) (hx : s.did (seen s.log.length) r = .ok x) : Disturbed Q W seen x := by
  unfold SharedSplit.did at hx
  cases r with
  | error e => cases hx
  | ok d =>
    cases hx
    intro hm
    rw [meanwhile_append] at hm
    refine h ?_
    have := hm.1
    rw [meanwhile_append] at this ⊢
    exact ⟨this.1, this.2.1, trivial⟩

theorem shared_agrees (Q : Tree → Tree → Prop) (W : Tree) (seen : Nat → Tree) :
    Agrees (sharedFS fun s => seen s.log.length) (sharedFS (calm Q W seen)) (Disturbed Q W seen) := by
  have e : ∀ {s : SharedSplit}, ¬ Disturbed Q W seen s → calm Q W seen s = seen s.log.length := by
    intro s h
    have := Classical.not_not.1 h
    rw [meanwhile_append] at this
    exact if_pos this.2.1
  refine
  { keeps :=
    { weaken := id
      newBag := fun h _ hx => did_disturbed h hx
      finish := id
      mkdir := fun _ h hx => did_disturbed h hx
      makedirs := fun _ h hx => did_disturbed h hx
      write := fun _ h hx => did_disturbed h hx
      append := fun _ h hx => did_disturbed h hx
      replicate := fun _ h hx => did_disturbed h hx }
    finish := fun _ _ => rfl
    newBag := ?_, exists_ := ?_, isdir := ?_, isfile := ?_, mkdir := ?_, makedirs := ?_, write := ?_, append := ?_, replicate := ?_
    read := ?_, srcRead := ?_ }
  all_goals
    intro s h
    intros
    simp only [sharedFS]
    rw [e h]

/-! ## What a split does to the others -/

/-- `Confined`, as the lists that make up a file system have it. -/
structure Bound (O : Path) (N : Str → Prop) (t t' : Tree) : Prop where
  wf : WfTree t'
  same : ∀ q, (∀ n, N n → ¬ (O ++ [n]) <+: q) → dget t' q = dget t q
  order : ∀ d, (∀ n, N n → ¬ (O ++ [n]) <+: d ∧ ¬ d <+: O ++ [n]) → t'.below d = t.below d

theorem Bound.refl {O : Path} {N : Str → Prop} {t : Tree} (h : WfTree t) : Bound O N t t := ⟨h, fun _ _ => rfl, fun _ _ => rfl⟩

theorem bound_dset {O p : Path} {N : Str → Prop} {n : Str} (hn : N n) {t : Tree} {x : Node} (hw : WfTree (dset t (O ++ [n] ++ p) x)) :
    Bound O N t (dset t (O ++ [n] ++ p) x) := by
  refine ⟨hw, fun q hq => ?_, fun d hd => below_dset_other (fun h => ?_)⟩
  · rw [dget_dset, if_neg (fun (e : O ++ [n] ++ p = q) => hq n hn (e ▸ List.prefix_append ..))]
  · exfalso
    rcases List.prefix_or_prefix_of_prefix h (List.prefix_append (O ++ [n]) p) with h | h
    · exact (hd n hn).2 h
    · exact (hd n hn).1 h

theorem bound_makedirs {O p : Path} {N : Str → Prop} {n : Str} (hn : N n) {t t' : Tree} (hw : WfTree t) (hO : t.isdir O = true)
    (hc : Clean (O ++ [n])) (hp : Clean p) (h : t.makedirsFrom [] (O ++ [n] ++ p) = .ok t') : Bound O N t t' := by
  have hw' : WfTree t' := wf_makedirsFrom hw (by rw [List.nil_append]; exact clean_append hc hp) h
  rw [List.append_assoc, makedirs_at hw hO] at h
  refine ⟨hw', fun q hq => ?_, fun d hd => ?_⟩
  · rcases makedirsFrom_ok h q with h1 | ⟨h1, h2, h3⟩
    · exact h1
    · exfalso
      rw [← List.append_assoc] at h1
      rcases List.prefix_or_prefix_of_prefix h1 (List.prefix_append (O ++ [n]) p) with h4 | h4
      · rcases prefix_snoc h4 with h5 | h5
        · have := prefix_dir hw hO h5
          rw [isdir_iff] at this
          rcases this with rfl | h6
          · exact (hw'.good [] (by rw [mem_dkeys_iff, h3]; simp)).1 rfl
          · rw [h6] at h2; cases h2
        · exact hq n hn (h5 ▸ List.prefix_refl _)
      · exact hq n hn h4
  · have h1 := (hd n hn).2
    have h2 := (hd n hn).1
    rw [List.singleton_append, Tree.makedirsFrom] at h
    split at h
    · exact below_makedirs h1 h2 (List.prefix_refl _) h
    · cases hk : t.mkdir (O ++ [n]) with
      | error e => rw [hk] at h; cases h
      | ok t1 =>
        rw [hk] at h
        obtain ⟨rfl, _⟩ := Tree.mkdir_ok hk
        rw [below_makedirs h1 h2 (List.prefix_refl _) h]
        exact below_dset_other (fun hc => absurd hc h1)

theorem bound_write {O p : Path} {N : Str → Prop} {n : Str} (hn : N n) {t t' : Tree} {c : Str} (hw : WfTree t)
    (hc : Clean (O ++ [n])) (hp : Clean p) (h : t.write (O ++ [n] ++ p) c = .ok t') : Bound O N t t' := by
  have := wf_write hw ⟨by simp, clean_append hc hp⟩ h
  obtain ⟨rfl, _⟩ := Tree.write_ok h
  exact bound_dset hn this

theorem bound_mkdir {O p : Path} {N : Str → Prop} {n : Str} (hn : N n) {t t' : Tree} (hw : WfTree t)
    (hc : Clean (O ++ [n])) (hp : Clean p) (h : t.mkdir (O ++ [n] ++ p) = .ok t') : Bound O N t t' := by
  have := wf_mkdir hw ⟨by simp, clean_append hc hp⟩ h
  obtain ⟨rfl, _⟩ := Tree.mkdir_ok h
  exact bound_dset hn this

/-- All operations so far were bound. -/
structure BoundLog (outdir : Str) (O : Path) (N : Str → Prop) (s : SharedSplit) : Prop where
  outdir : s.outdir = outdir
  log : ∀ e ∈ s.log, WfTree e.1 → e.1.isdir O = true → Bound O N e.1 e.2

theorem boundKeeps {found : SharedSplit → Tree} {outdir : Str} {O : Path} {N : Str → Prop} (hN : ∀ n, N n → GoodName n)
    (hO : AbsPath outdir O) :
    Keeps (sharedFS found) (BoundLog outdir O N) (fun s => BoundLog outdir O N s ∧ ∃ n, N n ∧ s.cur = O ++ [n]) N Clean := by
  have good : ∀ {n}, N n → Clean (O ++ [n]) := fun hn => clean_append hO.1.2 (by simpa [Clean] using hN _ hn)
  have note : ∀ {s x : SharedSplit} {r : Except PyErr Tree} {c : Path}, BoundLog outdir O N s →
      s.did (found s) (SplitDisk.lift { s.on (found s) with cur := c } r) = .ok x →
      (∀ t, r = .ok t → WfTree (found s) → (found s).isdir O = true → Bound O N (found s) t) →
      BoundLog outdir O N x ∧ x.cur = c := by
    intro s x r c h hx hb
    cases r with
    | error e => cases hx
    | ok t =>
      simp only [SplitDisk.lift, SharedSplit.did] at hx
      cases hx
      refine ⟨⟨h.outdir, ?_⟩, rfl⟩
      intro e he
      rcases List.mem_append.1 he with he | he
      · exact h.log e he
      · rw [List.mem_singleton] at he
        subst he
        exact hb t rfl
  refine ⟨fun h => h.1, ?_, fun h => h.1, ?_, ?_, ?_, ?_, ?_⟩
  · intro s n x h hn hx
    obtain ⟨h1, h2⟩ := note h hx (by
      intro t ht hw ho
      simp only [SharedSplit.on] at ht
      rw [h.outdir, bagDir_eq hO, leadsTo_plain (hN _ hn), ← List.append_nil (O ++ [n])] at ht
      exact bound_mkdir hn hw (good hn) (by intro c hc; cases hc) ht)
    refine ⟨h1, n, hn, h2.trans ?_⟩
    simp only [SharedSplit.on]
    rw [h.outdir, bagDir_eq hO, leadsTo_plain (hN _ hn)]
  · rintro s p x hp ⟨h, n, hn, hc⟩ hx
    obtain ⟨h1, h2⟩ := note (c := s.cur) h hx (by
      intro t ht hw ho
      simp only [SharedSplit.on] at ht
      rw [hc, below_clean (good hn) hp] at ht
      exact bound_mkdir hn hw (good hn) hp ht)
    exact ⟨h1, n, hn, h2.trans hc⟩
  · rintro s p x hp ⟨h, n, hn, hc⟩ hx
    obtain ⟨h1, h2⟩ := note (c := s.cur) h hx (by
      intro t ht hw ho
      simp only [SharedSplit.on] at ht
      rw [hc, below_clean (good hn) hp] at ht
      exact bound_makedirs hn hw ho (good hn) hp ht)
    exact ⟨h1, n, hn, h2.trans hc⟩
  · rintro s p c x hp ⟨h, n, hn, hc⟩ hx
    obtain ⟨h1, h2⟩ := note (c := s.cur) h hx (by
      intro t ht hw ho
      simp only [SharedSplit.on] at ht
      rw [hc, below_clean (good hn) hp] at ht
      exact bound_write hn hw (good hn) hp ht)
    exact ⟨h1, n, hn, h2.trans hc⟩
  · rintro s p c x hp ⟨h, n, hn, hc⟩ hx
    obtain ⟨h1, h2⟩ := note (c := s.cur) h hx (by
      intro t ht hw ho
      simp only [SharedSplit.on] at ht
      rw [hc, below_clean (good hn) hp] at ht
      exact bound_write hn hw (good hn) hp ht)
    exact ⟨h1, n, hn, h2.trans hc⟩
  · rintro s p x hp ⟨h, n, hn, hc⟩ hx
    simp only [sharedFS, diskFS] at hx
    cases hr : (s.on (found s)).disk.read (below (s.on (found s)).src p) with
    | none => rw [hr] at hx; cases hx
    | some c =>
      rw [hr] at hx
      obtain ⟨h1, h2⟩ := note (c := s.cur) h hx (by
        intro t ht hw ho
        simp only [SharedSplit.on] at ht
        rw [hc, below_clean (good hn) hp] at ht
        exact bound_write hn hw (good hn) hp ht)
      exact ⟨h1, n, hn, h2.trans hc⟩

end Verif
