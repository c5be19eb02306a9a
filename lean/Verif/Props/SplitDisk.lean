import Verif.Spec.SplitDisk
import Verif.Lemmas.SplitDisk
import Verif.Props.Stopped
/-!
# C105: a split adds new bags to the output directory and changes nothing else
-/

namespace Verif
open Spec

theorem uses_clean {S : Source} (hS : AlgNames S) {contents : List Str} (hf : ∀ f ∈ contents, PlanEntry f) :
    Uses Clean S contents := by
  have one : ∀ {c : Str}, (c ≠ [] && !('/' ∈ c) && c ≠ ['.'] && c ≠ ['.', '.']) = true → Clean [c] := by
    intro c hc x hx
    rw [List.mem_singleton] at hx
    subst hx
    exact Sample.goodName_of_check hc
  refine ⟨⟨one (by decide), one (by decide), one (by decide), one (by decide)⟩, ?_, ?_, ?_, ?_⟩
  · rintro p (rfl | rfl | rfl)
    all_goals
      refine clean_append (a := [_]) (b := [_]) (one (by decide)) (one (by decide))
  · intro a ha
    exact (manPath_good _ a (.inl rfl) (hS.1 a ha)).2
  · intro f _ ah hah
    refine (manPath_good _ ah.1 ?_ (hS.2 f ah hah)).2
    unfold manType
    split
    · exact .inl rfl
    · exact .inr rfl
  · intro f hf'
    have := (planEntry_good (hf f hf')).1.2
    exact ⟨this, fun c hc => this c (List.dropLast_subset _ hc)⟩

theorem sameThing_of_dget {a b : Tree} {q : Path} (h : dget a q = dget b q) : SameThing a b q := by
  unfold SameThing Tree.exists Tree.read Tree.isdir
  rw [h]
  exact ⟨rfl, rfl, rfl⟩

theorem disk_kept {W : Tree} (hW : WfTree W) (src : Path) {outdir : Str} {O : Path} (hO : AbsPath outdir O) {S : Source}
    (hS : AlgNames S) (blen : Str → Nat) (o : ApplyOpts) {plan : List Manifest}
    (hf : ∀ m ∈ plan, ∀ f ∈ m.contents, PlanEntry f) (names : List Str) :
    DiskKept W src outdir O (fun n => some n ∈ chosenNames plan names)
      (applyRun diskFS S blen o plan names { disk := W, src := src, outdir := outdir }).2 :=
  keeps_applyRun (diskKeeps hW src hO (fun n => some n ∈ chosenNames plan names)) (fun m hm => uses_clean hS (hf m hm)) (fun _ h => h)
    ⟨hW, rfl, rfl, fun _ => .inl rfl, fun _ _ => rfl⟩

theorem kept_same {W : Tree} {src : Path} {outdir : Str} {O : Path} {M : Str → Prop} {d : SplitDisk} (K : DiskKept W src outdir O M d)
    (q : Path) (hq : W.exists q = true) : SameThing d.disk W q := by
  rcases K.same q with h | ⟨h, _⟩
  · exact sameThing_of_dget h
  · have : q = [] := by
      unfold Tree.exists at hq
      rw [h] at hq
      simpa using hq
    subst this
    refine sameThing_of_dget ?_
    rw [h]
    cases e : dget d.disk [] with
    | none => rfl
    | some x => exact absurd rfl (K.wf.good [] (by rw [mem_dkeys_iff, e]; exact ⟨_, rfl⟩)).1

/-- C105: whatever the outcome of a split, everything that existed before is as it was. -/
theorem C105_kept {W : Tree} (hW : WfTree W) (src : Path) {outdir : Str} {O : Path} (hO : AbsPath outdir O) {S : Source}
    (hS : AlgNames S) (blen : Str → Nat) (o : ApplyOpts) {plan : List Manifest}
    (hf : ∀ m ∈ plan, ∀ f ∈ m.contents, PlanEntry f) (names : List Str) (q : Path) (hq : W.exists q = true) :
    SameThing (applyRun diskFS S blen o plan names { disk := W, src := src, outdir := outdir }).2.disk W q :=
  kept_same (disk_kept hW src hO hS blen o hf names) q hq

/-- C105: and everything new is in one of the directories that the names of the output bags lead to from the output
directory. -/
theorem C105_new {W : Tree} (hW : WfTree W) (src : Path) {outdir : Str} {O : Path} (hO : AbsPath outdir O) {S : Source}
    (hS : AlgNames S) (blen : Str → Nat) (o : ApplyOpts) {plan : List Manifest}
    (hf : ∀ m ∈ plan, ∀ f ∈ m.contents, PlanEntry f) (names : List Str) (q : Path)
    (hq : (applyRun diskFS S blen o plan names { disk := W, src := src, outdir := outdir }).2.disk.exists q = true)
    (hn : W.exists q = false) : ∃ n, some n ∈ chosenNames plan names ∧ Inside (leadsTo O n) q := by
  rcases (disk_kept hW src hO hS blen o hf names).same q with h | ⟨_, h⟩
  · exfalso
    unfold Tree.exists at hq hn
    rw [h, hn] at hq
    cases hq
  · exact h

/-- C105: for bags named by plain file names those are directories in the output directory. -/
theorem C105_inside {W : Tree} (hW : WfTree W) (src : Path) {outdir : Str} {O : Path} (hO : AbsPath outdir O) {S : Source}
    (hS : AlgNames S) (blen : Str → Nat) (o : ApplyOpts) {plan : List Manifest}
    (hf : ∀ m ∈ plan, ∀ f ∈ m.contents, PlanEntry f) {names : List Str}
    (hplain : ∀ n, some n ∈ chosenNames plan names → GoodName n) (q : Path)
    (hq : (applyRun diskFS S blen o plan names { disk := W, src := src, outdir := outdir }).2.disk.exists q = true)
    (hn : W.exists q = false) : ∃ n, some n ∈ chosenNames plan names ∧ Inside (O ++ [n]) q := by
  obtain ⟨n, h1, h2⟩ := C105_new hW src hO hS blen o hf names q hq hn
  rw [leadsTo_plain (hplain n h1)] at h2
  exact ⟨n, h1, h2⟩

theorem dget_of_same {a b : Tree} {p q : Path} (hp : p ≠ []) (hq : q ≠ []) (h1 : a.read p = b.read q) (h2 : a.isdir p = b.isdir q) :
    dget a p = dget b q := by
  unfold Tree.isdir at h2
  unfold Tree.read at h1
  cases ha : dget a p with
  | none =>
    rw [ha] at h1 h2
    cases hb : dget b q with
    | none => rfl
    | some y => cases y <;> simp [hp, hq, hb] at h1 h2
  | some x =>
    rw [ha] at h1 h2
    cases x with
    | dir => simp [hp, hq] at h2; exact h2.symm
    | file c =>
      cases hb : dget b q with
      | none => rw [hb] at h1; cases h1
      | some y =>
        rw [hb] at h1
        cases y with
        | dir => cases h1
        | file c' => cases h1; rfl

theorem bagAt_iff {disk : Tree} {dir : Path} {t : Tree} : BagAt disk dir t ↔ disk.isdir dir = true ∧ HoldsAt disk dir t := by
  constructor
  · intro h
    exact ⟨h.isdir, fun p hp => dget_of_same (by simp [hp]) hp (h.files p hp) (h.dirs p hp)⟩
  · rintro ⟨h1, h2⟩
    refine ⟨h1, fun p hp => ?_, fun p hp => ?_⟩
    · unfold Tree.read; rw [h2 p hp]
    · unfold Tree.isdir; rw [h2 p hp]; simp [hp]

theorem disk_made {W : Tree} (hW : WfTree W) {src : Path} (hsrc : GoodPath src) {outdir : Str} {O : Path} (hO : AbsPath outdir O)
    (hOd : W.isdir O = true) {S : Source} (hS : AlgNames S) (hroot : WfTree S.tree) (hbag : BagAt W src S.tree) (hapart : ¬ Inside src O)
    {blen : Str → Nat} {o : ApplyOpts} {plan : List Manifest} (hf : ∀ m ∈ plan, ∀ f ∈ m.contents, PlanEntry f) {names : List Str}
    (hfree : ∀ n, some n ∈ chosenNames plan names → GoodName n ∧ W.exists (O ++ [n]) = false) {c : CopyDisk}
    (h : applyPlan copyFS S blen o plan names { src := S.tree } = .ok c) :
    ∃ w, applyRun diskFS S blen o plan names { disk := W, src := src, outdir := outdir } = (.ok (), w) ∧
      BagAt w.disk src S.tree ∧ ∀ e ∈ c.done, w.disk.isdir (O ++ [e.1]) = true ∧ w.disk.below (O ++ [e.1]) = e.2 := by
  have hnil : dget S.tree [] = none := by
    cases e : dget S.tree [] with
    | none => rfl
    | some x => exact absurd rfl (hroot.good [] (by rw [mem_dkeys_iff, e]; exact ⟨_, rfl⟩)).1
  have hsim : DiskSim (fun n => some n ∈ chosenNames plan names) src outdir O { src := S.tree }
      { disk := W, src := src, outdir := outdir } :=
    { wf := hW, srcdir := rfl, outdir := rfl, clean := hsrc.2, apart := hapart, source := bagAt_iff.1 hbag, out := hOd
      taken := by
        intro n hn
        have := (hfree n hn).2
        unfold Tree.exists at this
        simp only [Bool.or_eq_false_iff] at this
        rw [this.2]
        simp
      done := by intro e he; cases he }
  have hrun := applyPlan_run diskFS S blen o plan names { disk := W, src := src, outdir := outdir }
  unfold applyPlan at h hrun
  unfold applyRun at hrun ⊢
  cases hi : initialIndex S with
  | error e => rw [hi] at h; cases h
  | ok mi =>
    rw [hi] at h hrun
    simp only at h hrun ⊢
    obtain ⟨w, h1, h2⟩ := sim_applyLoop (disk_simulates (fun n hn => (hfree n hn).1) hO) ⟨hsim, hnil, rfl⟩
      (fun m hm => uses_clean hS (hf m hm)) hf (by intro h; cases h) (fun _ hn => hn) h
    have hc := C41_copy_source_unchanged (S := S) (d := { src := S.tree }) rfl hf hS.2 (show applyPlan copyFS S blen o plan names { src := S.tree } = .ok c by
      unfold applyPlan; rw [hi]; exact h)
    rw [h1] at hrun
    cases hr : applyLoopRun diskFS S blen o plan names mi.1 mi.2 { disk := W, src := src, outdir := outdir } with
    | mk r w' =>
      rw [hr] at hrun
      cases r with
      | error e => cases hrun
      | ok u =>
        cases hrun
        refine ⟨w, rfl, bagAt_iff.2 ?_, fun e he => (h2.1.done e he).2⟩
        have := h2.1.source
        rw [hc] at this
        exact this

/-- C105: the bags that a split is to make (see C36 to C42) are put into the output directory under their names, and the
source is as it was, if the names are not yet in use there and the output directory is not in the source bag. -/
theorem C105_made {W : Tree} (hW : WfTree W) {src : Path} (hsrc : GoodPath src) {outdir : Str} {O : Path} (hO : AbsPath outdir O)
    (hOd : W.isdir O = true) {S : Source} (hS : AlgNames S) (hroot : WfTree S.tree) (hbag : BagAt W src S.tree) (hapart : ¬ Inside src O)
    {blen : Str → Nat} {o : ApplyOpts} {plan : List Manifest} (hf : ∀ m ∈ plan, ∀ f ∈ m.contents, PlanEntry f) {names : List Str}
    (hfree : ∀ n, some n ∈ chosenNames plan names → GoodName n ∧ W.exists (O ++ [n]) = false) {c : CopyDisk}
    (h : applyPlan copyFS S blen o plan names { src := S.tree } = .ok c) :
    ∃ w, applyRun diskFS S blen o plan names { disk := W, src := src, outdir := outdir } = (.ok (), w) ∧
      BagAt w.disk src S.tree ∧ ∀ e ∈ c.done, BagAt w.disk (O ++ [e.1]) e.2 := by
  obtain ⟨w, h1, h2, h3⟩ := disk_made hW hsrc hO hOd hS hroot hbag hapart hf hfree h
  exact ⟨w, h1, h2, fun e he => bagAt_iff.2 ⟨(h3 e he).1, holds_below (h3 e he).2⟩⟩

theorem chosenNames_getElem (plan : List Manifest) (names : List Str) (i : Nat) (m : Manifest) (h : plan[i]? = some m) :
    (chosenNames plan names)[i]? = some ((names[i]?).or m.name) := by
  induction plan generalizing names i with
  | nil => cases h
  | cons x plan ih =>
    cases i with
    | zero =>
      cases h
      cases names <;> rfl
    | succ i =>
      have := ih names.tail i (by simpa using h)
      rw [chosenNames, List.getElem?_cons_succ, this]
      cases names <;> rfl

/-- C105: so an ordinary bag is split in any file system, if there is a plain and unused name for each output bag. -/
theorem C105_succeeds {W : Tree} (hW : WfTree W) {src : Path} (hsrc : GoodPath src) {outdir : Str} {O : Path} (hO : AbsPath outdir O)
    (hOd : W.isdir O = true) {S : Source} (ord : Ordinary S) (hnh : py!"Multibag-Head-Version" ∉ dkeys S.info)
    (hbag : BagAt W src S.tree) (hapart : ¬ Inside src O) (blen : Str → Nat) (o : ApplyOpts) {plan : List Manifest}
    (hf : ∀ m ∈ plan, ∀ f ∈ m.contents, PlanEntry f) {names : List Str} {ns : List Str} (hns : chosenNames plan names = ns.map some)
    (hnd : ns.Nodup) (hfree : ∀ n ∈ ns, GoodName n ∧ W.exists (O ++ [n]) = false) :
    ∃ w, applyRun diskFS S blen o plan names { disk := W, src := src, outdir := outdir } = (.ok (), w) ∧ BagAt w.disk src S.tree ∧
      ∀ i m n, plan[i]? = some m → ns[i]? = some n →
        ∃ t, BagAt w.disk (O ++ [n]) t ∧ SplitBag S.tree m.contents (decide (i + 1 = plan.length)) t := by
  obtain ⟨c, hc⟩ := C36_succeeds ord hnh (blen := blen) (o := o) (names := names) (d := { src := S.tree }) rfl hf hns hnd
    (by intro n _ h; cases h)
  have hfree' : ∀ n, some n ∈ chosenNames plan names → GoodName n ∧ W.exists (O ++ [n]) = false := by
    intro n hn
    rw [hns] at hn
    obtain ⟨m, hm, e⟩ := List.mem_map.1 hn
    cases e
    exact hfree n hm
  obtain ⟨w, h1, h2, h3⟩ := C105_made hW hsrc hO hOd ⟨ord.algs, ord.hashes⟩ ord.wf hbag hapart hf hfree' hc
  obtain ⟨bags, k1, k2, _, _, k3⟩ := C36_contents (d := { src := S.tree }) rfl hf ord.algs ord.hashes hc
  refine ⟨w, h1, h2, fun i m n hm hn => ?_⟩
  have hi : i < bags.length := by
    rw [k2]
    exact (List.getElem?_eq_some_iff.1 hm).1
  obtain ⟨e1, e2⟩ := k3 i m bags[i].1 bags[i].2 hm (List.getElem?_eq_getElem hi)
  have hch := chosenNames_getElem plan names i m hm
  rw [hns, List.getElem?_map, hn, e1] at hch
  cases hch
  exact ⟨bags[i].2, h3 bags[i] (by rw [k1]; exact List.mem_append_right _ (List.getElem_mem hi)), e2⟩

/-! ## Names in use -/

section
variable {σ : Type} {fs : OutFS σ} {B I : σ → Prop} {N : Str → Prop} {A : Path → Prop}

theorem made_startBag {S : Source} {n : Str} {d : σ} (h : (startBagRun fs S n d).1 = .ok ()) : ∃ x, fs.newBag d n = .ok x := by
  simp only [startBagRun] at h
  cases h1 : fs.newBag d n with
  | error e => rw [h1] at h; cases h
  | ok x => exact ⟨x, rfl⟩

theorem made_applyLoop (K : Keeps fs B I N A) {S : Source} {blen : Str → Nat} {o : ApplyOpts} {plan : List Manifest}
    (u : ∀ m ∈ plan, Uses A S m.contents) {names members : List Str} (hN : ∀ n, some n ∈ chosenNames plan names → N n)
    {dest : List (Str × Str)} {d : σ} (h : B d) (hok : (applyLoopRun fs S blen o plan names members dest d).1 = .ok ()) :
    ∀ n, some n ∈ chosenNames plan names → ∃ d x, B d ∧ fs.newBag d n = .ok x := by
  induction plan generalizing names members dest d with
  | nil => intro n hn; cases hn
  | cons m rest ih =>
    simp only [applyLoopRun] at hok
    cases hn : names.head?.or m.name with
    | none => rw [hn] at hok; cases hok
    | some b =>
      rw [hn] at hok
      simp only at hok
      have h1 := keeps_writeBag K (S := S) (blen := blen) (o := o) (n := b)
        (hN b (by rw [chosenNames, hn]; exact List.mem_cons_self ..)) (u m (List.mem_cons_self ..)) (ishead := rest.isEmpty)
        (members := moveToEnd members b) (dest := dest) h
      cases hw : writeBagRun fs S blen o b m.contents rest.isEmpty (moveToEnd members b) dest d with
      | mk r d1 =>
        rw [hw] at h1 hok
        cases r with
        | error e => cases hok
        | ok dest' =>
          simp only at hok
          intro n hmem
          rw [chosenNames, hn] at hmem
          rcases List.mem_cons.1 hmem with e | hmem
          · injection e with e
            subst e
            have hs : (startBagRun fs S n d).1 = .ok () := by
              simp only [writeBagRun] at hw
              cases hs : startBagRun fs S n d with
              | mk r d2 =>
                rw [hs] at hw
                cases r with
                | error e => cases hw
                | ok u => rfl
            obtain ⟨x, hx⟩ := made_startBag hs
            exact ⟨d, x, h, hx⟩
          · exact ih (fun m' hm' => u m' (List.mem_cons_of_mem _ hm'))
              (fun n' hn' => hN n' (by rw [chosenNames]; exact List.mem_cons_of_mem _ hn')) h1 hok n hmem
end

/-- C105: if something exists already where one of the bags is to be made, the split raises an exception. -/
theorem C105_in_use {W : Tree} (hW : WfTree W) (src : Path) {outdir : Str} {O : Path} (hO : AbsPath outdir O) {S : Source}
    (hS : AlgNames S) (blen : Str → Nat) (o : ApplyOpts) {plan : List Manifest}
    (hf : ∀ m ∈ plan, ∀ f ∈ m.contents, PlanEntry f) {names : List Str} {n : Str} (hn : some n ∈ chosenNames plan names)
    (hex : W.exists (leadsTo O n) = true) :
    ∃ e, (applyRun diskFS S blen o plan names { disk := W, src := src, outdir := outdir }).1 = .error e := by
  cases hr : (applyRun diskFS S blen o plan names { disk := W, src := src, outdir := outdir }).1 with
  | error e => exact ⟨e, rfl⟩
  | ok u =>
    exfalso
    unfold applyRun at hr
    cases hi : initialIndex S with
    | error e => rw [hi] at hr; cases hr
    | ok mi =>
      rw [hi] at hr
      obtain ⟨d, x, hB, hx⟩ := made_applyLoop (diskKeeps hW src hO (fun n => some n ∈ chosenNames plan names))
        (fun m hm => uses_clean hS (hf m hm)) (fun _ h => h) ⟨hW, rfl, rfl, fun _ => .inl rfl, fun _ _ => rfl⟩ hr n hn
      simp only [diskFS, SplitDisk.lift] at hx
      rw [hB.outdir, bagDir_eq hO] at hx
      cases hm : d.disk.mkdir (leadsTo O n) with
      | error e => rw [hm] at hx; cases hx
      | ok t =>
        obtain ⟨_, h1, _⟩ := Tree.mkdir_ok hm
        unfold Tree.exists at h1 hex
        simp only [Bool.or_eq_false_iff, decide_eq_false_iff_not] at h1
        rcases hB.same (leadsTo O n) with h2 | ⟨h2, _⟩
        · rw [← h2, h1.2] at hex
          simp [h1.1] at hex
        · rw [h2] at hex
          simp [h1.1] at hex

/-! ## A split that fails (C100) -/

theorem copyKeeps (d0 : CopyDisk) : Keeps copyFS (Grew d0) (Grew d0) (fun _ => True) (fun _ => True) where
  weaken h := h
  newBag h _ hx := copy_respects.trans h (copy_respects.newBag hx)
  finish h := copy_respects.trans h copy_respects.finish
  mkdir _ h hx := copy_respects.trans h (copy_respects.mkdir hx)
  makedirs _ h hx := copy_respects.trans h (copy_respects.makedirs hx)
  write _ h hx := copy_respects.trans h (copy_respects.write hx)
  append _ h hx := copy_respects.trans h (copy_respects.append hx)
  replicate _ h hx := copy_respects.trans h (copy_respects.replicate hx)

/-- C100 for a split that copies and raises an exception: the source is as it was, and the bags made before are still there. -/
theorem C100_failed (S : Source) (blen : Str → Nat) (o : ApplyOpts) (plan : List Manifest) (names : List Str) (d : CopyDisk) :
    (applyRun copyFS S blen o plan names d).2.src = d.src ∧ d.done <+: (applyRun copyFS S blen o plan names d).2.done := by
  have := keeps_applyRun (copyKeeps d) (S := S) (blen := blen) (o := o) (plan := plan) (fun _ _ => uses_all ..) (names := names)
    (fun _ _ => trivial) (copy_respects.refl d)
  exact ⟨this.1.symm, this.2.1⟩

/-! ## Samples and negations -/

namespace Sample

theorem holdsAt_map {dir : Path} {t rest : Tree} (h : ∀ e ∈ rest, ¬ (dir <+: e.1 ∧ dir ≠ e.1)) :
    HoldsAt (rest ++ t.map (fun e => (dir ++ e.1, e.2))) dir t := by
  intro p hp
  induction rest with
  | nil =>
    induction t with
    | nil => rfl
    | cons e t ih =>
      have := ih
      simp only [List.nil_append, List.map_cons] at this ⊢
      obtain ⟨k, v⟩ := e
      simp only [dget]
      by_cases hk : k = p
      · subst hk; simp
      · rw [if_neg hk, if_neg (by simpa using hk)]
        exact this
  | cons e rest ih =>
    obtain ⟨k, v⟩ := e
    simp only [List.cons_append, dget]
    rw [if_neg ?_]
    · exact ih (fun e he => h e (List.mem_cons_of_mem _ he))
    · rintro rfl
      exact h _ (List.mem_cons_self ..) ⟨⟨p, rfl⟩, by simpa using hp⟩

/-- A file system with that bag, an output directory that is not empty, and another file. -/
def splitWorld : Tree :=
  [([py!"w"], .dir), ([py!"w", py!"note"], .file py!"n"), ([py!"w", py!"out"], .dir), ([py!"w", py!"out", py!"old"], .file py!"o"),
   ([py!"w", py!"src"], .dir)] ++ splitTree.map (fun e => ([py!"w", py!"src"] ++ e.1, e.2))

theorem splitWorldWf : WfTree splitWorld := wf_of_check (by decide)

theorem splitWorldBag : BagAt splitWorld [py!"w", py!"src"] splitSource.tree :=
  bagAt_iff.2 ⟨by decide, holdsAt_map (by decide)⟩

theorem splitOut : AbsPath py!"/w/out" [py!"w", py!"out"] := by
  refine ⟨⟨by simp, ?_⟩, rfl⟩
  intro c hc
  simp at hc
  rcases hc with rfl | rfl <;> exact goodName_of_check (by decide)

/-- Where that split starts. -/
def splitStart (outdir : Str) : SplitDisk := { disk := splitWorld, src := [py!"w", py!"src"], outdir := outdir }

end Sample

/-- A sample split in a file system: it meets the hypotheses of C105 and makes its bags beside what was there. -/
example : WfTree Sample.splitWorld ∧ AbsPath py!"/w/out" [py!"w", py!"out"] ∧ AlgNames Sample.splitSource ∧ Ordinary Sample.splitSource ∧
    (∀ m ∈ Sample.splitPlan, ∀ f ∈ m.contents, PlanEntry f) ∧
    BagAt Sample.splitWorld [py!"w", py!"src"] Sample.splitSource.tree ∧
    ∃ w, applyRun diskFS Sample.splitSource List.length {} Sample.splitPlan [py!"b1", py!"b2"] (Sample.splitStart py!"/w/out") = (.ok (), w) ∧
      BagAt w.disk [py!"w", py!"src"] Sample.splitSource.tree ∧ w.disk.read [py!"w", py!"out", py!"old"] = some py!"o" ∧
      ∃ t, BagAt w.disk [py!"w", py!"out", py!"b1"] t ∧ SplitBag Sample.splitTree [py!"data/a", py!"about.txt"] false t := by
  refine ⟨Sample.splitWorldWf, Sample.splitOut, ⟨Sample.splitOrdinary.algs, Sample.splitOrdinary.hashes⟩, Sample.splitOrdinary,
    Sample.splitEntries, Sample.splitWorldBag, ?_⟩
  obtain ⟨w, h1, h2, h3⟩ := C105_succeeds Sample.splitWorldWf (src := [py!"w", py!"src"]) ⟨by simp, by
    intro c hc
    simp at hc
    rcases hc with rfl | rfl <;> exact Sample.goodName_of_check (by decide)⟩ Sample.splitOut (by decide) Sample.splitOrdinary (by decide)
    Sample.splitWorldBag (by decide) List.length {} Sample.splitEntries (names := [py!"b1", py!"b2"]) (ns := [py!"b1", py!"b2"]) rfl
    (by decide) (by
      intro n hn
      simp at hn
      rcases hn with rfl | rfl <;> exact ⟨Sample.goodName_of_check (by decide), by decide⟩)
  refine ⟨w, h1, h2, ?_, h3 0 _ _ rfl rfl⟩
  have := C105_kept Sample.splitWorldWf [py!"w", py!"src"] Sample.splitOut ⟨Sample.splitOrdinary.algs, Sample.splitOrdinary.hashes⟩
    List.length {} Sample.splitEntries [py!"b1", py!"b2"] [py!"w", py!"out", py!"old"] (by decide)
  rw [show applyRun diskFS _ _ _ _ _ _ = _ from h1] at this
  rw [this.2.1]
  decide

/-- A sample split that fails, as its second name is in use: its first bag is left, and it is complete. -/
example : some py!"old" ∈ chosenNames Sample.splitPlan [py!"b1", py!"old"] ∧
    Sample.splitWorld.exists (leadsTo [py!"w", py!"out"] py!"old") = true ∧
    ∃ w, applyRun diskFS Sample.splitSource List.length {} Sample.splitPlan [py!"b1", py!"old"] (Sample.splitStart py!"/w/out") =
        (.error .osError, w) ∧
      w.disk.isfile [py!"w", py!"out", py!"b1", py!"bag-info.txt"] = true ∧ w.disk.read [py!"w", py!"out", py!"old"] = some py!"o" :=
  ⟨by decide, by decide, _, rfl, by decide +kernel, by decide +kernel⟩

/-- C105 for any names would be false: with a name such as `../x` the bag is made outside of the output directory. -/
theorem C105_negation_outside : ∃ w q,
    applyRun diskFS Sample.splitSource List.length {} [{ contents := [py!"data/a"] }] [py!"../x"] (Sample.splitStart py!"/w/out") = (.ok (), w) ∧
    w.disk.exists q = true ∧ Sample.splitWorld.exists q = false ∧ ¬ Inside [py!"w", py!"out"] q :=
  ⟨_, [py!"w", py!"x", py!"data", py!"a"], rfl, by decide +kernel, by decide, by decide⟩

/-- C105 for any output directory would be false of the source: with an output directory in the source bag's payload
the split succeeds, and the source bag has a file it did not have. -/
theorem C105_negation_in_source : ∃ w,
    applyRun diskFS Sample.splitSource List.length {} Sample.splitPlan [py!"b1", py!"b2"] (Sample.splitStart py!"/w/src/data") = (.ok (), w) ∧
    w.disk.isfile [py!"w", py!"src", py!"data", py!"b1", py!"bagit.txt"] = true ∧
    ¬ BagAt w.disk [py!"w", py!"src"] Sample.splitSource.tree := by
  refine ⟨_, rfl, by decide +kernel, fun h => ?_⟩
  have := h.files [py!"data", py!"b1", py!"bagit.txt"] (by simp)
  revert this
  decide +kernel

end Verif
