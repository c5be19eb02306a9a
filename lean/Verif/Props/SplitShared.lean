import Verif.Lemmas.SplitShared
/-!
# C108: splits that run at the same time do not disturb each other
-/

namespace Verif
open Spec

theorem ready_chosen {W : Tree} {j : SplitJob} {O : Path} {ns : List Str} (h : ReadyToSplit W j O ns) {n : Str} :
    some n ∈ chosenNames j.plan j.names ↔ n ∈ ns := by
  rw [h.names, List.mem_map]
  constructor
  · rintro ⟨m, hm, e⟩
    cases e
    exact hm
  · exact fun hn => ⟨n, hn, rfl⟩

theorem ready_plan {W : Tree} {j : SplitJob} {O : Path} {ns : List Str} (h : ReadyToSplit W j O ns) :
    ∃ c, applyPlan copyFS j.source j.blen j.opts j.plan j.names { src := j.source.tree } = .ok c ∧
      ∀ k m n, j.plan[k]? = some m → ns[k]? = some n →
        ∃ t, (n, t) ∈ c.done ∧ SplitBag j.source.tree m.contents (decide (k + 1 = j.plan.length)) t := by
  obtain ⟨c, hc⟩ := C36_succeeds h.ordinary h.single (blen := j.blen) (o := j.opts) (names := j.names)
    (d := { src := j.source.tree }) rfl h.entries h.names h.nodup (by intro n _ h; cases h)
  refine ⟨c, hc, fun k m n hm hn => ?_⟩
  obtain ⟨bags, k1, k2, _, _, k3⟩ := C36_contents (d := { src := j.source.tree }) rfl h.entries h.ordinary.algs h.ordinary.hashes hc
  have hi : k < bags.length := by
    rw [k2]
    exact (List.getElem?_eq_some_iff.1 hm).1
  obtain ⟨e1, e2⟩ := k3 k m bags[k].1 bags[k].2 hm (List.getElem?_eq_getElem hi)
  have hch := chosenNames_getElem j.plan j.names k m hm
  rw [h.names, List.getElem?_map, hn, e1] at hch
  cases hch
  exact ⟨bags[k].2, by rw [k1]; exact List.mem_append_right _ (List.getElem_mem hi), e2⟩

theorem shared_made {W : Tree} (hW : WfTree W) {j : SplitJob} {O : Path} {ns : List Str} (hj : ReadyToSplit W j O ns)
    {seen : Nat → Tree} (hm : Meanwhile (QuietAt j.src O (· ∈ ns)) W (j.steps seen)) {c : CopyDisk}
    (h : applyPlan copyFS j.source j.blen j.opts j.plan j.names { src := j.source.tree } = .ok c) :
    ∃ s, j.run seen = (.ok (), s) ∧ BagAt (lastLeft W (j.steps seen)) j.src j.source.tree ∧
      ∀ e ∈ c.done, e.1 ∈ ns ∧ (lastLeft W (j.steps seen)).isdir (O ++ [e.1]) = true ∧ (lastLeft W (j.steps seen)).below (O ++ [e.1]) = e.2 := by
  have hag := agree_applyRun (shared_agrees (QuietAt j.src O (· ∈ ns)) W seen) j.source j.blen j.opts j.plan j.names
    { src := j.src, outdir := j.outdir } (fun hd => hd hm)
  have hnil : dget j.source.tree [] = none := by
    cases e : dget j.source.tree [] with
    | none => rfl
    | some x => exact absurd rfl (hj.ordinary.wf.good [] (by rw [mem_dkeys_iff, e]; exact ⟨_, rfl⟩)).1
  have hsim : DiskSim (· ∈ ns) j.src j.outdir O { src := j.source.tree } { disk := W, src := j.src, outdir := j.outdir } :=
    { wf := hW, srcdir := rfl, outdir := rfl, clean := hj.src.2, apart := hj.apart, source := bagAt_iff.1 hj.bag, out := hj.isdir
      taken := by
        intro n hn
        have := (hj.free n hn).2
        unfold Tree.exists at this
        simp only [Bool.or_eq_false_iff] at this
        rw [this.2]
        simp
      done := by intro e he; cases he }
  have H := shared_simulates (W := W) (found := calm (QuietAt j.src O (· ∈ ns)) W seen) (src := j.src) (N := (· ∈ ns))
    (fun n hn => (hj.free n hn).1) hj.outdir (by
      intro s h1 h2
      unfold calm
      split
      · assumption
      · exact QuietAt.refl h1 h2)
  have hrun := applyPlan_run (sharedFS (calm (QuietAt j.src O (· ∈ ns)) W seen)) j.source j.blen j.opts j.plan j.names
    { src := j.src, outdir := j.outdir }
  have hc := C41_copy_source_unchanged (S := j.source) (d := { src := j.source.tree }) rfl hj.entries hj.ordinary.hashes h
  rw [hag] at hrun
  have key : ∃ s, applyPlan (sharedFS (calm (QuietAt j.src O (· ∈ ns)) W seen)) j.source j.blen j.opts j.plan j.names
      { src := j.src, outdir := j.outdir } = .ok s ∧
      (DiskSim (· ∈ ns) j.src j.outdir O c (s.on (lastLeft W s.log)) ∧ Rootless c) ∧ DoneIn (· ∈ ns) c := by
    unfold applyPlan at h ⊢
    cases hi : initialIndex j.source with
    | error e => rw [hi] at h; cases h
    | ok mi =>
      rw [hi] at h
      exact sim_applyLoop H (c := { src := j.source.tree }) (l := { src := j.src, outdir := j.outdir })
        ⟨⟨hsim, hnil, rfl⟩, by intro e he; cases he⟩ (fun m hm => uses_clean ⟨hj.ordinary.algs, hj.ordinary.hashes⟩ (hj.entries m hm))
        hj.entries (by intro h; cases h) (fun n hn => (ready_chosen hj).1 hn) h
  obtain ⟨s, h1, ⟨h2, _⟩, h3⟩ := key
  rw [h1] at hrun
  have hjr : j.run seen = (.ok (), s) := by
    cases hr : applyRun (sharedFS fun s => seen s.log.length) j.source j.blen j.opts j.plan j.names
        { src := j.src, outdir := j.outdir } with
    | mk r w =>
      rw [hr] at hrun
      cases r with
      | error e => cases hrun
      | ok u => cases hrun; exact hr
  have hst : j.steps seen = s.log ++ [(seen s.log.length, seen s.log.length)] := by
    unfold SplitJob.steps
    rw [hjr]
  rw [hst] at hm ⊢
  rw [lastLeft_snoc]
  have hq := (meanwhile_append.1 hm).2.1
  have h4 := h2.quiet hq h3
  refine ⟨s, hjr, bagAt_iff.2 ?_, fun e he => ⟨h3 e he, (h4.done e he).2⟩⟩
  have := h4.source
  rw [hc] at this
  exact this

/-- C108: a split succeeds and makes the bags it is to make, whatever other processes do to the file system between its
operations, as long as they leave its output directory, its source, and the places of its new bags alone. -/
theorem C108_undisturbed {W : Tree} (hW : WfTree W) {j : SplitJob} {O : Path} {ns : List Str} (hj : ReadyToSplit W j O ns)
    {seen : Nat → Tree} (hm : Meanwhile (Elsewhere j.src O ns) W (j.steps seen)) :
    (j.run seen).1 = .ok () ∧ ∃ found left, (j.steps seen).getLast? = some (found, left) ∧ BagAt left j.src j.source.tree ∧
      ∀ k m n, j.plan[k]? = some m → ns[k]? = some n →
        ∃ t, BagAt left (O ++ [n]) t ∧ SplitBag j.source.tree m.contents (decide (k + 1 = j.plan.length)) t := by
  obtain ⟨c, h1, h2⟩ := ready_plan hj
  obtain ⟨s, h3, h4, h5⟩ := shared_made hW hj (meanwhile_mono (fun _ _ => quiet_of_elsewhere hj.src.1) hm) h1
  have hl : (j.steps seen).getLast? = some (seen s.log.length, seen s.log.length) := by
    unfold SplitJob.steps
    rw [h3]
    simp
  have hll : lastLeft W (j.steps seen) = seen s.log.length := by
    unfold lastLeft
    rw [hl]
    rfl
  rw [hll] at h4 h5
  refine ⟨by rw [h3], _, _, hl, h4, fun k m n hm hn => ?_⟩
  obtain ⟨t, h6, h7⟩ := h2 k m n hm hn
  obtain ⟨_, h8, h9⟩ := h5 _ h6
  exact ⟨t, bagAt_iff.2 ⟨h8, holds_below h9⟩, h7⟩

theorem shared_bound {j : SplitJob} {O : Path} (hO : AbsPath j.outdir O) (hS : AlgNames j.source)
    (hf : ∀ m ∈ j.plan, ∀ f ∈ m.contents, PlanEntry f) {N : Str → Prop} (hN : ∀ n, N n → GoodName n)
    (hc : ∀ n, some n ∈ chosenNames j.plan j.names → N n) (seen : Nat → Tree) :
    ∀ e ∈ j.steps seen, WfTree e.1 → e.1.isdir O = true → Bound O N e.1 e.2 := by
  have := keeps_applyRun (boundKeeps (found := fun s => seen s.log.length) hN hO) (S := j.source) (blen := j.blen) (o := j.opts)
    (plan := j.plan) (names := j.names) (fun m hm => uses_clean hS (hf m hm)) hc (d := { src := j.src, outdir := j.outdir })
    ⟨rfl, by intro e he; cases he⟩
  intro e he
  unfold SplitJob.steps at he
  rcases List.mem_append.1 he with he | he
  · exact this.log e he
  · rw [List.mem_singleton] at he
    subst he
    exact fun hw _ => Bound.refl hw

/-- C108: each operation of a split changes nothing but what is at the places of its new bags, whatever it finds and
whatever the outcome, as long as the output directory is there. -/
theorem C108_confined {j : SplitJob} {O : Path} (hO : AbsPath j.outdir O) (hS : AlgNames j.source)
    (hf : ∀ m ∈ j.plan, ∀ f ∈ m.contents, PlanEntry f) {ns : List Str} (hn : ∀ n ∈ ns, GoodName n)
    (hc : ∀ n, some n ∈ chosenNames j.plan j.names → n ∈ ns) (seen : Nat → Tree) :
    ∀ e ∈ j.steps seen, WfTree e.1 → e.1.isdir O = true → Confined O ns e.1 e.2 := by
  intro e he hw ho
  have := shared_bound hO hS hf (N := (· ∈ ns)) hn hc seen e he hw ho
  exact ⟨this.wf, fun q hq => sameThing_of_dget (this.same q hq), fun d hd => this.order d hd⟩

/-! ## Several splits -/

section
variable {ι : Type} [DecidableEq ι] {W : Tree} {jobs : ι → SplitJob} {O : ι → Path} {ns : ι → List Str}

/-- What the places of the new bags have to do with the rest. -/
structure BagPlaces (jobs : ι → SplitJob) (O : ι → Path) (ns : ι → List Str) : Prop where
  src : ∀ i j, ∀ n ∈ ns j, ¬ (O j ++ [n]) <+: (jobs i).src ∧ ¬ (jobs i).src <+: O j ++ [n]
  out : ∀ i j, ∀ n ∈ ns j, ¬ (O j ++ [n]) <+: O i
  bags : ∀ i j, i ≠ j → ∀ m ∈ ns i, ∀ n ∈ ns j, ¬ (O j ++ [n]) <+: O i ++ [m]

theorem not_below_free {t : Tree} (hw : WfTree t) {p q : Path} (hp : p ≠ []) (hf : t.exists p = false) (hq : t.isdir q = true) : ¬ p <+: q := by
  intro h
  have := prefix_dir hw hq h
  rw [isdir_iff] at this
  unfold Tree.exists at hf
  rcases this with h1 | h1
  · exact hp h1
  · rw [h1] at hf; simp at hf

theorem bagPlaces (hW : WfTree W) (hr : ∀ i, ReadyToSplit W (jobs i) (O i) (ns i)) (hsrc : ∀ i j, ¬ Inside (jobs i).src (O j))
    (hdis : ∀ i j, i ≠ j → ∀ m ∈ ns i, ∀ n ∈ ns j, O i ++ [m] ≠ O j ++ [n]) : BagPlaces jobs O ns := by
  refine ⟨fun i j n hn => ?_, fun i j n hn => ?_, fun i j hij m hm n hn h => ?_⟩
  · have h1 := not_below_free hW (p := O j ++ [n]) (by simp) ((hr j).free n hn).2 (hr i).bag.isdir
    refine ⟨h1, fun h => ?_⟩
    rcases prefix_snoc h with h | h
    · exact hsrc i j h
    · exact h1 (h ▸ List.prefix_refl _)
  · exact not_below_free hW (by simp) ((hr j).free n hn).2 (hr i).isdir
  · rcases prefix_snoc h with h | h
    · exact not_below_free hW (by simp) ((hr j).free n hn).2 (hr i).isdir h
    · exact hdis i j hij m hm n hn h.symm

theorem bound_isdir (P : BagPlaces jobs O ns) {t t' : Tree} {j : ι} (h : Bound (O j) (· ∈ ns j) t t') (i : ι) :
    t'.isdir (O i) = t.isdir (O i) := by
  unfold Tree.isdir
  rw [h.same (O i) (fun n hn => P.out i j n hn)]

theorem bound_quiet (P : BagPlaces jobs O ns) {t t' : Tree} {i j : ι} (hij : i ≠ j) (h : Bound (O j) (· ∈ ns j) t t')
    (ho : t.isdir (O i) = true) : QuietAt (jobs i).src (O i) (· ∈ ns i) t t' := by
  have other : ∀ m ∈ ns i, ∀ n ∈ ns j, ¬ (O j ++ [n]) <+: O i ++ [m] ∧ ¬ (O i ++ [m]) <+: O j ++ [n] :=
    fun m hm n hn => ⟨P.bags i j hij m hm n hn, P.bags j i (fun e => hij e.symm) n hn m hm⟩
  exact ⟨h.wf, (bound_isdir P h i).trans ho, ⟨h.same _ (fun n hn => (P.src i j n hn).1), h.order _ (fun n hn => P.src i j n hn)⟩,
    fun m hm => ⟨h.same _ (fun n hn => (other m hm n hn).1), h.order _ (fun n hn => other m hm n hn)⟩⟩

theorem opsOf_cons (s : ι × Tree × Tree) (L : List (ι × Tree × Tree)) (i : ι) :
    opsOf (s :: L) i = if s.1 = i then s.2 :: opsOf L i else opsOf L i := by
  unfold opsOf
  rw [List.filter_cons]
  by_cases h : s.1 = i <;> simp [h]

theorem together_quiet (P : BagPlaces jobs O ns) {L : List (ι × Tree × Tree)}
    (hB : ∀ s ∈ L, WfTree s.2.1 → s.2.1.isdir (O s.1) = true → Bound (O s.1) (· ∈ ns s.1) s.2.1 s.2.2) {t : Tree}
    (hch : Chained t L) (hw : WfTree t) (ho : ∀ i, t.isdir (O i) = true) (i : ι) {prev : Tree}
    (hq : QuietAt (jobs i).src (O i) (· ∈ ns i) prev t) :
    Meanwhile (QuietAt (jobs i).src (O i) (· ∈ ns i)) prev (opsOf L i) ∧
      QuietAt (jobs i).src (O i) (· ∈ ns i) (lastLeft prev (opsOf L i)) (lastDisk t L) := by
  induction L generalizing t prev with
  | nil => exact ⟨trivial, hq⟩
  | cons s L ih =>
    obtain ⟨e, hch⟩ := hch
    have hb := hB s (List.mem_cons_self ..) (e ▸ hw) (e ▸ ho s.1)
    rw [e] at hb
    have hB' := fun x hx => hB x (List.mem_cons_of_mem _ hx)
    have ho' : ∀ k, s.2.2.isdir (O k) = true := fun k => (bound_isdir P hb k).trans (ho k)
    rw [opsOf_cons, lastDisk]
    split
    · rename_i hi
      obtain ⟨h1, h2⟩ := ih hB' hch hb.wf ho' (QuietAt.refl hb.wf (ho' i))
      rw [lastLeft_cons]
      exact ⟨⟨e ▸ hq, h1⟩, h2⟩
    · rename_i hi
      exact ih hB' hch hb.wf ho' (hq.trans (bound_quiet P (fun e => hi e.symm) hb (ho i)))

theorem together_kept (P : BagPlaces jobs O ns) {L : List (ι × Tree × Tree)}
    (hB : ∀ s ∈ L, WfTree s.2.1 → s.2.1.isdir (O s.1) = true → Bound (O s.1) (· ∈ ns s.1) s.2.1 s.2.2) {t : Tree}
    (hch : Chained t L) (hw : WfTree t) (ho : ∀ i, t.isdir (O i) = true) {q : Path}
    (hq : ∀ i, ∀ n ∈ ns i, ¬ (O i ++ [n]) <+: q) : dget (lastDisk t L) q = dget t q := by
  induction L generalizing t with
  | nil => rfl
  | cons s L ih =>
    obtain ⟨e, hch⟩ := hch
    have hb := hB s (List.mem_cons_self ..) (e ▸ hw) (e ▸ ho s.1)
    rw [e] at hb
    rw [lastDisk, ih (fun x hx => hB x (List.mem_cons_of_mem _ hx)) hch hb.wf (fun k => (bound_isdir P hb k).trans (ho k))]
    exact hb.same q (hq s.1)

theorem mem_opsOf {L : List (ι × Tree × Tree)} {s : ι × Tree × Tree} (h : s ∈ L) : s.2 ∈ opsOf L s.1 := by
  unfold opsOf
  rw [List.mem_map]
  exact ⟨s, by simp [h], rfl⟩

theorem together_bound (hr : ∀ i, ReadyToSplit W (jobs i) (O i) (ns i)) {L : List (ι × Tree × Tree)} (hL : RanTogether W jobs L) :
    ∀ s ∈ L, WfTree s.2.1 → s.2.1.isdir (O s.1) = true → Bound (O s.1) (· ∈ ns s.1) s.2.1 s.2.2 := by
  intro s hs
  have := mem_opsOf hs
  rw [← hL.each s.1] at this
  exact shared_bound (hr s.1).outdir ⟨(hr s.1).ordinary.algs, (hr s.1).ordinary.hashes⟩ (hr s.1).entries
    (fun n hn => ((hr s.1).free n hn).1) (fun n hn => (ready_chosen (hr s.1)).1 hn) _ _ this

theorem together_made (hW : WfTree W) (hr : ∀ i, ReadyToSplit W (jobs i) (O i) (ns i)) (hsrc : ∀ i j, ¬ Inside (jobs i).src (O j))
    (hdis : ∀ i j, i ≠ j → ∀ m ∈ ns i, ∀ n ∈ ns j, O i ++ [m] ≠ O j ++ [n]) {L : List (ι × Tree × Tree)} (hL : RanTogether W jobs L)
    (i : ι) {c : CopyDisk}
    (h : applyPlan copyFS (jobs i).source (jobs i).blen (jobs i).opts (jobs i).plan (jobs i).names { src := (jobs i).source.tree } = .ok c) :
    ∃ s, (jobs i).run (foundBy W L i) = (.ok (), s) ∧ BagAt (lastDisk W L) (jobs i).src (jobs i).source.tree ∧
      ∀ e ∈ c.done, (lastDisk W L).isdir (O i ++ [e.1]) = true ∧ (lastDisk W L).below (O i ++ [e.1]) = e.2 := by
  have P := bagPlaces hW hr hsrc hdis
  obtain ⟨h1, h2⟩ := together_quiet P (together_bound hr hL) hL.chained hW (fun k => (hr k).isdir) i (QuietAt.refl hW (hr i).isdir)
  rw [← hL.each i] at h1 h2
  obtain ⟨s, h3, h4, h5⟩ := shared_made hW (hr i) h1 h
  refine ⟨s, h3, bagAt_iff.2 ?_, fun e he => ?_⟩
  · obtain ⟨k1, k2⟩ := bagAt_iff.1 h4
    refine ⟨?_, fun p hp => (dget_alone h2.source p).trans (k2 p hp)⟩
    have := isdir_alone h2.source []
    rw [List.append_nil] at this
    exact this.trans k1
  · obtain ⟨k0, k1, k2⟩ := h5 e he
    have := isdir_alone (h2.bags _ k0) []
    rw [List.append_nil] at this
    exact ⟨this.trans k1, (h2.bags _ k0).2.trans k2⟩

/-- C108: any number of splits can run at the same time on one file system, and whatever the order in which their
operations take place, all of them succeed, all their sources are as they were, and in the end all the bags are there.
Their output directories may be the same (with different names), and so may their sources. -/
theorem C108_together (hW : WfTree W) (hr : ∀ i, ReadyToSplit W (jobs i) (O i) (ns i)) (hsrc : ∀ i j, ¬ Inside (jobs i).src (O j))
    (hdis : ∀ i j, i ≠ j → ∀ m ∈ ns i, ∀ n ∈ ns j, O i ++ [m] ≠ O j ++ [n]) {L : List (ι × Tree × Tree)} (hL : RanTogether W jobs L)
    (i : ι) :
    ((jobs i).run (foundBy W L i)).1 = .ok () ∧ BagAt (lastDisk W L) (jobs i).src (jobs i).source.tree ∧
      ∀ k m n, (jobs i).plan[k]? = some m → (ns i)[k]? = some n →
        ∃ t, BagAt (lastDisk W L) (O i ++ [n]) t ∧ SplitBag (jobs i).source.tree m.contents (decide (k + 1 = (jobs i).plan.length)) t := by
  obtain ⟨c, h1, h2⟩ := ready_plan (hr i)
  obtain ⟨s, h3, h4, h5⟩ := together_made hW hr hsrc hdis hL i h1
  refine ⟨by rw [h3], h4, fun k m n hm hn => ?_⟩
  obtain ⟨t, h6, h7⟩ := h2 k m n hm hn
  obtain ⟨h8, h9⟩ := h5 _ h6
  exact ⟨t, bagAt_iff.2 ⟨h8, holds_below h9⟩, h7⟩

theorem chosen_length (plan : List Manifest) (names : List Str) : (chosenNames plan names).length = plan.length := by
  induction plan generalizing names with
  | nil => rfl
  | cons m plan ih => simp [chosenNames, ih]

/-- C108: and each split makes what it makes when it runs alone. -/
theorem C108_as_alone (hW : WfTree W) (hr : ∀ i, ReadyToSplit W (jobs i) (O i) (ns i)) (hsrc : ∀ i j, ¬ Inside (jobs i).src (O j))
    (hdis : ∀ i j, i ≠ j → ∀ m ∈ ns i, ∀ n ∈ ns j, O i ++ [m] ≠ O j ++ [n]) {L : List (ι × Tree × Tree)} (hL : RanTogether W jobs L)
    (i : ι) : ∃ w, applyRun diskFS (jobs i).source (jobs i).blen (jobs i).opts (jobs i).plan (jobs i).names
        { disk := W, src := (jobs i).src, outdir := (jobs i).outdir } = (.ok (), w) ∧
      ∀ n ∈ ns i, ∀ q, Inside (O i ++ [n]) q → SameThing (lastDisk W L) w.disk q := by
  obtain ⟨c, h1, h2⟩ := ready_plan (hr i)
  obtain ⟨s, _, _, h5⟩ := together_made hW hr hsrc hdis hL i h1
  obtain ⟨w, h6, _, h7⟩ := disk_made hW (hr i).src (hr i).outdir (hr i).isdir ⟨(hr i).ordinary.algs, (hr i).ordinary.hashes⟩
    (hr i).ordinary.wf (hr i).bag (hr i).apart (hr i).entries (fun n hn => (hr i).free n ((ready_chosen (hr i)).1 hn)) h1
  refine ⟨w, h6, fun n hn q hq => ?_⟩
  obtain ⟨k, hk, e⟩ := List.mem_iff_getElem.1 hn
  have hk' : k < (jobs i).plan.length := by
    have := chosen_length (jobs i).plan (jobs i).names
    rw [(hr i).names, List.length_map] at this
    omega
  obtain ⟨t, h8, _⟩ := h2 k _ n (List.getElem?_eq_getElem hk') (by rw [List.getElem?_eq_getElem hk, e])
  obtain ⟨a1, a2⟩ := h5 _ h8
  obtain ⟨b1, b2⟩ := h7 _ h8
  obtain ⟨p, rfl⟩ := hq
  refine sameThing_of_dget (dget_alone ⟨?_, a2.trans b2.symm⟩ p)
  rw [isdir_iff] at a1 b1
  rw [a1.resolve_left (by simp), b1.resolve_left (by simp)]

/-- C108: everything that existed before is as it was. -/
theorem C108_kept (hW : WfTree W) (hr : ∀ i, ReadyToSplit W (jobs i) (O i) (ns i)) (hsrc : ∀ i j, ¬ Inside (jobs i).src (O j))
    (hdis : ∀ i j, i ≠ j → ∀ m ∈ ns i, ∀ n ∈ ns j, O i ++ [m] ≠ O j ++ [n]) {L : List (ι × Tree × Tree)} (hL : RanTogether W jobs L)
    (q : Path) (hq : W.exists q = true) : SameThing (lastDisk W L) W q := by
  refine sameThing_of_dget (together_kept (bagPlaces hW hr hsrc hdis) (together_bound hr hL) hL.chained hW (fun k => (hr k).isdir) ?_)
  intro i n hn h
  unfold Tree.exists at hq
  have hne : q ≠ [] := by
    rintro rfl
    simp at h
  have := wf_prefix hW (p := q) (by simpa [hne] using hq) h (by simp)
  have hf := ((hr i).free n hn).2
  unfold Tree.exists at hf
  rw [this] at hf
  simp at hf

/-- C108: and everything new is in one of the new bags. -/
theorem C108_new (hW : WfTree W) (hr : ∀ i, ReadyToSplit W (jobs i) (O i) (ns i)) (hsrc : ∀ i j, ¬ Inside (jobs i).src (O j))
    (hdis : ∀ i j, i ≠ j → ∀ m ∈ ns i, ∀ n ∈ ns j, O i ++ [m] ≠ O j ++ [n]) {L : List (ι × Tree × Tree)} (hL : RanTogether W jobs L)
    (q : Path) (hq : (lastDisk W L).exists q = true) (hn : W.exists q = false) : ∃ i, ∃ n ∈ ns i, Inside (O i ++ [n]) q := by
  apply Classical.byContradiction
  intro hc
  have := together_kept (bagPlaces hW hr hsrc hdis) (together_bound hr hL) hL.chained hW (fun k => (hr k).isdir)
    (q := q) (fun i n hn h => hc ⟨i, n, hn, h⟩)
  unfold Tree.exists at hq hn
  rw [this, hn] at hq
  cases hq

end

/-! ## Samples and negations -/

namespace Sample

instance chainedDecidable {ι : Type} : (t : Tree) → (L : List (ι × Tree × Tree)) → Decidable (Chained t L)
  | _, [] => .isTrue trivial
  | t, s :: rest =>
    have := chainedDecidable s.2.2 rest
    inferInstanceAs (Decidable (s.2.1 = t ∧ Chained s.2.2 rest))

/-- Two calls that split the same bag into the same directory. -/
def twoJobs (second : Str) (b : Bool) : SplitJob :=
  { source := splitSource, src := [py!"w", py!"src"], outdir := py!"/w/out", blen := List.length, opts := {}, plan := [{ contents := [py!"data/a"] }]
    names := [if b then second else py!"b"] }

/-- They take turns. -/
def twoTurns (second : Str) : List (Bool × Tree × Tree) :=
  playFrom (twoJobs second) (List.replicate 15 [false, true]).flatten splitWorld []

theorem twoTogether : RanTogether splitWorld (twoJobs py!"c") (twoTurns py!"c") :=
  ⟨by decide +kernel, fun i => by cases i <;> decide +kernel⟩

/-- What their names are. -/
def twoNames (b : Bool) : List Str := [if b then py!"c" else py!"b"]

theorem twoReady (b : Bool) : ReadyToSplit splitWorld (twoJobs py!"c" b) [py!"w", py!"out"] (twoNames b) where
  ordinary := splitOrdinary
  single := by show py!"Multibag-Head-Version" ∉ dkeys splitSource.info; decide
  src := ⟨by simp [twoJobs], by
    intro c hc
    simp [twoJobs] at hc
    rcases hc with rfl | rfl <;> exact goodName_of_check (by decide)⟩
  bag := splitWorldBag
  outdir := splitOut
  isdir := by decide
  apart := by cases b <;> decide
  entries := by
    intro m hm f hf
    simp only [twoJobs, List.mem_singleton] at hm
    subst hm
    simp only [List.mem_singleton] at hf
    subst hf
    exact splitEntries { contents := [py!"data/a", py!"about.txt"] } (List.mem_cons_self ..) _ (List.mem_cons_self ..)
  names := by cases b <;> rfl
  nodup := by cases b <;> decide
  free := by
    intro n hn
    cases b
    all_goals
      simp [twoNames] at hn
      subst hn
      exact ⟨goodName_of_check (by decide), by decide⟩

end Sample

/-- Two sample splits that take turns meet the hypotheses of C108; both are in the middle of their work at the same time,
and in the end there are two new bags. -/
example : RanTogether Sample.splitWorld (Sample.twoJobs py!"c") (Sample.twoTurns py!"c") ∧
    (Sample.twoTurns py!"c").length > 20 ∧
    ((Sample.twoTurns py!"c").take 6).map (·.1) = [false, true, false, true, false, true] ∧
    ∀ b, ((Sample.twoJobs py!"c" b).run (foundBy Sample.splitWorld (Sample.twoTurns py!"c") b)).1 = .ok () ∧
      ∀ n ∈ Sample.twoNames b, (lastDisk Sample.splitWorld (Sample.twoTurns py!"c")).isfile
        [py!"w", py!"out", n, py!"bag-info.txt"] = true := by
  refine ⟨Sample.twoTogether, by decide +kernel, by decide +kernel, fun b => ⟨?_, ?_⟩⟩
  · refine (C108_together (O := fun _ => [py!"w", py!"out"]) (ns := Sample.twoNames) Sample.splitWorldWf Sample.twoReady ?_ ?_
      Sample.twoTogether b).1
    · intro i j
      cases i <;> cases j <;> decide
    · intro i j hij
      cases i <;> cases j <;> first | exact absurd rfl hij | decide
  · cases b <;> decide +kernel

/-- C108 without different names would be false: when two splits that take turns use the same names in the same directory,
one of them fails. -/
theorem C108_negation_same_names : ∃ L, RanTogether Sample.splitWorld (Sample.twoJobs py!"b") L ∧
    ((Sample.twoJobs py!"b" true).run (foundBy Sample.splitWorld L true)).1 = .error .osError :=
  ⟨Sample.twoTurns py!"b", ⟨by decide +kernel, fun i => by cases i <;> decide +kernel⟩, by rfl⟩

end Verif
