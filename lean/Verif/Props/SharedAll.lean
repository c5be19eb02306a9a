import Verif.Lemmas.SharedAll
import Verif.Lemmas.SharedEnds
/-!
# C121: splits and restores that run at the same time do not disturb each other
-/

namespace Verif
open Spec

section
variable {ι κ : Type} [DecidableEq ι] [DecidableEq κ] {W : Tree} {splits : ι → SplitJob} {restores : κ → RestoreJob} {O : ι → Path}
  {ns : ι → List Str} {wd D : κ → Path} {R : κ → List Path}

/-- A place where none of the calls makes anything. -/
def Guarded (O : ι → Path) (ns : ι → List Str) (D : κ → Path) (q : Path) : Prop :=
  (∀ i, ∀ n ∈ ns i, ¬ (O i ++ [n]) <+: q) ∧ ∀ k, ¬ D k <+: q

/-- What an operation of one of the calls does. -/
structure StepOf (W : Tree) (O : ι → Path) (ns : ι → List Str) (D : κ → Path) (x : ι ⊕ κ) (t t' : Tree) : Prop where
  wf : WfTree t'
  split : ∀ i, x = .inl i → Bound (O i) (· ∈ ns i) t t'
  restore : ∀ k, x = .inr k → Touches (D k) t t'
  kept : ∀ q, Guarded O ns D q → dget t' q = dget W q

theorem step_same {x : ι ⊕ κ} {t t' : Tree} (hs : ∀ i, x = .inl i → Bound (O i) (· ∈ ns i) t t')
    (hr : ∀ k, x = .inr k → Touches (D k) t t') {q : Path} (hq : Guarded O ns D q) : dget t' q = dget t q := by
  cases x with
  | inl i => exact (hs i rfl).same q (hq.1 i)
  | inr k => exact (hr k rfl).same q (hq.2 k)

theorem steps_from (hO : ∀ i, Guarded O ns D (O i)) (hW : ∀ i, W.isdir (O i) = true) {L : List ((ι ⊕ κ) × Tree × Tree)} {t : Tree}
    (hch : Chained t L) (hw : WfTree t) (hk : ∀ q, Guarded O ns D q → dget t q = dget W q)
    (hB : ∀ s ∈ L, ∀ i, s.1 = .inl i → WfTree s.2.1 → s.2.1.isdir (O i) = true → Bound (O i) (· ∈ ns i) s.2.1 s.2.2)
    (m : κ → Doing RBag) (hm : ∀ k, Well AnyOf (m k) ∧ StaysIn (D k) (m k))
    (hR : ∀ k, (m k).turns ((opsOf L (.inr k)).map (·.1)) = opsOf L (.inr k)) :
    (∀ s ∈ L, StepOf W O ns D s.1 s.2.1 s.2.2) ∧ ∀ q, Guarded O ns D q → dget (lastDisk t L) q = dget W q := by
  induction L generalizing t m with
  | nil => exact ⟨by simp, hk⟩
  | cons s L ih =>
    obtain ⟨x, f, l⟩ := s
    obtain ⟨e, hch⟩ := hch
    simp only at e
    subst e
    have hB' := fun y hy => hB y (List.mem_cons_of_mem _ hy)
    have go : ∀ m' : κ → Doing RBag, (∀ k, Well AnyOf (m' k) ∧ StaysIn (D k) (m' k)) →
        (∀ k, (m' k).turns ((opsOf L (.inr k)).map (·.1)) = opsOf L (.inr k)) → WfTree l →
        (∀ i, x = .inl i → Bound (O i) (· ∈ ns i) f l) → (∀ k, x = .inr k → Touches (D k) f l) →
        (∀ s ∈ (x, f, l) :: L, StepOf W O ns D s.1 s.2.1 s.2.2) ∧
          ∀ q, Guarded O ns D q → dget (lastDisk f ((x, f, l) :: L)) q = dget W q := by
      intro m' h1 h2 h3 h4 h5
      have h6 : ∀ q, Guarded O ns D q → dget l q = dget W q := fun q hq => (step_same h4 h5 hq).trans (hk q hq)
      obtain ⟨h7, h8⟩ := ih hch h3 h6 hB' m' h1 h2
      refine ⟨fun s hs => ?_, h8⟩
      rcases List.mem_cons.1 hs with rfl | hs
      · exact ⟨h3, h4, h5, h6⟩
      · exact h7 s hs
    cases x with
    | inl i =>
      have hb := hB _ List.mem_cons_self i rfl hw (by
        unfold Tree.isdir
        rw [hk _ (hO i)]
        exact hW i)
      refine go m hm (fun k => ?_) hb.wf (fun j hj => by cases hj; exact hb) (fun k hk => by cases hk)
      have := hR k
      rw [opsOf_cons, if_neg (by simp)] at this
      exact this
    | inr k =>
      have hk1 := hR k
      rw [opsOf_cons, if_pos rfl, List.map_cons, Doing.turns, List.cons.injEq, Prod.mk.injEq] at hk1
      obtain ⟨⟨_, hl⟩, hrest⟩ := hk1
      simp only at hl hrest
      obtain ⟨hwl, hwm⟩ := well_turn (hm k).1 hw
      obtain ⟨htl, htm⟩ := stays_turn (hm k).2 f
      rw [hl] at hwl htl
      refine go (fun k' => if k' = k then ((m k).turn f).1 else m k') (fun k' => ?_) (fun k' => ?_) hwl (fun i hi => by cases hi)
        (fun j hj => by cases hj; exact htl)
      · by_cases e : k' = k
        · subst e
          rw [if_pos rfl]
          exact ⟨hwm, htm⟩
        · rw [if_neg e]
          exact hm k'
      · by_cases e : k' = k
        · subst e
          rw [if_pos rfl]
          exact hrest
        · rw [if_neg e]
          have := hR k'
          rw [opsOf_cons, if_neg (by simpa using fun h => e h.symm)] at this
          exact this

theorem guarded_out (G : GetAlong W splits restores O ns wd D R) (i : ι) : Guarded O ns D (O i) :=
  ⟨(bagPlaces G.wf G.split G.bySplits.1 G.bySplits.2).out i, fun k => G.out i k⟩

theorem all_steps (G : GetAlong W splits restores O ns wd D R) {L : List ((ι ⊕ κ) × Tree × Tree)} (hL : RanAll W splits restores L) :
    (∀ s ∈ L, StepOf W O ns D s.1 s.2.1 s.2.2) ∧ ∀ q, Guarded O ns D q → dget (lastDisk W L) q = dget W q := by
  refine steps_from (guarded_out G) (fun i => (G.split i).isdir) hL.chained G.wf (fun _ _ => rfl) ?_ (fun k => (restores k).doing)
    (fun k => ?_) hL.restore
  · intro s hs i hi
    have := mem_opsOf hs
    rw [hi] at this
    have := (hL.split i).subset this
    have hr := G.split i
    exact shared_bound hr.outdir ⟨hr.ordinary.algs, hr.ordinary.hashes⟩ hr.entries (fun n hn => (hr.free n hn).1)
      (fun n hn => (ready_chosen hr).1 hn) _ _ this
  · have hr := G.restore k
    obtain ⟨d, h1, h2, h3, h4⟩ := hr.dest
    exact ⟨well_job hr.cwd (G.env k) (G.archives k) h1 h2 h3 hr.root h4, stays_job hr.cwd h1 h2 h3 h4⟩

/-! ## What a restore finds -/

theorem along {Q : Tree → Tree → Prop} {L : List ((ι ⊕ κ) × Tree × Tree)} {k : κ} {t : Tree} {m : Doing RBag} (hch : Chained t L)
    (hR : m.turns ((opsOf L (.inr k)).map (·.1)) = opsOf L (.inr k)) (hQ : ∀ s ∈ L, s.1 ≠ .inr k → Q s.2.1 s.2.2) :
    Alongside Q m t (m.after ((opsOf L (.inr k)).map (·.1))) (lastDisk t L) := by
  induction L generalizing t m with
  | nil => exact .refl m t
  | cons s L ih =>
    obtain ⟨x, f, l⟩ := s
    obtain ⟨e, hch⟩ := hch
    simp only at e
    subst e
    have hQ' := fun y hy => hQ y (List.mem_cons_of_mem _ hy)
    rw [opsOf_cons] at hR ⊢
    by_cases hx : x = .inr k
    · rw [if_pos hx] at hR ⊢
      rw [List.map_cons, Doing.turns, List.cons.injEq, Prod.mk.injEq] at hR
      obtain ⟨⟨_, hl⟩, hrest⟩ := hR
      rw [List.map_cons, Doing.after]
      refine .turn ?_
      simp only at hl hrest ⊢
      rw [hl]
      exact ih hch hrest hQ'
    · rw [if_neg hx] at hR ⊢
      exact .other (hQ _ List.mem_cons_self hx) (ih hch hR hQ')

theorem guarded_parent (G : GetAlong W splits restores O ns wd D R) (k : κ) : Guarded O ns D (D k).dropLast := by
  refine ⟨fun i n hn h => (G.newBags i k n hn).1.1 (h.trans (List.dropLast_prefix _)), fun j h => ?_⟩
  by_cases e : j = k
  · subst e
    have := h.length_le
    have h0 := List.length_pos_iff.2 (G.restore j).root
    rw [List.length_dropLast] at this
    omega
  · exact (G.byRestores j k e).1 (h.trans (List.dropLast_prefix _))

theorem step_off (G : GetAlong W splits restores O ns wd D R) {x : ι ⊕ κ} {t t' : Tree} (h : StepOf W O ns D x t t') {k : κ}
    (hx : x ≠ .inr k) : KeepsOff (D k) (R k) t t' := by
  have hp : t'.isdir (D k).dropLast = true := by
    unfold Tree.isdir
    rw [h.kept _ (guarded_parent G k)]
    exact (G.restore k).parent
  cases x with
  | inl i =>
    have hb := h.split i rfl
    refine ⟨hp, leftAlone_of_alone ⟨hb.same _ (fun n hn => (G.newBags i k n hn).1.1), hb.order _ (fun n hn => (G.newBags i k n hn).1)⟩,
      fun r hr => leftAlone_of_alone ⟨hb.same _ (fun n hn => ((G.newBags i k n hn).2 r hr).1), hb.order _ (fun n hn => (G.newBags i k n hn).2 r hr)⟩⟩
  | inr j =>
    have hb := h.restore j rfl
    have e : j ≠ k := fun e => hx (by rw [e])
    exact ⟨hp, leftAlone_of_alone ⟨hb.same _ (G.byRestores j k e).1, hb.order _ (G.byRestores j k e).1 (G.byRestores k j (fun h => e h.symm)).1⟩,
      fun r hr => by
        have := (G.byRestores k j (fun h => e h.symm)).2 r hr
        exact leftAlone_of_alone ⟨hb.same _ this.1, hb.order _ this.1 this.2⟩⟩

/-- C121: at any time while splits and restores are running, a restore that has ended has ended as it does when it runs alone
from the start, and its destination is as if it had run alone. -/
theorem C121_restores (G : GetAlong W splits restores O ns wd D R) {L : List ((ι ⊕ κ) × Tree × Tree)} (hL : RanAll W splits restores L)
    (k : κ) {r : Except PyErr RBag} (h : restoreNow restores L k = .done r) :
    r = ((restores k).alone W).map (fun x => x.1) ∧ ∀ b W', (restores k).alone W = .ok (b, W') →
      BagAt (lastDisk W L) (D k) b.tree ∧ ∀ q, Inside (D k) q → SameThing (lastDisk W L) W' q := by
  have ha := along hL.chained (hL.restore k) (fun s hs hx => step_off G ((all_steps G hL).1 s hs) hx)
  unfold restoreNow at h
  rw [h] at ha
  exact C120_undisturbed (G.restore k) ha

/-! ## What a split finds -/

theorem step_quiet (G : GetAlong W splits restores O ns wd D R) {x : ι ⊕ κ} {t t' : Tree} (h : StepOf W O ns D x t t') {i : ι}
    (hx : x ≠ .inl i) : QuietAt (splits i).src (O i) (· ∈ ns i) t t' := by
  have P := bagPlaces G.wf G.split G.bySplits.1 G.bySplits.2
  have ho : t'.isdir (O i) = true := by
    unfold Tree.isdir
    rw [h.kept _ (guarded_out G i)]
    exact (G.split i).isdir
  cases x with
  | inl j =>
    have hb := h.split j rfl
    have e : i ≠ j := fun e => hx (by rw [e])
    have other : ∀ m ∈ ns i, ∀ n ∈ ns j, ¬ (O j ++ [n]) <+: O i ++ [m] ∧ ¬ (O i ++ [m]) <+: O j ++ [n] :=
      fun m hm n hn => ⟨P.bags i j e m hm n hn, P.bags j i (fun h => e h.symm) n hn m hm⟩
    exact ⟨h.wf, ho, ⟨hb.same _ (fun n hn => (P.src i j n hn).1), hb.order _ (fun n hn => P.src i j n hn)⟩,
      fun m hm => ⟨hb.same _ (fun n hn => (other m hm n hn).1), hb.order _ (fun n hn => other m hm n hn)⟩⟩
  | inr k =>
    have hb := h.restore k rfl
    exact ⟨h.wf, ho, ⟨hb.same _ (G.source i k).2, hb.order _ (G.source i k).2 (G.source i k).1⟩,
      fun n hn => ⟨hb.same _ (G.newBags i k n hn).1.2, hb.order _ (G.newBags i k n hn).1.2 (G.newBags i k n hn).1.1⟩⟩

theorem all_quiet (G : GetAlong W splits restores O ns wd D R) {L : List ((ι ⊕ κ) × Tree × Tree)}
    (hS : ∀ s ∈ L, StepOf W O ns D s.1 s.2.1 s.2.2) {t : Tree} (hch : Chained t L) (i : ι) {prev : Tree}
    (hq : QuietAt (splits i).src (O i) (· ∈ ns i) prev t) :
    Meanwhile (QuietAt (splits i).src (O i) (· ∈ ns i)) prev (opsOf L (.inl i)) ∧
      QuietAt (splits i).src (O i) (· ∈ ns i) (lastLeft prev (opsOf L (.inl i))) (lastDisk t L) := by
  induction L generalizing t prev with
  | nil => exact ⟨trivial, hq⟩
  | cons s L ih =>
    obtain ⟨x, f, l⟩ := s
    obtain ⟨e, hch⟩ := hch
    simp only at e
    subst e
    have hS' := fun y hy => hS y (List.mem_cons_of_mem _ hy)
    have h0 := hS _ List.mem_cons_self
    rw [opsOf_cons, lastDisk]
    split
    · rename_i hi
      have ho : l.isdir (O i) = true := by
        unfold Tree.isdir
        rw [h0.kept _ (guarded_out G i)]
        exact (G.split i).isdir
      obtain ⟨h1, h2⟩ := ih hS' hch (QuietAt.refl h0.wf ho)
      rw [lastLeft_cons]
      exact ⟨⟨hq, h1⟩, h2⟩
    · rename_i hi
      exact ih hS' hch (hq.trans (step_quiet G h0 hi))

/-- C121: at any time while splits and restores are running, a split that has made all its operations has succeeded, its source
is as it was, and the bags it was to make are there. -/
theorem C121_splits (G : GetAlong W splits restores O ns wd D R) {L : List ((ι ⊕ κ) × Tree × Tree)} (hL : RanAll W splits restores L)
    (i : ι) (he : SplitEnded W splits L i) :
    ((splits i).run (foundBy W L (.inl i))).1 = .ok () ∧ BagAt (lastDisk W L) (splits i).src (splits i).source.tree ∧
      ∀ k m n, (splits i).plan[k]? = some m → (ns i)[k]? = some n → ∃ t, BagAt (lastDisk W L) (O i ++ [n]) t ∧
        SplitBag (splits i).source.tree m.contents (decide (k + 1 = (splits i).plan.length)) t := by
  obtain ⟨c, hc, h2⟩ := ready_plan (G.split i)
  obtain ⟨q1, q2⟩ := all_quiet G (all_steps G hL).1 hL.chained i (QuietAt.refl G.wf (G.split i).isdir)
  unfold SplitEnded at he
  rw [he] at q1 q2
  obtain ⟨s, h3, h4, h5⟩ := shared_made G.wf (G.split i) q1 hc
  refine ⟨by rw [h3], bagAt_iff.2 ?_, fun k m n hm hn => ?_⟩
  · obtain ⟨k1, k2⟩ := bagAt_iff.1 h4
    refine ⟨?_, fun p hp => (dget_alone q2.source p).trans (k2 p hp)⟩
    have := isdir_alone q2.source []
    rw [List.append_nil] at this
    exact this.trans k1
  · obtain ⟨t, h6, h7⟩ := h2 k m n hm hn
    obtain ⟨k0, k1, k2⟩ := h5 _ h6
    have := isdir_alone (q2.bags _ k0) []
    rw [List.append_nil] at this
    exact ⟨t, bagAt_iff.2 ⟨this.trans k1, holds_below ((q2.bags _ k0).2.trans k2)⟩, h7⟩

/-- C121: and what is neither in a destination nor in one of the new bags is as it was, at all times. -/
theorem C121_kept (G : GetAlong W splits restores O ns wd D R) {L : List ((ι ⊕ κ) × Tree × Tree)} (hL : RanAll W splits restores L)
    (q : Path) (hq : (∀ i, ∀ n ∈ ns i, ¬ Inside (O i ++ [n]) q) ∧ ∀ k, ¬ Inside (D k) q) : SameThing (lastDisk W L) W q :=
  sameThing_of_dget ((all_steps G hL).2 q hq)

/-- C121: whatever the order in which the calls take turns, what takes place is such a history, so that the theorems above say
what it leaves. -/
theorem C121_every_order (W : Tree) (splits : ι → SplitJob) (restores : κ → RestoreJob) (order : List (ι ⊕ κ)) :
    RanAll W splits restores (playAll splits restores order W []) :=
  ranAll_play (W := W) order (L := []) ranAll_nil

/-- C121: a split that has a turn again and again comes to its end, whatever the others do, and from then on the bags it was to
make are there. -/
theorem C121_split_ends (G : GetAlong W splits restores O ns wd D R) (sched : Nat → ι ⊕ κ) (i : ι)
    (hf : ∀ n, ∃ k, n ≤ k ∧ sched k = .inl i) : ∃ N, ∀ n, N ≤ n → ∀ L, L = historyOf W splits restores sched n →
      SplitEnded W splits L i ∧ ((splits i).run (foundBy W L (.inl i))).1 = .ok () ∧
      BagAt (lastDisk W L) (splits i).src (splits i).source.tree ∧
      ∀ k m n, (splits i).plan[k]? = some m → (ns i)[k]? = some n → ∃ t, BagAt (lastDisk W L) (O i ++ [n]) t ∧
        SplitBag (splits i).source.tree m.contents (decide (k + 1 = (splits i).plan.length)) t := by
  obtain ⟨N, h⟩ := split_ends (W := W) (splits := splits) (restores := restores) sched i hf
  refine ⟨N, fun n hn L hL => ?_⟩
  subst hL
  exact ⟨h n hn, C121_splits G (history_ran sched n) i (h n hn)⟩

/-- C121: a restore that has a turn again and again comes to its end, whatever the others do; it ends as it does alone, and from
then on its destination is as if it had run alone. -/
theorem C121_restore_ends (G : GetAlong W splits restores O ns wd D R) (sched : Nat → ι ⊕ κ) (k : κ)
    (hf : ∀ n, ∃ m, n ≤ m ∧ sched m = .inr k) : ∃ N, ∀ n, N ≤ n → ∀ L, L = historyOf W splits restores sched n →
      restoreNow restores L k = .done (((restores k).alone W).map (fun x => x.1)) ∧
      ∀ b W', (restores k).alone W = .ok (b, W') →
        BagAt (lastDisk W L) (D k) b.tree ∧ ∀ q, Inside (D k) q → SameThing (lastDisk W L) W' q := by
  obtain ⟨N, r, h⟩ := restore_ends (W := W) (splits := splits) (restores := restores) sched k hf
  refine ⟨N, fun n hn L hL => ?_⟩
  subst hL
  obtain ⟨h1, h2⟩ := C121_restores G (history_ran sched n) k (h n hn)
  exact ⟨by rw [h n hn, h1], h2⟩

end

/-! ## A sample -/

namespace Sample

/-- The store of the restores and the directory of the splits on one file system. -/
def allWorld : Tree := storeWorld ++ splitWorld

/-- The sample bag is split into `/home`. -/
def homeSplit (_ : Unit) : SplitJob :=
  { source := splitSource, src := [py!"w", py!"src"], outdir := py!"/home", blen := List.length, opts := {}, plan := [{ contents := [py!"data/a"] }]
    names := [py!"b"] }

/-- Meanwhile the sample head bag is restored to `/home/out`. -/
def homeRestores (_ : Unit) : RestoreJob := shareJob py!"out"

theorem home_members (d : Str) : ∀ H ms, headAt (shareJob d).cwd (diskPlaces (shareJob d).cwd (shareJob d).archives (shareJob d).dirs allWorld)
      (shareJob d).env.base (shareJob d).headbag = .ok H →
    iterMembers H.mode H.tree H.info = .ok ms → ∀ m ∈ ms, leadsTo [py!"home"] (pathJoin (searched (shareJob d)) m.name) ∈ shareSources ∧
      ∀ e ∈ (shareJob d).exts, leadsTo [py!"home"] (pathJoin (searched (shareJob d)) m.name ++ e) ∈ shareSources := by
  intro H ms h1 h2
  refine share_members d H ms ?_ h2
  rw [← h1]
  refine (headAt_far (R := shareSources) home_abs _ _ _ ?_ ?_).symm
  · decide +kernel
  · show leadsTo [py!"home"] py!"../store/hb" ∈ shareSources
    decide

theorem home_along : GetAlong allWorld homeSplit homeRestores (fun _ => [py!"home"]) (fun _ => [py!"b"]) (fun _ => [py!"home"])
    (fun _ => [py!"home", py!"out"]) (fun _ => shareSources) where
  wf := wf_of_check (by decide +kernel)
  split := fun _ =>
    { ordinary := splitOrdinary
      single := by show py!"Multibag-Head-Version" ∉ dkeys splitSource.info; decide
      src := ⟨by simp [homeSplit], by
        intro c hc
        simp [homeSplit] at hc
        rcases hc with rfl | rfl <;> exact goodName_of_check (by decide)⟩
      bag := bagAt_iff.2 ⟨by show allWorld.isdir [py!"w", py!"src"] = true; decide +kernel, by
        have := (bagAt_iff.1 splitWorldBag).2
        intro p hp
        refine Eq.trans ?_ (this p hp)
        have e : ∀ q : Path, [py!"w", py!"src"] <+: q → dget allWorld q = dget splitWorld q := by
          intro q hq
          have hn : dget storeWorld q = none := by
            rw [dget_eq_none_iff]
            intro hm
            have := List.all_eq_true.1 (show (dkeys storeWorld).all (fun q => ![py!"w", py!"src"].isPrefixOf q) = true by decide +kernel) q hm
            rw [Bool.not_eq_true', ← Bool.not_eq_true, List.isPrefixOf_iff_prefix] at this
            exact this hq
          unfold allWorld
          rw [dget_append, hn]
          rfl
        exact e _ (List.prefix_append ..)⟩
      outdir := home_abs
      isdir := by decide +kernel
      apart := by show ¬ Inside [py!"w", py!"src"] [py!"home"]; decide
      entries := by
        intro m hm f hf
        simp only [homeSplit, List.mem_singleton] at hm
        subst hm
        simp only [List.mem_singleton] at hf
        subst hf
        exact splitEntries { contents := [py!"data/a", py!"about.txt"] } (List.mem_cons_self ..) _ (List.mem_cons_self ..)
      names := rfl
      nodup := by decide
      free := by
        intro n hn
        rw [List.mem_singleton] at hn
        subst hn
        exact ⟨goodName_of_check (by decide), by decide +kernel⟩ }
  restore := fun _ =>
    { cwd := home_abs
      dest := ⟨py!"out", rfl, by decide, by decide, by
        show ¬ abspath py!"/home" py!"out" <+: searched (shareJob py!"out")
        decide⟩
      root := by simp
      parent := by show allWorld.isdir [py!"home"] = true; decide +kernel
      place := by decide +kernel
      head := by show leadsTo [py!"home"] py!"../store/hb" ∈ shareSources; decide
      members := home_members _
      apart := by unfold Inside; decide }
  env := fun _ => renv_ok
  archives := fun _ _ _ h => by cases h
  bySplits := ⟨fun _ _ => by show ¬ Inside [py!"w", py!"src"] [py!"home"]; decide, fun i j h => absurd rfl h⟩
  byRestores := fun i j h => absurd rfl h
  newBags := by
    rintro ⟨⟩ ⟨⟩
    unfold ApartFrom Inside
    decide
  source := by
    rintro ⟨⟩ ⟨⟩
    unfold ApartFrom Inside
    decide
  out := by
    rintro ⟨⟩ ⟨⟩
    unfold Inside
    decide

/-- The split `s` and the restore `m` take turns as `order` says; as `playAll`, but the restore goes on from where it is. -/
def playTwo (s : SplitJob) : List Bool → Doing RBag → Tree → List ((Unit ⊕ Unit) × Tree × Tree) → List ((Unit ⊕ Unit) × Tree × Tree)
  | [], _, _, past => past
  | true :: rest, m, t, past =>
    let found := (opsOf past (.inl ())).map (·.1)
    match (s.steps (fun k => (found[k]?).getD t))[found.length]? with
    | none => playTwo s rest m t past
    | some x => playTwo s rest m x.2 (past ++ [(.inl (), t, x.2)])
  | false :: rest, m, t, past => playTwo s rest (m.turn t).1 (m.turn t).2 (past ++ [(.inr (), t, (m.turn t).2)])

/-- One split and one restore take turns; then the restore goes on alone. -/
def homeTurns : List ((Unit ⊕ Unit) × Tree × Tree) :=
  playTwo (homeSplit ()) ((List.replicate 16 [true, false]).flatten ++ List.replicate 66 false) (homeRestores ()).doing allWorld []

theorem home_ran : RanAll allWorld homeSplit homeRestores homeTurns where
  chained := by decide +kernel
  split := fun _ => by
    show opsOf homeTurns (.inl ()) <+: (homeSplit ()).steps (foundBy allWorld homeTurns (.inl ()))
    decide +kernel
  restore := fun _ => by
    show (homeRestores ()).doing.turns ((opsOf homeTurns (.inr ())).map (·.1)) = opsOf homeTurns (.inr ())
    decide +kernel

theorem home_ended : SplitEnded allWorld homeSplit homeTurns () := by
  unfold SplitEnded
  decide +kernel

theorem home_restored : (match restoreNow homeRestores homeTurns () with
    | .done (.ok _) => true
    | _ => false) = true := by decide +kernel

end Sample

/-- The hypotheses of `C121_splits` and `C121_restores` are met: a split and a restore take turns, operation by operation, and
both have ended in the end. -/
example : (Sample.homeTurns.take 6).map (·.1) = [.inl (), .inr (), .inl (), .inr (), .inl (), .inr ()] ∧
    ((Sample.homeSplit ()).run (foundBy Sample.allWorld Sample.homeTurns (.inl ()))).1 = .ok () ∧
    (∃ t, BagAt (lastDisk Sample.allWorld Sample.homeTurns) [py!"home", py!"b"] t) ∧
    ∃ b, restoreNow Sample.homeRestores Sample.homeTurns () = .done (.ok b) ∧
      BagAt (lastDisk Sample.allWorld Sample.homeTurns) [py!"home", py!"out"] b.tree := by
  obtain ⟨h1, _, h2⟩ := C121_splits Sample.home_along Sample.home_ran () Sample.home_ended
  refine ⟨by decide +kernel, h1, ?_, ?_⟩
  · obtain ⟨t, h3, _⟩ := h2 0 { contents := [py!"data/a"] } py!"b" rfl rfl
    exact ⟨t, h3⟩
  · have hr := Sample.home_restored
    generalize hm : restoreNow Sample.homeRestores Sample.homeTurns () = m at hr
    cases m with
    | next op k => cases hr
    | done r =>
      cases r with
      | error e => cases hr
      | ok b =>
        obtain ⟨h3, h4⟩ := C121_restores Sample.home_along Sample.home_ran () hm
        cases ha : (Sample.homeRestores ()).alone Sample.allWorld with
        | error e => rw [ha] at h3; cases h3
        | ok x =>
          rw [ha] at h3
          have e : b = x.1 := Except.ok.inj h3
          exact ⟨b, rfl, by rw [e]; exact (h4 x.1 x.2 ha).1⟩

/-- Those of `C121_split_ends` and `C121_restore_ends`: the two calls take turns for ever, and from some time on both bags are
there. -/
example : ∃ N, ∀ n, N ≤ n → ∀ L, L = historyOf Sample.allWorld Sample.homeSplit Sample.homeRestores
      (fun n => if n % 2 = 0 then .inl () else .inr ()) n →
    (∃ t, BagAt (lastDisk Sample.allWorld L) [py!"home", py!"b"] t) ∧ ∃ r, restoreNow Sample.homeRestores L () = .done r := by
  obtain ⟨N1, h1⟩ := C121_split_ends Sample.home_along (fun n => if n % 2 = 0 then .inl () else .inr ()) ()
    (fun n => ⟨2 * n, by omega, by simp⟩)
  obtain ⟨N2, h2⟩ := C121_restore_ends Sample.home_along (fun n => if n % 2 = 0 then .inl () else .inr ()) ()
    (fun n => ⟨2 * n + 1, by omega, by simp [show (2 * n + 1) % 2 = 1 by omega]⟩)
  refine ⟨max N1 N2, fun n hn L hL => ⟨?_, _, (h2 n (by omega) L hL).1⟩⟩
  obtain ⟨_, _, _, h3⟩ := h1 n (by omega) L hL
  obtain ⟨t, h4, _⟩ := h3 0 { contents := [py!"data/a"] } py!"b" rfl rfl
  exact ⟨t, h4⟩

end Verif
