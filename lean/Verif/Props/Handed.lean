import Verif.Model.Handed
import Verif.Spec.Handed
import Verif.Props.SplitShared
import Verif.Lemmas.RestoreAll
import Verif.Lemmas.FetchDisk
/-!
# C114: what the caller does with a bag that is handed over does not matter to the rest
-/

namespace Verif
open Spec

/-- The copying split without its past. -/
def CopyDisk.anew (c : CopyDisk) (T : List Str) : CopyDisk := { c with done := [], taken := T }

/-- Bags handed over are those made by the copying split. -/
structure HandedBags (O : Path) (c : CopyDisk) (h : HandedSplit) : Prop where
  same : c.done = h.handed.map (fun e => (e.1, e.2.below (O ++ [e.1])))
  dirs : ∀ e ∈ h.handed, e.2.isdir (O ++ [e.1]) = true

/-- Between bags. -/
structure HandSim (ns : List Str) (src : Path) (outdir : Str) (O : Path) (c : CopyDisk) (h : HandedSplit) : Prop where
  sim : ∃ T, DiskSim (· ∈ ns) src outdir O (c.anew T) h.now ∧ ∀ m ∈ T, m ∈ ns → m ∈ c.taken
  rootless : Rootless c
  bags : HandedBags O c h
  taken : ∀ m, m ∈ c.taken ↔ m ∈ h.names
  planned : ∀ m ∈ h.names, m ∈ ns

/-- While the bag `n` is written. -/
structure HandSimBag (ns : List Str) (src : Path) (outdir : Str) (O : Path) (n : Str) (c : CopyDisk) (h : HandedSplit) : Prop where
  sim : ∃ T, DiskSimBag (· ∈ ns) src outdir O n (c.anew T) h.now ∧ ∀ m ∈ T, m ∈ ns → m ∈ c.taken
  rootless : Rootless c
  bags : HandedBags O c h
  taken : ∀ m, m ∈ c.taken ↔ m ∈ h.names ∨ m = n
  planned : ∀ m, m ∈ h.names ∨ m = n → m ∈ ns

theorem lift_anew {c c' : CopyDisk} {r : Except PyErr Tree} (h : c.lift r = .ok c') (T : List Str) :
    (c.anew T).lift r = .ok (c'.anew T) ∧ c'.taken = c.taken ∧ c'.done = c.done := by
  unfold CopyDisk.lift at h ⊢
  cases r with
  | error e => cases h
  | ok t => cases h; exact ⟨rfl, rfl, rfl⟩

theorem hand_simulates {act : List Str → Tree → Tree} {src : Path} (hsrc : src ≠ []) {outdir : Str} {O : Path} {ns : List Str}
    (hN : ∀ n ∈ ns, GoodName n) (hO : AbsPath outdir O)
    (hact : ∀ handed, (∀ n ∈ handed, n ∈ ns) → ∀ t, WfTree t → t.isdir O = true → CallerMay src O (fun n => n ∈ ns ∧ n ∉ handed) t (act handed t)) :
    Simulates copyFS (handFS act) (HandSim ns src outdir O) (fun n _ => HandSimBag ns src outdir O n) (fun _ => false) (· ∈ ns) Clean := by
  have D := disk_simulates (src := src) (N := (· ∈ ns)) hN hO
  have step : ∀ {n : Str} {c c' : CopyDisk} {h : HandedSplit} {r : Except PyErr SplitDisk} {T : List Str},
      HandSimBag ns src outdir O n c h → (∀ m ∈ T, m ∈ ns → m ∈ c.taken) → c'.taken = c.taken → c'.done = c.done →
      (∃ l', r = .ok l' ∧ (DiskSimBag (· ∈ ns) src outdir O n (c'.anew T) l' ∧ Rootless (c'.anew T)) ∧ (fun _ => false) l' = false) →
      ∃ h', h.lift r = .ok h' ∧ HandSimBag ns src outdir O n c' h' ∧ (fun _ => false) h' = (fun _ => false) h := by
    rintro n c c' h r T hs hT e1 e2 ⟨l, rfl, h1, _⟩
    refine ⟨_, rfl, ⟨⟨T, h1.1, fun m hm hn => e1 ▸ hT m hm hn⟩, h1.2, ⟨?_, hs.bags.dirs⟩, fun m => ?_, hs.planned⟩, rfl⟩
    · rw [e2]; exact hs.bags.same
    · rw [e1]; exact hs.taken m
  have bag : ∀ {n : Str} {c : CopyDisk} {h : HandedSplit}, HandSimBag ns src outdir O n c h →
      ∃ T, (DiskSimBag (· ∈ ns) src outdir O n (c.anew T) h.now ∧ Rootless (c.anew T)) ∧ ∀ m ∈ T, m ∈ ns → m ∈ c.taken := by
    intro n c h hs
    obtain ⟨T, h1, h2⟩ := hs.sim
    exact ⟨T, ⟨h1, hs.rootless⟩, h2⟩
  exact
  { exists_eq := fun hp h => by obtain ⟨T, h1, _⟩ := bag h; have e := D.exists_eq (L := fun _ => True) hp h1; exact e
    isdir_eq := fun hp h => by obtain ⟨T, h1, _⟩ := bag h; have e := D.isdir_eq (L := fun _ => True) hp h1; exact e
    isfile_eq := fun hp h => by obtain ⟨T, h1, _⟩ := bag h; have e := D.isfile_eq (L := fun _ => True) hp h1; exact e
    read_eq := fun hp h => by obtain ⟨T, h1, _⟩ := bag h; have e := D.read_eq (L := fun _ => True) hp h1; exact e
    srcRead_eq := fun hp h => by obtain ⟨T, h1, _⟩ := bag h; have e := D.srcRead_eq (L := fun _ => True) hp h1; exact e
    mkdir := fun hp h hx => by
      obtain ⟨T, h1, h2⟩ := bag h
      obtain ⟨e, e1, e2⟩ := lift_anew hx T
      exact step h h2 e1 e2 (D.mkdir (L := fun _ => True) hp h1 e)
    makedirs := fun hp h hx => by
      obtain ⟨T, h1, h2⟩ := bag h
      obtain ⟨e, e1, e2⟩ := lift_anew hx T
      exact step h h2 e1 e2 (D.makedirs (L := fun _ => True) hp h1 e)
    write := fun hp h _ hx => by
      obtain ⟨T, h1, h2⟩ := bag h
      obtain ⟨e, e1, e2⟩ := lift_anew hx T
      exact step h h2 e1 e2 (D.write (L := fun _ => True) hp h1 (by simp) e)
    append := fun hp h _ hx => by
      obtain ⟨T, h1, h2⟩ := bag h
      obtain ⟨e, e1, e2⟩ := lift_anew hx T
      exact step h h2 e1 e2 (D.append (L := fun _ => True) hp h1 (by simp) e)
    replicate := fun {b L c l c' p} hp h _ hx => by
      obtain ⟨T, h1, h2⟩ := bag h
      have : copyFS.replicate (c.anew T) p = .ok (c'.anew T) ∧ c'.taken = c.taken ∧ c'.done = c.done := by
        simp only [copyFS] at hx ⊢
        have e : (c.anew T).src = c.src := rfl
        rw [e]
        cases hr : c.src.read p with
        | none => rw [hr] at hx; cases hx
        | some x =>
          rw [hr] at hx
          exact lift_anew hx T
      exact step h h2 this.2.1 this.2.2 (D.replicate (L := fun _ => True) hp h1 trivial this.1)
    newBag := fun {c l c' n} L' h hn hx => by
      obtain ⟨T, h1, h2⟩ := h.sim
      have hnt : n ∉ c.taken ∧ c' = { c with taken := n :: c.taken, out := [] } := by
        simp only [copyFS] at hx
        split at hx
        · cases hx
        · next hh => cases hx; exact ⟨hh, rfl⟩
      obtain ⟨hnt, rfl⟩ := hnt
      have hx' : copyFS.newBag (c.anew T) n = .ok (CopyDisk.anew { c with taken := n :: c.taken, out := [] } (n :: T)) := by
        simp only [copyFS]
        rw [if_neg (show ¬ n ∈ (c.anew T).taken from fun hm => hnt (h2 n hm hn))]
        rfl
      obtain ⟨d, e1, e2, _⟩ := D.newBag (fun _ => True) ⟨h1, h.rootless⟩ hn hx'
      refine ⟨{ l with now := d }, ?_, ⟨⟨n :: T, e2.1, ?_⟩, e2.2, ⟨h.bags.same, h.bags.dirs⟩, ?_, ?_⟩, rfl⟩
      · simp only [handFS]; rw [e1]; rfl
      · intro m hm hmn
        rcases List.mem_cons.1 hm with rfl | hm
        · exact List.mem_cons_self ..
        · exact List.mem_cons_of_mem _ (h2 m hm hmn)
      · intro m
        rw [List.mem_cons, h.taken m]
        exact or_comm
      · rintro m (hm | rfl)
        · exact h.planned m hm
        · exact hn
    finish := fun {n L c l} h => by
      obtain ⟨T, h1, h2⟩ := h.sim
      have a := hact (l.names ++ [n]) (fun m hm => h.planned m (by simpa using hm)) l.now.disk h1.base.wf h1.base.out
      have al := alone_of_leftAlone hsrc a.source
      refine ⟨⟨⟨ns.filter (fun m => (act (l.names ++ [n]) l.now.disk).exists (O ++ [m])), ?_, ?_⟩, ⟨h.rootless.1, rfl⟩, ⟨?_, ?_⟩, ?_, ?_⟩, rfl⟩
      · refine ⟨a.wf, h1.base.srcdir, h1.base.outdir, h1.base.clean, h1.base.apart, ⟨?_, fun p hp => ?_⟩, a.out, fun m hm => ?_, by simp [CopyDisk.anew]⟩
        · have := isdir_alone al []
          rw [List.append_nil] at this
          exact this.trans h1.base.source.1
        · exact (dget_alone al p).trans (h1.base.source.2 p hp)
        · simp only [CopyDisk.anew, List.mem_filter, hm, true_and, handFS, Tree.exists]
          simp
      · intro m hm hmn
        simp only [List.mem_filter] at hm
        show m ∈ c.taken
        refine Classical.byContradiction fun hnt => ?_
        have hnt' : m ∉ l.names ++ [n] := by
          intro hh
          rw [List.mem_append, List.mem_singleton] at hh
          exact hnt ((h.taken m).2 hh)
        have hf := a.free m ⟨hmn, hnt'⟩ (by
          cases e : l.now.disk.exists (O ++ [m]) with
          | false => rfl
          | true =>
            exfalso
            refine hnt (h2 m ((h1.base.taken m hmn).2 ?_) hmn)
            unfold Tree.exists at e
            simpa using e)
        rw [hf] at hm
        exact absurd hm.2 (by simp)
      · simp only [copyFS, handFS, List.map_append, List.map_cons, List.map_nil]
        rw [h.bags.same]
        exact congrArg (fun x => _ ++ [(n, x)]) h1.laid.symm
      · intro e he
        simp only [handFS, List.mem_append, List.mem_singleton] at he
        rcases he with he | rfl
        · exact h.bags.dirs e he
        · exact h1.isdir
      · intro m
        show m ∈ c.taken ↔ _
        rw [h.taken m]
        simp [handFS, HandedSplit.names]
      · intro m hm
        exact h.planned m (by simpa [handFS, HandedSplit.names] using hm) }

/-- C114: a split whose bags are handed to the caller one by one ends well and makes the bags it is to make, whatever
the caller does to the file system when a bag is handed over (such as changing that bag, packing it, moving it away or
deleting it), as long as the output directory stays, the source is left alone and no name of a bag that is to come is
taken.  The bags are those that are made when the caller does nothing, and the source is as it was. -/
theorem C114_handed {W : Tree} (hW : WfTree W) {j : SplitJob} {O : Path} {ns : List Str} (hj : ReadyToSplit W j O ns)
    {act : List Str → Tree → Tree}
    (hact : ∀ handed, (∀ n ∈ handed, n ∈ ns) → ∀ t, WfTree t → t.isdir O = true →
      CallerMay j.src O (fun n => n ∈ ns ∧ n ∉ handed) t (act handed t)) :
    ∃ h, applyRun (handFS act) j.source j.blen j.opts j.plan j.names { now := { disk := W, src := j.src, outdir := j.outdir } } =
        (.ok (), h) ∧
      h.handed.map (·.1) = ns ∧ BagAt h.now.disk j.src j.source.tree ∧
      (∀ k m n t, j.plan[k]? = some m → h.handed[k]? = some (n, t) →
        ∃ b, BagAt t (O ++ [n]) b ∧ SplitBag j.source.tree m.contents (decide (k + 1 = j.plan.length)) b) ∧
      ∃ w, applyRun diskFS j.source j.blen j.opts j.plan j.names { disk := W, src := j.src, outdir := j.outdir } = (.ok (), w) ∧
        ∀ e ∈ h.handed, ∀ q, Inside (O ++ [e.1]) q → SameThing e.2 w.disk q := by
  obtain ⟨c, h, hb⟩ := ready_plan hj
  have hnil : dget j.source.tree [] = none := by
    cases e : dget j.source.tree [] with
    | none => rfl
    | some x => exact absurd rfl (hj.ordinary.wf.good [] (by rw [mem_dkeys_iff, e]; exact ⟨_, rfl⟩)).1
  have hsim : DiskSim (· ∈ ns) j.src j.outdir O { src := j.source.tree } { disk := W, src := j.src, outdir := j.outdir } :=
    { wf := hW, srcdir := rfl, outdir := rfl, clean := hj.src.2, apart := hj.apart, source := bagAt_iff.1 hj.bag, out := hj.isdir
      taken := by
        intro n hn
        have := (hj.free n hn).2
        unfold Tree.exists at this
        simp only [Bool.or_eq_false_iff] at this
        rw [this.2]
        simp
      done := by intro e he; cases he }
  have hstart : HandSim ns j.src j.outdir O { src := j.source.tree } { now := { disk := W, src := j.src, outdir := j.outdir } } :=
    ⟨⟨[], hsim, by simp⟩, ⟨hnil, rfl⟩, ⟨rfl, by simp⟩, by simp [HandedSplit.names], by simp [HandedSplit.names]⟩
  have H := hand_simulates hj.src.1 (fun n hn => (hj.free n hn).1) hj.outdir hact
  have hrun := applyPlan_run (handFS act) j.source j.blen j.opts j.plan j.names
    { now := { disk := W, src := j.src, outdir := j.outdir } }
  have hc := C41_copy_source_unchanged (S := j.source) (d := { src := j.source.tree }) rfl hj.entries hj.ordinary.hashes h
  have key : ∃ l, applyPlan (handFS act) j.source j.blen j.opts j.plan j.names
      { now := { disk := W, src := j.src, outdir := j.outdir } } = .ok l ∧ HandSim ns j.src j.outdir O c l := by
    unfold applyPlan at h ⊢
    cases hi : initialIndex j.source with
    | error e => rw [hi] at h; cases h
    | ok mi =>
      rw [hi] at h
      exact sim_applyLoop H (c := { src := j.source.tree }) (l := { now := { disk := W, src := j.src, outdir := j.outdir } })
        hstart
        (fun m hm => uses_clean ⟨hj.ordinary.algs, hj.ordinary.hashes⟩ (hj.entries m hm))
        hj.entries (by intro h; cases h) (fun n hn => (ready_chosen hj).1 hn) h
  obtain ⟨l, h1, h2⟩ := key
  rw [h1] at hrun
  obtain ⟨bags, k1, k2, k3, k4, k5⟩ := C36_contents (d := { src := j.source.tree }) rfl hj.entries hj.ordinary.algs hj.ordinary.hashes h
  have hdone : bags = l.handed.map (fun e => (e.1, e.2.below (O ++ [e.1]))) := by
    rw [← h2.bags.same, k1]
    rfl
  have hlen : l.handed.length = j.plan.length := by
    have := congrArg List.length hdone
    rw [List.length_map] at this
    omega
  have hnth : ∀ k (m : Manifest) n t, j.plan[k]? = some m → l.handed[k]? = some (n, t) →
      ns[k]? = some n ∧ SplitBag j.source.tree m.contents (decide (k + 1 = j.plan.length)) (t.below (O ++ [n])) := by
    intro k m n t hm ht
    have hbk : bags[k]? = some (n, t.below (O ++ [n])) := by
      rw [hdone, List.getElem?_map, ht]
      rfl
    obtain ⟨e1, e2⟩ := k5 k m _ _ hm hbk
    have hch := chosenNames_getElem j.plan j.names k m hm
    rw [hj.names, List.getElem?_map, e1] at hch
    refine ⟨?_, e2⟩
    cases hn : ns[k]? with
    | none => rw [hn] at hch; cases hch
    | some x => rw [hn] at hch; cases hch; rfl
  have hnl : ns.length = j.plan.length := by
    have := chosen_length j.plan j.names
    rw [hj.names, List.length_map] at this
    exact this
  refine ⟨l, ?_, ?_, ?_, ?_, ?_⟩
  · cases hr : applyRun (handFS act) j.source j.blen j.opts j.plan j.names
        { now := { disk := W, src := j.src, outdir := j.outdir } } with
    | mk r w =>
      rw [hr] at hrun
      cases r with
      | error e => cases hrun
      | ok u => cases hrun; rfl
  · refine List.ext_getElem? fun k => ?_
    rw [List.getElem?_map]
    cases hk : l.handed[k]? with
    | none =>
      have : l.handed.length ≤ k := List.getElem?_eq_none_iff.1 hk
      rw [List.getElem?_eq_none (by omega)]
      rfl
    | some e =>
      have hk' : k < j.plan.length := by
        have := (List.getElem?_eq_some_iff.1 hk).1
        omega
      exact (hnth k _ e.1 e.2 (List.getElem?_eq_getElem hk') hk).1.symm
  · obtain ⟨T, a, _⟩ := h2.sim
    have := a.source
    rw [show (c.anew T).src = c.src from rfl, hc] at this
    exact bagAt_iff.2 this
  · intro k m n t hm ht
    exact ⟨_, bagAt_iff.2 ⟨h2.bags.dirs _ (List.mem_of_getElem? ht), holds_below rfl⟩, (hnth k m n t hm ht).2⟩
  · obtain ⟨w, h6, _, h7⟩ := disk_made hW hj.src hj.outdir hj.isdir ⟨hj.ordinary.algs, hj.ordinary.hashes⟩
      hj.ordinary.wf hj.bag hj.apart hj.entries (fun n hn => hj.free n ((ready_chosen hj).1 hn)) h
    refine ⟨w, h6, fun e he q hq => ?_⟩
    obtain ⟨b1, b2⟩ := h7 (e.1, e.2.below (O ++ [e.1])) (by rw [h2.bags.same]; exact List.mem_map.2 ⟨e, he, rfl⟩)
    have a1 := h2.bags.dirs e he
    obtain ⟨p, rfl⟩ := hq
    refine sameThing_of_dget (dget_alone ⟨?_, b2.symm⟩ p)
    rw [isdir_iff] at a1 b1
    rw [a1.resolve_left (by simp), b1.resolve_left (by simp)]

/-! ## A caller that moves bags away, and one that changes a linked file -/

namespace Sample

/-- The caller deletes each bag as soon as it is handed over. -/
def deleted (O : Path) (handed : List Str) (t : Tree) : Tree :=
  match handed.getLast? with
  | none => t
  | some n =>
    match t.rmtree (O ++ [n]) with
    | .error _ => t
    | .ok t' => t'

theorem may_delete {src O : Path} (ha : ¬ src <+: O) {ns : List Str} (hn : ∀ n ∈ ns, ¬ (O ++ [n]) <+: src) {handed : List Str}
    (hh : ∀ n ∈ handed, n ∈ ns) {t : Tree} (hw : WfTree t) (ho : t.isdir O = true) {later : Str → Prop} :
    CallerMay src O later t (deleted O handed t) := by
  have self : CallerMay src O later t t := ⟨hw, ho, leftAlone_of_alone ⟨rfl, rfl⟩, fun _ _ h => h⟩
  unfold deleted
  cases hl : handed.getLast? with
  | none => exact self
  | some n =>
    have hsrc := hn n (hh n (List.mem_of_getLast? hl))
    simp only
    cases hr : t.rmtree (O ++ [n]) with
    | error e => exact self
    | ok t' =>
      have hd := rmtree_dget hr
      have keep : ∀ q, ¬ (O ++ [n]) <+: q → dget t' q = dget t q := by
        intro q hq
        rw [hd, if_neg (by rw [List.isPrefixOf_iff_prefix]; exact hq)]
      have hno : ∀ p, ¬ (O ++ [n]) <+: src ++ p := by
        intro p
        refine not_prefix_append hsrc (fun h => ?_)
        rcases prefix_snoc h with h | h
        · exact ha h
        · exact hsrc (h ▸ List.prefix_refl _)
      refine ⟨wf_rmtree hw hr, ?_, leftAlone_of_alone ⟨?_, ?_⟩, fun m _ hm => ?_⟩
      · unfold Tree.isdir at ho ⊢
        rw [keep _ not_snoc_prefix]
        exact ho
      · have := keep _ (hno [])
        rwa [List.append_nil] at this
      · unfold Tree.rmtree at hr
        split at hr
        · cases hr
          refine below_filter_all (f := fun k => !(O ++ [n]).isPrefixOf k) (fun p => ?_)
          rw [Bool.not_eq_true', Bool.eq_false_iff, Ne, List.isPrefixOf_iff_prefix]
          exact hno p
        · cases hr
      · unfold Tree.exists at hm ⊢
        rw [hd]
        split
        · simp
        · exact hm

/-- A split into two bags. -/
def handJob : SplitJob :=
  { source := splitSource, src := [py!"w", py!"src"], outdir := py!"/w/out", blen := List.length, opts := {}, plan := splitPlan
    names := [py!"b1", py!"b2"] }

theorem handReady : ReadyToSplit splitWorld handJob [py!"w", py!"out"] [py!"b1", py!"b2"] where
  ordinary := splitOrdinary
  single := by show py!"Multibag-Head-Version" ∉ dkeys splitSource.info; decide
  src := ⟨by simp [handJob], by
    intro c hc
    simp [handJob] at hc
    rcases hc with rfl | rfl <;> exact goodName_of_check (by decide)⟩
  bag := splitWorldBag
  outdir := splitOut
  isdir := by decide
  apart := by decide
  entries := splitEntries
  names := rfl
  nodup := by decide
  free := by
    intro n hn
    simp at hn
    rcases hn with rfl | rfl
    all_goals exact ⟨goodName_of_check (by decide), by decide⟩

end Sample

/-- A split of which the caller deletes each bag. -/
def Sample.handRun : Outcome Unit HandedSplit :=
  applyRun (handFS (Sample.deleted [py!"w", py!"out"])) Sample.handJob.source Sample.handJob.blen Sample.handJob.opts
    Sample.handJob.plan Sample.handJob.names
    { now := { disk := Sample.splitWorld, src := Sample.handJob.src, outdir := Sample.handJob.outdir } }

/-- The sample caller deletes the first bag before the second is begun, and the second one when it is handed over: both
were complete, and in the end there is none. -/
example : Sample.handRun.1 = .ok () ∧ Sample.handRun.2.handed.map (·.1) = [py!"b1", py!"b2"] ∧
    BagAt Sample.handRun.2.now.disk [py!"w", py!"src"] Sample.splitTree ∧
    Sample.handRun.2.now.disk.exists [py!"w", py!"out", py!"b1"] = false ∧
    Sample.handRun.2.handed.map (fun e => e.2.exists [py!"w", py!"out", py!"b1"]) = [true, false] ∧
    Sample.handRun.2.handed.map (fun e => e.2.read [py!"w", py!"out", py!"b2", py!"data", py!"b"]) = [none, some py!"uvw"] := by
  obtain ⟨h, h1, h2, h3, _⟩ := C114_handed Sample.splitWorldWf Sample.handReady (act := Sample.deleted [py!"w", py!"out"])
    (fun handed hh t hw ho => Sample.may_delete (by decide) (by decide) hh hw ho)
  have h1 : Sample.handRun = (.ok (), h) := h1
  have e : h = Sample.handRun.2 := by rw [h1]
  rw [e] at h2 h3
  exact ⟨by rw [h1], h2, h3, by decide +kernel, by decide +kernel, by decide +kernel⟩

namespace Sample

/-- The sample bag on a file system with links. -/
def linkedStart : LinkDisk :=
  { data := fun i => ([py!"BagIt-Version: 0.97\nTag-File-Character-Encoding: UTF-8\n", py!"Payload-Oxum: 5.2\n", py!"hello", py!"xy", py!"uvw"][i]?).getD []
    next := 5, canLink := true
    src := [([py!"bagit.txt"], .file 0), ([py!"bag-info.txt"], .file 1), ([py!"about.txt"], .file 2),
      ([py!"data"], .dir), ([py!"data", py!"a"], .file 3), ([py!"data", py!"b"], .file 4), ([py!"data", py!"e"], .dir)] }

/-- The caller writes to a file of the first bag when it is handed over. -/
def written (handed : List Str) (d : LinkDisk) : LinkDisk :=
  if handed = [py!"b1"] then
    match d.write [py!"data", py!"a"] py!"changed" with
    | .error _ => d
    | .ok d' => d'
  else d

end Sample

/-- The split of the bag with links into two bags that both have `data/a`. -/
def Sample.linkedRun : Outcome Unit LinkDisk :=
  applyRun (handLinkFS Sample.written) Sample.splitSource List.length {}
    [{ contents := [py!"data/a"] }, { contents := [py!"data/a", py!"data/b"] }] [py!"b1", py!"b2"] Sample.linkedStart

/-- C114 is false when the bags are made of links, as they are when a plan is made for the path of a bag (split.py:69-70,
232-233): if the caller writes to a file of the bag that was handed over, the source is changed, and so are the bags
that are to come, here one that was to have the same file. -/
theorem C114_negation_links :
    Sample.linkedRun.1 = .ok () ∧
    (LTree.view Sample.linkedStart.data Sample.linkedStart.src).read [py!"data", py!"a"] = some py!"xy" ∧
    (LTree.view Sample.linkedRun.2.data Sample.linkedRun.2.src).read [py!"data", py!"a"] = some py!"changed" ∧
    Sample.linkedRun.2.done.map (fun e => (e.1, (LTree.view Sample.linkedRun.2.data e.2).read [py!"data", py!"a"])) =
      [(py!"b1", some py!"changed"), (py!"b2", some py!"changed")] :=
  ⟨by decide +kernel, by decide +kernel, by decide +kernel, by decide +kernel⟩

end Verif
