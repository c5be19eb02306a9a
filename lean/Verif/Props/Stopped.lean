import Verif.Lemmas.Stopped
import Verif.Props.Apply
/-!
# A split that is stopped on the way (C100)
-/

namespace Verif

open Spec

/-- What the operations do to the disk: the source stays, bags that are done stay, and names stay taken. -/
def Grew (a b : CopyDisk) : Prop := a.src = b.src ∧ a.done <+: b.done ∧ ∀ n ∈ a.taken, n ∈ b.taken

theorem grew_refl (a : CopyDisk) : Grew a a := ⟨rfl, List.prefix_refl _, fun _ h => h⟩

theorem grew_lift {d x : CopyDisk} {r : Except PyErr Tree} (h : d.lift r = .ok x) : Grew d x := by
  cases r with
  | error e => cases h
  | ok t => cases h; exact ⟨rfl, List.prefix_refl _, fun _ h => h⟩

theorem copy_respects : Respects Grew copyFS where
  refl := grew_refl
  trans h1 h2 := ⟨h1.1.trans h2.1, h1.2.1.trans h2.2.1, fun n hn => h2.2.2 n (h1.2.2 n hn)⟩
  newBag {d n x} h := by
    simp only [copyFS] at h
    split at h
    · cases h
    · cases h; exact ⟨rfl, List.prefix_refl _, fun m hm => List.mem_cons_of_mem _ hm⟩
  finish := ⟨rfl, List.prefix_append _ _, fun _ h => h⟩
  mkdir h := grew_lift h
  makedirs h := grew_lift h
  write h := grew_lift h
  append h := grew_lift h
  replicate {d p x} h := by
    simp only [copyFS] at h
    split at h
    · cases h
    · exact grew_lift h

/-- C100 for a split that copies: at whatever point it is stopped, the source is as it was, the bags made before are
still there, those finished are as the whole split makes them, and from the source the whole split can be made, in a
directory as it was before. -/
theorem C100_stopped (S : Source) (blen : Str → Nat) (o : ApplyOpts) (plan : List Manifest) (names : List Str) (d d' : CopyDisk)
    (h : applyPlan copyFS S blen o plan names d = .ok d') (x : CopyDisk) (hx : x ∈ applyStates copyFS S blen o plan names d) :
    x.src = d.src ∧ d.done <+: x.done ∧ x.done <+: d'.done ∧
      applyPlan copyFS S blen o plan names { d with src := x.src } = .ok d' := by
  obtain ⟨h1, h2⟩ := (applyStates_between copy_respects h).2 x hx
  refine ⟨h1.1.symm, h1.2.1, h2.2.1, ?_⟩
  rw [← h1.1]
  exact h

/-- The states at the beginning and the end are among those in which a split may be stopped. -/
theorem applyStates_ends {S : Source} {blen : Str → Nat} {o : ApplyOpts} {plan : List Manifest} {names : List Str} {d d' : CopyDisk}
    (h : applyPlan copyFS S blen o plan names d = .ok d') : d' ∈ applyStates copyFS S blen o plan names d :=
  (applyStates_between copy_respects h).1

theorem prefix_map {α β : Type} {f : α → β} {a b : List α} (h : a <+: b) : a.map f <+: b.map f := by
  obtain ⟨t, rfl⟩ := h
  exact ⟨t.map f, by rw [List.map_append]⟩

/-- C100 for a split that makes hard links.  Missing: plans in which the head bag takes over a multibag tag file of the
source (see `C41_negation`). -/
theorem C100_link_stopped_partial {S : Source} {blen : Str → Nat} {o : ApplyOpts} {plan : List Manifest}
    {names : List Str} {l l' : LinkDisk} {c' : CopyDisk} (fresh : Fresh l) (hout : l.out = [])
    (hsrc : l.src.view l.data = S.tree) (hf : ∀ m ∈ plan, ∀ f ∈ m.contents, PlanEntry f)
    (ha : ∀ f, ∀ ah ∈ S.hashes f, '/' ∉ ah.1)
    (hh : l.canLink = true → ∀ m ∈ plan.getLast?, ∀ f ∈ m.contents, ¬ HeadFile (comps f))
    (hcopy : applyPlan copyFS S blen o plan names
      { src := S.tree, taken := l.taken, done := l.done.map (fun e => (e.1, e.2.view l.data)) } = .ok c')
    (h : applyPlan linkFS S blen o plan names l = .ok l') (x : LinkDisk) (hx : x ∈ applyStates linkFS S blen o plan names l) :
    x.src.view x.data = S.tree ∧
      l.done.map (fun e => (e.1, e.2.view l.data)) <+: x.done.map (fun e => (e.1, e.2.view x.data)) ∧
      x.done.map (fun e => (e.1, e.2.view x.data)) <+: l'.done.map (fun e => (e.1, e.2.view l'.data)) := by
  obtain ⟨l2, k1, _, k3, _⟩ := C41_link_source_unchanged_partial fresh hout hsrc hf ha hh hcopy
  rw [h] at k1
  cases k1
  have sim : Sim (fun _ => False) { src := S.tree, taken := l.taken, done := l.done.map (fun e => (e.1, e.2.view l.data)) } l :=
      { src := hsrc, out := by rw [hout]; rfl, done := rfl, taken := rfl, nodup := by rw [hout]; exact List.nodup_nil
        freshSrc := by rintro i ⟨p, hp⟩; exact fresh.src p i hp
        freshOut := by rw [hout]; rintro i ⟨p, hp⟩; cases hp
        freshDone := by rintro e he i ⟨p, hp⟩; exact fresh.done e.1 e.2 he p i hp
        own := by intro p i hp; rw [hout] at hp; cases hp
        link := by intro _ p i hp; rw [hout] at hp; cases hp }
  have tsim : TracedSim (fun _ => False)
      ⟨{ src := S.tree, taken := l.taken, done := l.done.map (fun e => (e.1, e.2.view l.data)) }, []⟩ ⟨l, []⟩ := ⟨sim, .nil⟩
  have between := applyStates_between copy_respects hcopy
  unfold applyStates at between hx
  unfold applyPlan at between hx
  cases hi : initialIndex S with
  | error e => rw [hi] at hx; cases hx
  | ok mi =>
    rw [hi] at between hx
    simp only at between hx
    cases hc : applyLoop copyFS.traced S blen o plan names mi.1 mi.2
        ⟨{ src := S.tree, taken := l.taken, done := l.done.map (fun e => (e.1, e.2.view l.data)) }, []⟩ with
    | error e =>
      rw [hc] at between
      cases between.1
    | ok tc =>
      obtain ⟨tl, g1, L, g2⟩ := sim_applyLoop traced_simulates ⟨_, tsim⟩ (fun _ _ => uses_all ..) hf hh (fun _ _ => trivial) hc
      rw [hc] at between
      rw [g1] at hx
      have all : Forall₂ (fun a b => ∃ L, Sim L a b) tc.states tl.states := .cons ⟨L, g2.1⟩ g2.2
      obtain ⟨y, hy, L', s⟩ := forall₂_mem_right all hx
      obtain ⟨b1, b2⟩ := between.2 y hy
      rw [s.src, s.done, k3]
      exact ⟨b1.1.symm, b1.2.1, b2.2.1⟩

/-- C100 fails in this: once the directory of the first bag has been made, running the split again in the same place is
refused. -/
theorem C100_negation_rerun (S : Source) (blen : Str → Nat) (o : ApplyOpts) (m : Manifest) (plan : List Manifest) (names : List Str)
    (x : CopyDisk) (hi : ∃ i, initialIndex S = .ok i) (n : Str) (hn : names.head?.or m.name = some n) (ht : n ∈ x.taken) :
    applyPlan copyFS S blen o (m :: plan) names x = .error .osError := by
  obtain ⟨i, hi⟩ := hi
  simp only [applyPlan, hi, applyLoop, hn, writeBag, startBag, copyFS, ht, if_true]

namespace Sample

/-- Where the sample split may be stopped. -/
def splitStates : List CopyDisk :=
  applyStates copyFS splitSource List.length {} splitPlan [py!"b1", py!"b2"] { src := splitTree }

end Sample

/-- The sample split can be stopped when one bag is finished and another one begun, and then running it again is refused. -/
example : ∃ x ∈ Sample.splitStates, x.done.map Prod.fst = [py!"b1"] ∧ x.out.isfile [py!"bagit.txt"] = true ∧
    x.out.isfile [py!"data", py!"b"] = false ∧ x.src = Sample.splitTree ∧ x.done <+: Sample.splitDone.done ∧
    applyPlan copyFS Sample.splitSource List.length {} Sample.splitPlan [py!"b1", py!"b2"] x = .error .osError := by
  have : ∃ x ∈ Sample.splitStates, (x.done.map Prod.fst = [py!"b1"] ∧ x.out.isfile [py!"bagit.txt"] = true ∧
      x.out.isfile [py!"data", py!"b"] = false) ∧ py!"b1" ∈ x.taken := by decide +kernel
  obtain ⟨x, hx, ⟨h1, h2, h3⟩, h4⟩ := this
  obtain ⟨k1, _, k3, _⟩ := C100_stopped _ _ _ _ _ _ _ Sample.split_ok x hx
  exact ⟨x, hx, h1, h2, h3, k1, k3, C100_negation_rerun _ _ _ _ _ _ _ ⟨_, rfl⟩ _ rfl h4⟩

/-- C100 fails in this too: a split can be stopped when the last bag says that it is a head bag, but has no list of
members. -/
theorem C100_negation_head : ∃ x ∈ Sample.splitStates,
    x.out.read [py!"bag-info.txt"] = some (py!"Multibag-Version: 0.4\nPayload-Oxum: 3.1\nMultibag-Tag-Directory: multibag\n" ++
      py!"Multibag-Head-Version: 1\n") ∧
    x.out.exists [py!"multibag", py!"member-bags.tsv"] = false := by
  decide +kernel

namespace Sample

/-- The sample source on a disk that can make hard links. -/
def splitLinks : LinkDisk :=
  { data := fun i => ([py!"BagIt-Version: 0.97\nTag-File-Character-Encoding: UTF-8\n", py!"Payload-Oxum: 5.2\n", py!"hello",
      py!"xy", py!"uvw"][i]?).getD []
    next := 5, canLink := true
    src := [([py!"bagit.txt"], .file 0), ([py!"bag-info.txt"], .file 1), ([py!"about.txt"], .file 2),
      ([py!"data"], .dir), ([py!"data", py!"a"], .file 3), ([py!"data", py!"b"], .file 4), ([py!"data", py!"e"], .dir)] }

theorem splitLinks_fresh : Fresh splitLinks := by
  refine ⟨?_, ?_⟩
  · intro p i h
    simp [splitLinks] at h
    rcases h with ⟨_, rfl⟩ | ⟨_, rfl⟩ | ⟨_, rfl⟩ | ⟨_, rfl⟩ | ⟨_, rfl⟩ <;> decide
  · intro n t h; cases h

end Sample

/-- The sample split by hard links can be stopped when one bag is finished. -/
example : ∃ x ∈ applyStates linkFS Sample.splitSource List.length {} Sample.splitPlan [py!"b1", py!"b2"] Sample.splitLinks,
    x.done.map Prod.fst = [py!"b1"] ∧ x.out.view x.data ≠ [] ∧ x.src.view x.data = Sample.splitTree ∧
    x.done.map (fun e => (e.1, e.2.view x.data)) <+: Sample.splitDone.done := by
  have : ∃ x ∈ applyStates linkFS Sample.splitSource List.length {} Sample.splitPlan [py!"b1", py!"b2"] Sample.splitLinks,
      x.done.map Prod.fst = [py!"b1"] ∧ x.out.view x.data ≠ [] := by decide +kernel
  obtain ⟨x, hx, h1, h2⟩ := this
  have ha : ∀ f, ∀ ah ∈ Sample.splitSource.hashes f, '/' ∉ ah.1 := Sample.splitOrdinary.hashes
  have hh : Sample.splitLinks.canLink = true → ∀ m ∈ Sample.splitPlan.getLast?, ∀ f ∈ m.contents, ¬ HeadFile (comps f) := by
    intro _ m hm f hf hh
    simp [Sample.splitPlan] at hm
    subst hm
    simp at hf
    rcases hf with rfl | rfl <;> (rcases hh with h | h | h <;> revert h <;> decide)
  obtain ⟨l', k1, _, k3, _⟩ := C41_link_source_unchanged_partial Sample.splitLinks_fresh rfl (by decide)
    Sample.splitEntries ha hh Sample.split_ok
  obtain ⟨g1, _, g3⟩ := C100_link_stopped_partial Sample.splitLinks_fresh rfl (by decide)
    Sample.splitEntries ha hh Sample.split_ok k1 x hx
  rw [k3] at g3
  exact ⟨x, hx, h1, h2, g1, g3⟩

end Verif
