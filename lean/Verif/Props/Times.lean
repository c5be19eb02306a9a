import Verif.Lemmas.Times
import Verif.Props.Restore
/-!
# Modification times of what is restored: C115
-/

namespace Verif

open Spec

theorem firstAt_ne_none {l : List RSource} {p : Path} {s : RSource} (hs : s ∈ l) (h : dget s.tree p ≠ none) :
    firstAt l p ≠ none := by
  induction l with
  | nil => cases hs
  | cons x l ih =>
    simp only [firstAt]
    cases hx : dget x.tree p with
    | some n => simp
    | none =>
      rw [Option.none_or]
      rcases List.mem_cons.1 hs with rfl | hs
      · exact absurd hx h
      · exact ih hs

theorem firstAt_skip {l l' : List RSource} {p : Path} (h : ∀ x ∈ l, dget x.tree p = none) :
    firstAt (l ++ l') p = firstAt l' p := by
  induction l with
  | nil => rfl
  | cons x l ih =>
    rw [List.cons_append]
    simp only [firstAt]
    rw [h x List.mem_cons_self, Option.none_or]
    exact ih (fun y hy => h y (List.mem_cons_of_mem _ hy))

theorem forall₂_find {E : RestoreEnv} {names : List Str} {srcs : List RSource}
    (h : Forall₂ (fun n s => E.find n = some s) names srcs) {n : Str} (hn : n ∈ names) :
    ∃ s ∈ srcs, E.find n = some s := by
  induction h with
  | nil => cases hn
  | cons h1 _ ih =>
    rcases List.mem_cons.1 hn with rfl | hn
    · exact ⟨_, List.mem_cons_self, h1⟩
    · obtain ⟨s, hs, e⟩ := ih hn
      exact ⟨s, List.mem_cons_of_mem _ hs, e⟩

/-- C115: after a restore, every file and directory has the modification time it has in the last member bag
that has it, the head bag counting as the last one; this for a restore to a new place and one in the head bag's place.
Missing: directories whose time is zero (`AfterEpoch`), for which it is false, see `C115_negation_epoch`. -/
theorem C115_times_partial {now : Nat → Nat} {mt : Str → Path → Option Nat} {E : RestoreEnv} (hE : EnvOk E) {H : RHead}
    {srcs : List RSource} (hA : Aggregation E H srcs) {us rm : Bool} {d out : Timed} (hs : StartsTimed mt E H d)
    (h : restoreTimed now mt E H us rm d = .ok out) {deleted : List Str}
    (hd : iterDeleted H.mode H.tree H.info = .ok deleted) {p : Path} (hne : p ≠ []) (hp : ¬ Special p)
    (hx : ¬ Deleted deleted p) (hep : AfterEpoch mt (memberBags H srcs) p) {s : RSource}
    (hl : LastWith (memberBags H srcs) p s) :
    out.tree.exists p = true ∧ mt s.path p = some (out.time p) := by
  obtain ⟨before, after, hb, hsp, hafter⟩ := hl
  have hrev : ⟨H.path, H.tree⟩ :: srcs.reverse = after.reverse ++ s :: before.reverse := by
    have := congrArg List.reverse hb
    simpa [memberBags] using this
  have hmem : s ∈ (⟨H.path, H.tree⟩ :: srcs.reverse : List RSource) := by rw [hrev]; simp
  refine ⟨?_, ?_⟩
  · rw [exists_some hne, restored_first hE hA hs.1 (untimed_restore h) hd hne hp hx]
    exact firstAt_ne_none hmem ((exists_some hne).1 hsp)
  obtain ⟨ms, h1, h2⟩ := aggregation_parts hA
  obtain ⟨d0, d2, k0, k1, k2⟩ := restoreTimed_parts h hd h1 h2
  have hnil : [] ∉ pySet deleted := by
    rw [mem_pySet]; exact nil_notMem_deleted hd
  have hbi : p ≠ [py!"bag-info.txt"] := fun e => hp (.inl e)
  have hman : ¬ ManifestFile p := fun hm => hp (manifest_special hm)
  obtain ⟨a1, a2⟩ := k0.same p hne hbi
  have hss : ∀ x ∈ sourcesOf E H srcs.reverse, WfTree x.tree ∧ x.path ≠ E.base.bagpath := by
    unfold sourcesOf
    intro x hx
    split at hx
    · exact ⟨hA.wf x (List.mem_reverse.1 hx), hA.outside x (List.mem_reverse.1 hx)⟩
    · rename_i hne
      rcases List.mem_cons.1 hx with rfl | hx
      · exact ⟨hA.head, hne⟩
      · exact ⟨hA.wf x (List.mem_reverse.1 hx), hA.outside x (List.mem_reverse.1 hx)⟩
  have hms : ∀ x ∈ sourcesOf E H srcs.reverse, x.tree.isdir p = true → mt x.path p ≠ some 0 := by
    intro x hx
    refine hep x ?_
    unfold sourcesOf at hx
    unfold memberBags
    split at hx
    · exact List.mem_append.2 (.inl (List.mem_reverse.1 hx))
    · rcases List.mem_cons.1 hx with rfl | hx
      · simp
      · exact List.mem_append.2 (.inl (List.mem_reverse.1 hx))
  have hz : DirTime p d := by
    intro hi
    rcases hs.1 with ⟨_, e⟩ | ⟨e, e'⟩
    · rw [e] at hi
      rcases isdir_iff.1 hi with hi | hi
      · exact absurd hi hne
      · cases hi
    · rw [e'] at hi
      intro h0
      refine hep ⟨H.path, H.tree⟩ (by simp [memberBags]) hi ?_
      rw [← h0]
      exact hs.2 e p (exists_of_dir hi)
  obtain ⟨t1, t2⟩ := restoreListTimed_times hE hnil hss hne hman hms (k0.dirTime hne hz) k1
  rw [exists_of_dget a1, a2] at t1
  rw [exists_of_dget a1, deleted_pySet] at t2
  rw [(k2.same p hne hp).2]
  have hafter' : ∀ x ∈ after.reverse, x.tree.exists p ≠ true := fun x hx => by
    rw [hafter x (List.mem_reverse.1 hx)]; simp
  rcases hs.1 with ⟨e, e'⟩ | ⟨e, e'⟩
  · refine t2 ?_ hx after.reverse s before.reverse ?_ hsp hafter'
    · rw [e', exists_none hne]; rfl
    · unfold sourcesOf
      rw [if_neg e]; exact hrev
  · cases hr : after.reverse with
    | nil =>
      rw [hr] at hrev
      obtain ⟨rfl, _⟩ := List.cons.inj hrev
      rw [t1 (by rw [e']; exact hsp)]
      exact hs.2 e p hsp
    | cons x l =>
      rw [hr] at hrev hafter'
      obtain ⟨rfl, hrest⟩ := List.cons.inj hrev
      refine t2 ?_ hx l s before.reverse ?_ hsp (fun y hy => hafter' y (List.mem_cons_of_mem _ hy))
      · rw [e']; exact hafter' _ List.mem_cons_self
      · unfold sourcesOf
        rw [if_pos e]; exact hrest

/-- C115 for files: no condition on times is needed. -/
theorem C115_files {now : Nat → Nat} {mt : Str → Path → Option Nat} {E : RestoreEnv} (hE : EnvOk E) {H : RHead}
    {srcs : List RSource} (hA : Aggregation E H srcs) (hc : NoClash (memberTrees H srcs)) {us rm : Bool} {d out : Timed}
    (hs : StartsTimed mt E H d) (h : restoreTimed now mt E H us rm d = .ok out) {deleted : List Str}
    (hd : iterDeleted H.mode H.tree H.info = .ok deleted) {p : Path} (hp : ¬ Special p)
    (hx : ¬ Deleted deleted p) {s : RSource} (hl : LastWith (memberBags H srcs) p s) (hf : s.tree.isfile p = true) :
    out.tree.isfile p = true ∧ mt s.path p = some (out.time p) := by
  have hmem : ∀ x ∈ memberBags H srcs, x.tree ∈ memberTrees H srcs := by
    intro x hx
    unfold memberTrees
    rcases List.mem_append.1 hx with hx | hx
    · exact List.mem_append.2 (.inl (List.mem_map.2 ⟨x, hx, rfl⟩))
    · rw [List.mem_singleton] at hx; subst hx; simp
  have hsm : s ∈ memberBags H srcs := by
    obtain ⟨b, a, e, _⟩ := hl
    rw [e]; simp
  have hws : WfTree s.tree := by
    rcases List.mem_append.1 hsm with hx | hx
    · exact hA.wf s hx
    · rw [List.mem_singleton] at hx; subst hx; exact hA.head
  have hne : p ≠ [] := (file_ne_nil hws hf).1
  obtain ⟨h1, h2⟩ := C115_times_partial hE hA hs h hd hne hp hx
    (fun x hx hi => absurd ⟨hf, hi⟩ (hc s.tree (hmem s hsm) x.tree (hmem x hx) p)) hl
  refine ⟨?_, h2⟩
  obtain ⟨before, after, hb, hsp, hafter⟩ := hl
  have hrev : ⟨H.path, H.tree⟩ :: srcs.reverse = after.reverse ++ s :: before.reverse := by
    have := congrArg List.reverse hb
    simpa [memberBags] using this
  have := restored_first hE hA hs.1 (untimed_restore h) hd hne hp hx
  rw [hrev, firstAt_skip (fun x hx => (exists_none hne).1 (by rw [hafter x (List.mem_reverse.1 hx)]; simp))] at this
  simp only [firstAt] at this
  obtain ⟨c, hc⟩ := isfile_iff.1 hf
  rw [hc] at this
  exact isfile_iff.2 ⟨c, this⟩

/-- C115: keeping times does not change what is restored: with the times of everything known, a restore succeeds
exactly if it would without regard to times, with the same files. -/
theorem C115_same_tree {now : Nat → Nat} {mt : Str → Path → Option Nat} {E : RestoreEnv} (hE : EnvOk E) {H : RHead}
    {srcs : List RSource} (hA : Aggregation E H srcs) (hk : TimesKnown mt (memberBags H srcs)) {us rm : Bool} {d : Timed}
    {t : Tree} :
    restore E H us rm d.tree = .ok t ↔ ∃ out, restoreTimed now mt E H us rm d = .ok out ∧ out.tree = t := by
  constructor
  · intro h
    obtain ⟨deleted, ms, d1, d2, d3, e1, e2, _⟩ := restore_parts h
    obtain ⟨ms', h1, h2⟩ := aggregation_parts hA
    rw [e2] at h1
    cases h1
    have hnil : [] ∉ pySet deleted := by
      rw [mem_pySet]; exact nil_notMem_deleted e1
    refine restore_timed e1 e2 ?_ ?_ h
    · intro a ha
      exact hk ⟨H.path, H.tree⟩ (by simp [memberBags]) _ (acts_exist hA.head (hE.walk _ hA.head) hnil ha)
    · intro n hn s hf a ha
      obtain ⟨s', hs', hf'⟩ := forall₂_find h2 hn
      rw [hf] at hf'
      cases hf'
      have hs := List.mem_reverse.1 hs'
      exact hk s (by simp [memberBags, hs]) _ (acts_exist (hA.wf s hs) (hE.walk _ (hA.wf s hs)) hnil ha)
  · rintro ⟨out, h, rfl⟩
    exact untimed_restore h

/-! ## Samples -/

namespace Sample

/-- Times of the sample's bags: the member is older than the head bag, and in neither do all things have the same time. -/
def times (b : Str) (p : Path) : Option Nat :=
  if b = py!"/store/m1" then some (100 + p.length) else if b = py!"/store/hb" then some (200 + p.length) else none

/-- A destination that does not exist yet. -/
def noDest : Timed := { tree := [], time := fun _ => 0, tick := 0 }

/-- The clock during the restore. -/
def clock (n : Nat) : Nat := 1000 + n

def timedRun : Except PyErr Timed := restoreTimed clock times renv head true true noDest

theorem timedRun_ok : ∃ out, timedRun = .ok out ∧
    (out.time [py!"data", py!"a"] == 202 && out.time [py!"data", py!"b"] == 102 && out.time [py!"data"] == 201 &&
      decide (1000 ≤ out.time [py!"bag-info.txt"])) = true :=
  ok_of_check (by decide +kernel)

theorem starts_noDest (mt : Str → Path → Option Nat) : StartsTimed mt renv head noDest :=
  ⟨.inl ⟨by decide, rfl⟩, fun e => absurd e (by decide)⟩

def sampleBags : List RSource := memberBags head [⟨py!"/store/m1", m1⟩]

theorem notSpecial_b : ¬ Special [py!"data", py!"b"] := by
  rintro (e | e | e | ⟨a, e | e⟩ | e)
  · cases e
  · cases e
  · cases e
  · cases e
  · cases e
  · exact absurd e (by decide)

theorem notSpecial_data : ¬ Special [py!"data"] := by
  rintro (e | e | e | ⟨a, e | e⟩ | e)
  · exact absurd e (by decide)
  · exact absurd e (by decide)
  · exact absurd e (by decide)
  · have := congrArg (fun l => l.head?.bind List.head?) e; exact absurd this (by simp)
  · have := congrArg (fun l => l.head?.bind List.head?) e; exact absurd this (by simp)
  · exact absurd e (by decide)

theorem notDeleted_data (f : List Str) (hf : [py!"data", py!"x"].isPrefixOf (py!"data" :: f) = false) (hl : f.length ≤ 1) :
    ¬ Deleted [py!"data/x"] (py!"data" :: f) := by
  rintro ⟨q, hq, hqp, hm⟩
  rw [List.mem_singleton] at hm
  obtain ⟨r, hr⟩ := hqp
  match q, hr with
  | [], _ => exact hq rfl
  | [a], hr =>
    cases hr
    exact absurd hm (by decide)
  | [a, b], hr =>
    cases hr
    have hb : b = py!"x" := by
      have : py!"data/" ++ b = py!"data/" ++ py!"x" := hm
      exact List.append_cancel_left this
    subst hb
    simp [List.isPrefixOf] at hf
  | a :: b :: c :: q, hr =>
    cases hr
    simp at hl

end Sample

/-- The hypotheses of `C115_times_partial` hold for the file the sample restores from the member bag, and for the directory
that both bags have. -/
example : ∃ out, restoreTimed Sample.clock Sample.times Sample.renv Sample.head true true Sample.noDest = .ok out ∧
    out.time [py!"data", py!"b"] = 102 ∧ out.time [py!"data"] = 201 := by
  obtain ⟨out, h, _⟩ := Sample.timedRun_ok
  have k1 := (C115_files Sample.renv_ok Sample.aggregation Sample.clash_sample (Sample.starts_noDest _) h (by rfl)
    Sample.notSpecial_b (Sample.notDeleted_data [py!"b"] (by decide) (by decide))
    (s := ⟨py!"/store/m1", Sample.m1⟩) ⟨[], _, rfl, by decide, by decide⟩ (by decide)).2
  have k2 := (C115_times_partial Sample.renv_ok Sample.aggregation (Sample.starts_noDest _) h (by rfl)
    (p := [py!"data"]) (by simp) Sample.notSpecial_data (Sample.notDeleted_data [] (by decide) (by decide))
    (by
      intro s hs _
      have : s = ⟨py!"/store/m1", Sample.m1⟩ ∨ s = ⟨py!"/store/hb", Sample.hb⟩ := by simpa [memberBags, Sample.head] using hs
      rcases this with rfl | rfl <;> decide)
    (s := ⟨py!"/store/hb", Sample.hb⟩) ⟨[⟨py!"/store/m1", Sample.m1⟩], [], rfl, by decide, by simp⟩).2
  refine ⟨out, h, ?_, ?_⟩
  · exact (Option.some.inj k1).symm
  · exact (Option.some.inj k2).symm

/-- The hypotheses of `C115_same_tree` hold for the sample. -/
example : ∃ out, restoreTimed Sample.clock Sample.times Sample.renv Sample.head true true Sample.noDest = .ok out ∧
    out.tree = Sample.restored :=
  (C115_same_tree Sample.renv_ok Sample.aggregation (by
    intro s hs p _
    have : s = ⟨py!"/store/m1", Sample.m1⟩ ∨ s = ⟨py!"/store/hb", Sample.hb⟩ := by simpa [memberBags, Sample.head] using hs
    rcases this with rfl | rfl <;> rfl)).1 Sample.restore_sample

/-! ## The time zero, and times that are not known -/

namespace Sample

/-- As `times`, but the directory `data` of the head bag has the time zero. -/
def epochTimes (b : Str) (p : Path) : Option Nat :=
  if b = py!"/store/hb" ∧ p = [py!"data"] then some 0 else times b p

theorem epochRun_ok : ∃ out, restoreTimed clock epochTimes renv head true true noDest = .ok out ∧
    (out.tree.exists [py!"data"] && decide (1000 ≤ out.time [py!"data"])) = true :=
  ok_of_check (by decide +kernel)

/-- As `times`, but nothing is known about the directory `data` of the head bag. -/
def unknownTimes (b : Str) (p : Path) : Option Nat :=
  if b = py!"/store/hb" ∧ p = [py!"data"] then none else times b p

end Sample

/-- C115 fails for directories whose time is zero: `if rmtime` (restore.py:221) takes zero for a missing time. -/
theorem C115_negation_epoch : ¬ ∀ (now : Nat → Nat) (mt : Str → Path → Option Nat) (E : RestoreEnv) (H : RHead)
    (srcs : List RSource) (us rm : Bool) (d out : Timed) (deleted : List Str) (p : Path) (s : RSource),
    EnvOk E → Aggregation E H srcs → StartsTimed mt E H d → restoreTimed now mt E H us rm d = .ok out →
    iterDeleted H.mode H.tree H.info = .ok deleted → p ≠ [] → ¬ Special p → ¬ Deleted deleted p →
    LastWith (memberBags H srcs) p s → mt s.path p = some (out.time p) := by
  intro h
  obtain ⟨out, hr, hc⟩ := Sample.epochRun_ok
  have := h Sample.clock Sample.epochTimes Sample.renv Sample.head [⟨py!"/store/m1", Sample.m1⟩] true true Sample.noDest out
    [py!"data/x"] [py!"data"] ⟨py!"/store/hb", Sample.hb⟩ Sample.renv_ok Sample.aggregation (Sample.starts_noDest _) hr rfl
    (by simp) Sample.notSpecial_data (Sample.notDeleted_data [] (by decide) (by decide))
    ⟨[⟨py!"/store/m1", Sample.m1⟩], [], rfl, by decide, by simp⟩
  rw [Bool.and_eq_true, decide_eq_true_eq] at hc
  have e : out.time [py!"data"] = 0 := (Option.some.inj this).symm
  omega

/-- C115: a restore that would otherwise succeed fails if a bag cannot tell the time of something to be copied. -/
theorem C115_negation_unknown : ¬ ∀ (now : Nat → Nat) (mt : Str → Path → Option Nat) (E : RestoreEnv) (H : RHead)
    (srcs : List RSource) (us rm : Bool) (d : Timed) (t : Tree),
    EnvOk E → Aggregation E H srcs → StartsTimed mt E H d → restore E H us rm d.tree = .ok t →
    ∃ out, restoreTimed now mt E H us rm d = .ok out := by
  intro h
  obtain ⟨out, hr⟩ := h Sample.clock Sample.unknownTimes Sample.renv Sample.head [⟨py!"/store/m1", Sample.m1⟩] true true
    Sample.noDest Sample.restored Sample.renv_ok Sample.aggregation (Sample.starts_noDest _) Sample.restore_sample
  have : (match restoreTimed Sample.clock Sample.unknownTimes Sample.renv Sample.head true true Sample.noDest with
    | .ok _ => false | .error _ => true) = true := by decide +kernel
  rw [hr] at this
  cases this

end Verif
