import Verif.Lemmas.SplitNames
/-!
# C132: output bags with any names
-/

namespace Verif
open Spec

/-- What writing one output bag leaves as it is, and where it puts things. -/
theorem makeBag_kept {m : BagMaking} {o : Output} {B D : Path} (hB : AbsPath m.bag B) (hs : Sound m B o D) {d : LDisk}
    (hr : Rooted d) (hi : InodesOk d) (hbag : d.isdir B = true) :
    InodesOk (d.makeBag m o).2 ∧ (∀ p n, d.node p = some n → (d.makeBag m o).2.node p = some n) ∧
    ∀ p, d.node p = none → (d.makeBag m o).2.node p ≠ none → Inside D p := by
  rcases filled_makeBag hB hs hr hi hbag with e | ⟨hD, _, hf, _⟩
  · rw [e]
    exact ⟨hi, fun _ _ h => h, fun p h h' => absurd h h'⟩
  · have hout : ∀ p n, dget d.names p = some n → ¬ D <+: p := by
      rintro p n hp ⟨x, rfl⟩
      rw [below_new hr hD] at hp; cases hp
    have hmid : ∀ p n, dget d.names p = some n → dget (dset d.names D .dir) p = some n := by
      intro p n hp
      rw [dget_dset, if_neg (fun e : D = p => hout p n hp (e ▸ List.prefix_refl _))]; exact hp
    refine ⟨hf.after.ok, fun p n hn => ?_, fun p hn hn' => ?_⟩
    · unfold LDisk.node at hn ⊢
      cases hg : dget d.names p with
      | none => rw [hg] at hn; cases hn
      | some v =>
        rw [hg] at hn
        rw [hf.grown.keep p v (hmid p v hg), ← hn]
        cases v with
        | dir => rfl
        | file i => simp only [Option.map_some, LNode.view, hf.kept p i (hout p _ hg) (hmid p _ hg)]
    · by_cases e : p = D
      · exact e ▸ List.prefix_refl _
      · have hnone : dget d.names p = none := by
          cases hg : dget d.names p with
          | none => rfl
          | some v => simp [LDisk.node, hg] at hn
        obtain ⟨x, _, hx⟩ := hf.grown.new p (by show dget (dset _ _ _) p = none; rw [dget_dset, if_neg (fun h => e h.symm)]; exact hnone)
          (fun h => hn' (by simp [LDisk.node, h]))
        exact ⟨x, hx.symm⟩

theorem isdir_kept {d d' : LDisk} (h : ∀ p n, d.node p = some n → d'.node p = some n) {p : Path} (hp : d.isdir p = true) :
    d'.isdir p = true := by
  rcases ldisk_isdir_iff.1 hp with e | e
  · exact ldisk_isdir_iff.2 (.inl e)
  · have := h p .dir (by simp [LDisk.node, e, LNode.view])
    refine ldisk_isdir_iff.2 (.inr ?_)
    unfold LDisk.node at this
    cases hg : dget d'.names p with
    | none => rw [hg] at this; cases this
    | some v =>
      cases v with
      | dir => rfl
      | file i => rw [hg] at this; simp [LNode.view] at this

/-- Writing output bags one after another. -/
theorem makeBags_kept {m : BagMaking} {B : Path} (hB : AbsPath m.bag B) (os : List Output) : ∀ {d : LDisk}, Rooted d → InodesOk d →
    d.isdir B = true → (∀ o ∈ os, ∃ D, Sound m B o D) →
    (∀ p n, d.node p = some n → (d.makeBags m os).2.node p = some n) ∧
    ∀ p, d.node p = none → (d.makeBags m os).2.node p ≠ none → ∃ o ∈ os, ∃ D, Sound m B o D ∧ Inside D p := by
  induction os with
  | nil => intro d _ _ _ _; exact ⟨fun _ _ h => h, fun p h h' => absurd h h'⟩
  | cons o os ih =>
    intro d hr hi hbag hs
    obtain ⟨D, hD⟩ := hs o (by simp)
    obtain ⟨k1, k2, k3⟩ := makeBag_kept hB hD hr hi hbag
    have hr' := rooted_makeBag m o hr
    have hbag' := isdir_kept k2 hbag
    unfold LDisk.makeBags
    revert k1 k2 k3 hr' hbag'
    generalize d.makeBag m o = r
    obtain ⟨r, d1⟩ := r
    intro k1 k2 k3 hr' hbag'
    cases r with
    | error e => exact ⟨k2, fun p h h' => ⟨o, by simp, D, hD, k3 p h h'⟩⟩
    | ok u =>
      obtain ⟨g1, g2⟩ := ih hr' k1 hbag' (fun o ho => hs o (by simp [ho]))
      refine ⟨fun p n h => g1 p n (k2 p n h), fun p h h' => ?_⟩
      cases hn : d1.node p with
      | none =>
        obtain ⟨o', ho', w⟩ := g2 p hn h'
        exact ⟨o', by simp [ho'], w⟩
      | some v => exact ⟨o, by simp, D, hD, k3 p h (by simp [hn])⟩

/-- **C132**, part: whatever is on the disk before output bags are written is there afterwards as it was, whatever the
outcome and whatever the names are, relative with any number of slashes or absolute.
Missing: output bags in the source bag; names with `..`, `.` or empty components; entries that are absolute, have `..`
(`C131_negation_outside`) or lead to files that the split writes itself. -/
theorem C132_kept_partial {d : LDisk} (hr : Rooted d) (hi : InodesOk d) {m : BagMaking} {B : Path} (hB : AbsPath m.bag B)
    (hbag : d.isdir B = true) {os : List Output} (hs : ∀ o ∈ os, ∃ D, Sound m B o D) {p : Path} {n : Node}
    (h : d.node p = some n) : (d.makeBags m os).2.node p = some n :=
  (makeBags_kept hB os hr hi hbag hs).1 p n h

/-- **C132**, part: whatever is new on the disk is in one of the directories that the names say.
Missing: as in `C132_kept_partial`. -/
theorem C132_where_partial {d : LDisk} (hr : Rooted d) (hi : InodesOk d) {m : BagMaking} {B : Path} (hB : AbsPath m.bag B)
    (hbag : d.isdir B = true) {os : List Output} (hs : ∀ o ∈ os, ∃ D, Sound m B o D) {p : Path}
    (h : d.node p = none) (h' : (d.makeBags m os).2.node p ≠ none) :
    ∃ o ∈ os, ∃ D, AbsPath (pathJoin m.outdir o.name) D ∧ Inside D p := by
  obtain ⟨o, ho, D, hD, hp⟩ := (makeBags_kept hB os hr hi hbag hs).2 p h h'
  exact ⟨o, ho, D, hD.place, hp⟩

/-- **C132**, part: if the output bags are all written, every entry that leads to a file of the source leads to a file with
the same content in its output bag, in the end, after all the bags.
Missing: as in `C132_kept_partial`. -/
theorem C132_delivered_partial {m : BagMaking} {B : Path} (hB : AbsPath m.bag B) {os : List Output} :
    ∀ {d : LDisk}, Rooted d → InodesOk d → d.isdir B = true → (∀ o ∈ os, ∃ D, Sound m B o D) →
    (d.makeBags m os).1 = .ok () → ∀ o ∈ os, ∀ D, Sound m B o D → ∀ f ∈ o.entries, ∀ s,
    d.node (leadsTo B f) = some (.file s) → (d.makeBags m os).2.node (leadsTo D f) = some (.file s) := by
  induction os with
  | nil => intro d _ _ _ _ _ o ho; cases ho
  | cons o os ih =>
    intro d hr hi hbag hs hok o' ho' D hD f hf s hfs
    obtain ⟨D0, hD0⟩ := hs o (by simp)
    obtain ⟨k1, k2, -⟩ := makeBag_kept hB hD0 hr hi hbag
    unfold LDisk.makeBags at hok ⊢
    obtain ⟨hok1, e⟩ := andThen_ok hok
    rw [e] at hok ⊢
    have hr' := rooted_makeBag m o hr
    have hbag' := isdir_kept k2 hbag
    have hs' : ∀ o ∈ os, ∃ D, Sound m B o D := fun o ho => hs o (by simp [ho])
    rcases List.mem_cons.1 ho' with rfl | ho'
    · refine (makeBags_kept hB os hr' k1 hbag' hs').1 _ _ ?_
      rcases filled_makeBag hB hD hr hi hbag with e' | ⟨_, hBD, hfill, hdel⟩
      · rw [e'] at hok1; cases hok1
      · have hdown := hD.down f hf
        rw [leads_below hdown] at hfs ⊢
        obtain ⟨k, hk⟩ : ∃ k, dget d.names (B ++ placeBelow f) = some (.file k) := by
          unfold LDisk.node at hfs
          cases hg : dget d.names (B ++ placeBelow f) with
          | none => rw [hg] at hfs; cases hfs
          | some v =>
            cases v with
            | dir => rw [hg] at hfs; simp [LNode.view] at hfs
            | file k => exact ⟨k, rfl⟩
        obtain ⟨i, k', h1, h2, h3⟩ := (hdel hok1).1 f hf k hk
        have := k2 _ _ hfs
        simp only [LDisk.node, h2, Option.map_some, LNode.view] at this
        simp only [LDisk.node, h1, Option.map_some, LNode.view, h3, this]
    · exact ih hr' k1 hbag' hs' hok o' ho' D hD f hf s (k2 _ _ hfs)

/-- **C132**: where something is already, no output bag is written: the split fails and changes nothing. -/
theorem C132_taken {d : LDisk} {m : BagMaking} {o : Output} {D : Path} (hD : AbsPath (pathJoin m.outdir o.name) D)
    (h : d.exists D = true) (os : List Output) : d.makeBags m (o :: os) = (.error .osError, d) := by
  unfold LDisk.makeBags LDisk.makeBag
  simp only [mkdirAt_taken hD h]
  rfl

theorem taken_fails {m : BagMaking} {B : Path} (hB : AbsPath m.bag B) {os : List Output} {o' : Output} {D : Path}
    (ho : o' ∈ os) (hD : AbsPath (pathJoin m.outdir o'.name) D) : ∀ {d : LDisk}, Rooted d → InodesOk d → d.isdir B = true →
    (∀ o ∈ os, ∃ D, Sound m B o D) → d.isdir D = true → (d.makeBags m os).1 ≠ .ok () := by
  induction os with
  | nil => cases ho
  | cons o os ih =>
    intro d hr hi hbag hs hx hok
    rcases List.mem_cons.1 ho with rfl | ho
    · rw [C132_taken hD (isdir_exists hx)] at hok; cases hok
    · obtain ⟨D0, hD0⟩ := hs o (by simp)
      obtain ⟨k1, k2, -⟩ := makeBag_kept hB hD0 hr hi hbag
      unfold LDisk.makeBags at hok
      rw [(andThen_ok hok).2] at hok
      exact ih ho (rooted_makeBag m o hr) k1 (isdir_kept k2 hbag) (fun o ho => hs o (by simp [ho])) (isdir_kept k2 hx) hok

/-- **C132**, part: if the output bags are all written, their names are all different.
Missing: as in `C132_kept_partial`. -/
theorem C132_distinct_partial {m : BagMaking} {B : Path} (hB : AbsPath m.bag B) {os : List Output} : ∀ {d : LDisk}, Rooted d →
    InodesOk d → d.isdir B = true → (∀ o ∈ os, ∃ D, Sound m B o D) → (d.makeBags m os).1 = .ok () →
    (os.map (·.name)).Nodup := by
  induction os with
  | nil => intros; exact List.nodup_nil
  | cons o os ih =>
    intro d hr hi hbag hs hok
    obtain ⟨D, hD⟩ := hs o (by simp)
    obtain ⟨k1, k2, -⟩ := makeBag_kept hB hD hr hi hbag
    unfold LDisk.makeBags at hok
    obtain ⟨hok1, e⟩ := andThen_ok hok
    rw [e] at hok
    have hr' := rooted_makeBag m o hr
    have hbag' := isdir_kept k2 hbag
    have hs' : ∀ o ∈ os, ∃ D, Sound m B o D := fun o ho => hs o (by simp [ho])
    refine List.nodup_cons.2 ⟨fun hm => ?_, ih hr' k1 hbag' hs' hok⟩
    obtain ⟨o', ho', e'⟩ := List.mem_map.1 hm
    refine taken_fails (D := D) hB ho' ?_ hr' k1 hbag' hs' ?_ hok
    · rw [show o'.name = o.name from e']; exact hD.place
    · rcases filled_makeBag hB hD hr hi hbag with e'' | ⟨_, _, hf, _⟩
      · rw [e''] at hok1; cases hok1
      · exact hf.after.dir D (List.prefix_refl _)

/-- A bag `/v/a` with a file that has two names, and a directory `/o` with a file. -/
def linkedBag : LDisk where
  names := [([py!"v"], .dir), ([py!"v", py!"a"], .dir), ([py!"v", py!"a", py!"bagit.txt"], .file 0),
    ([py!"v", py!"a", py!"data"], .dir), ([py!"v", py!"a", py!"data", py!"x"], .file 1),
    ([py!"v", py!"a", py!"data", py!"y"], .file 1), ([py!"o"], .dir), ([py!"o", py!"old"], .file 2)]
  data i := if i = 0 then py!"tags" else if i = 1 then py!"one" else py!"other"
  next := 3

theorem linkedBag_rooted : Rooted linkedBag := rooted_of (by decide)

theorem linkedBag_ok : InodesOk linkedBag := by
  intro p i h
  have hm := mem_of_dget h
  simp only [linkedBag, List.mem_cons, Prod.mk.injEq, LNode.file.injEq, reduceCtorEq, and_false, false_or,
    List.not_mem_nil, or_false] at hm
  rcases hm with ⟨_, rfl⟩ | ⟨_, rfl⟩ | ⟨_, rfl⟩ | ⟨_, rfl⟩ <;> decide

/-- A split of `/v/a` into `/o`. -/
def intoO (hardlink : Bool) : BagMaking := { bag := py!"/v/a", outdir := py!"/o", manifests := [py!"manifest-md5.txt"], hardlink }

/-- A member bag `b`, and a head bag in the payload directory of it. -/
def nestedOutputs : List Output :=
  [{ name := py!"b", entries := [py!"data/x"], hashes := [(py!"manifest-md5.txt", py!"0 data/x")], info := py!"I: b" },
   { name := py!"b/data/h", entries := [py!"data//y", py!"data/none"], info := py!"I: h", head := some (py!"b", py!"t", py!"I: a") }]

theorem abs_good {s : Str} {D : Path} (h0 : D ≠ []) (hs : s = '/' :: joinWith ['/'] D)
    (h : ∀ c ∈ D, c ≠ [] ∧ '/' ∉ c ∧ c ≠ ['.'] ∧ c ≠ ['.', '.']) : AbsPath s D :=
  ⟨⟨h0, fun c hc => ⟨(h c hc).1, (h c hc).2.1, (h c hc).2.2.1, (h c hc).2.2.2⟩⟩, hs⟩

theorem sound_b (l : Bool) : Sound (intoO l) [py!"v", py!"a"] (nestedOutputs[0]'(by decide)) [py!"o", py!"b"] where
  place := abs_good (by decide) (by cases l <;> decide) (by decide)
  outside := by unfold Inside; decide
  down := by
    intro f hf
    simp only [nestedOutputs, List.getElem_cons_zero, List.mem_singleton] at hf
    subst hf
    exact ⟨by decide, by decide⟩
  free := by cases l <;> decide
  manifests := by
    intro n hn
    have : n = py!"manifest-md5.txt" := by cases l <;> simpa [intoO, nestedOutputs] using hn
    subst this
    exact ⟨good_lit _, by decide⟩

theorem sound_h (l : Bool) : Sound (intoO l) [py!"v", py!"a"] (nestedOutputs[1]'(by decide)) [py!"o", py!"b", py!"data", py!"h"] where
  place := abs_good (by decide) (by cases l <;> decide) (by decide)
  outside := by unfold Inside; decide
  down := by
    intro f hf
    simp only [nestedOutputs, List.getElem_cons_succ, List.getElem_cons_zero, List.mem_cons, List.not_mem_nil, or_false] at hf
    rcases hf with rfl | rfl <;> exact ⟨by decide, by decide⟩
  free := by cases l <;> decide
  manifests := by
    intro n hn
    have : n = py!"manifest-md5.txt" := by cases l <;> simpa [intoO, nestedOutputs] using hn
    subst this
    exact ⟨good_lit _, by decide⟩

theorem sound_nested (l : Bool) : ∀ o ∈ nestedOutputs, ∃ D, Sound (intoO l) [py!"v", py!"a"] o D := by
  intro o ho
  have : o = nestedOutputs[0]'(by decide) ∨ o = nestedOutputs[1]'(by decide) := by simpa [nestedOutputs] using ho
  rcases this with rfl | rfl
  · exact ⟨_, sound_b l⟩
  · exact ⟨_, sound_h l⟩

theorem nested_ends (l : Bool) : (linkedBag.makeBags (intoO l) nestedOutputs).1 = .ok () := by
  cases l <;> kernel_rfl

/-- The file with two names is as it was; with hard links, the output bags share it. -/
example (l : Bool) : (linkedBag.makeBags (intoO l) nestedOutputs).2.node [py!"v", py!"a", py!"data", py!"y"] =
    some (.file py!"one") :=
  C132_kept_partial linkedBag_rooted linkedBag_ok (m := intoO l) abs_va (by decide) (sound_nested l) (by kernel_rfl)

example (l : Bool) : ∃ o ∈ nestedOutputs, ∃ D, AbsPath (pathJoin py!"/o" o.name) D ∧
    Inside D [py!"o", py!"b", py!"data", py!"h", py!"bag-info.txt"] :=
  C132_where_partial linkedBag_rooted linkedBag_ok (m := intoO l) abs_va (by decide) (sound_nested l) (by kernel_rfl)
    (by cases l <;> exact fun h => absurd ((by kernel_rfl : _ = some (Node.file py!"I: h")).symm.trans h) (by simp))

example (l : Bool) : (linkedBag.makeBags (intoO l) nestedOutputs).2.node [py!"o", py!"b", py!"data", py!"h", py!"data", py!"y"] =
    some (.file py!"one") :=
  C132_delivered_partial (m := intoO l) abs_va linkedBag_rooted linkedBag_ok (by decide) (sound_nested l) (nested_ends l)
    (nestedOutputs[1]'(by decide)) (by simp [nestedOutputs]) _ (sound_h l) py!"data//y" (by simp [nestedOutputs]) _ (by kernel_rfl)

example (os : List Output) : linkedBag.makeBags (intoO true) ({ name := py!"old", entries := [] } :: os) = (.error .osError, linkedBag) :=
  C132_taken (D := [py!"o", py!"old"]) (abs_good (by decide) (by decide) (by decide)) (by decide) os

example (l : Bool) : (nestedOutputs.map (·.name)).Nodup :=
  C132_distinct_partial (m := intoO l) abs_va linkedBag_rooted linkedBag_ok (by decide) (sound_nested l) (nested_ends l)

/-- **C132**, negation: an output bag can get into the payload directory of another that has been finished. -/
theorem C132_negation_nested : ∃ (d : LDisk) (m : BagMaking) (B D D' p : Path) (o o' : Output), Rooted d ∧ InodesOk d ∧
    AbsPath m.bag B ∧ d.isdir B = true ∧ Sound m B o D ∧ Sound m B o' D' ∧ (d.makeBags m [o, o']).1 = .ok () ∧ Inside D p ∧
    (d.makeBags m [o]).2.node p = none ∧ (d.makeBags m [o, o']).2.node p = some (.file py!"I: h") :=
  ⟨linkedBag, intoO true, _, _, _, [py!"o", py!"b", py!"data", py!"h", py!"bag-info.txt"], nestedOutputs[0]'(by decide),
    nestedOutputs[1]'(by decide), linkedBag_rooted, linkedBag_ok, abs_va, by decide, sound_b true, sound_h true,
    nested_ends true, by unfold Inside; decide, by kernel_rfl, by kernel_rfl⟩

/-- **C132**, negation: an output bag can get outside of the output directory, next to the source bag. -/
theorem C132_negation_outside : ∃ (d : LDisk) (m : BagMaking) (O D : Path) (o o' : Output), Rooted d ∧ InodesOk d ∧
    AbsPath m.outdir O ∧ d.isdir O = true ∧ ¬ Inside O D ∧ d.node D = none ∧
    (d.makeBags m [o]).1 = .ok () ∧ (d.makeBags m [o]).2.node D = some .dir ∧
    (d.makeBags m [o']).1 = .ok () ∧ (d.makeBags m [o']).2.node D = some .dir ∧ o.name = py!"/v/b" ∧ o'.name = py!"../v/b" :=
  ⟨linkedBag, intoO true, [py!"o"], [py!"v", py!"b"], { name := py!"/v/b", entries := [py!"data/x"] },
    { name := py!"../v/b", entries := [py!"data/x"] }, linkedBag_rooted, linkedBag_ok,
    abs_good (by decide) (by decide) (by decide), by decide, by unfold Inside; decide, by kernel_rfl, by kernel_rfl, by kernel_rfl,
    by kernel_rfl, by kernel_rfl, rfl, rfl⟩

/-- **C132**, negation: an entry that leads to a file which the split writes itself has the file of the source overwritten,
if it is linked. -/
theorem C132_negation_own : ∃ (d : LDisk) (m : BagMaking) (B p : Path) (o : Output), Rooted d ∧ InodesOk d ∧ AbsPath m.bag B ∧
    o.entries = [py!"bag-info.txt"] ∧ (d.makeBags m [o]).1 = .ok () ∧ d.node p = some (.file py!"kept") ∧ Inside B p ∧
    (d.makeBags m [o]).2.node p = some (.file py!"new") :=
  ⟨{ names := [([py!"v"], .dir), ([py!"v", py!"a"], .dir), ([py!"v", py!"a", py!"bagit.txt"], .file 0),
        ([py!"v", py!"a", py!"bag-info.txt"], .file 1), ([py!"o"], .dir)]
     data := fun i => if i = 0 then py!"tags" else py!"kept"
     next := 2 }, intoO true, _, [py!"v", py!"a", py!"bag-info.txt"],
    { name := py!"b", entries := [py!"bag-info.txt"], info := py!"new" }, rooted_of (by decide), by
      intro p i h
      have hm := mem_of_dget h
      simp only [List.mem_cons, Prod.mk.injEq, LNode.file.injEq, reduceCtorEq, and_false, false_or,
        List.not_mem_nil, or_false] at hm
      rcases hm with ⟨_, rfl⟩ | ⟨_, rfl⟩ <;> decide,
    abs_va, rfl, by kernel_rfl, by kernel_rfl, by unfold Inside; decide, by kernel_rfl⟩

end Verif
