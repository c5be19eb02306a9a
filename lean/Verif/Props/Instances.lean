import Verif.Props.Split
import Verif.Props.SplitInfo
import Verif.Props.Validate
import Verif.Props.ValidateHead
import Verif.Props.UpdateMember
import Verif.Props.TagDir
import Verif.Props.Restore
import Verif.Props.AmendStopped
import Verif.Props.SaveStopped
import Verif.Props.Maker
import Verif.Props.MkPlan
import Verif.Props.ReadBag
import Verif.Props.Report
import Verif.Props.Restorer
import Verif.Props.SplitCall
/-!
# Cases of theorems about larger runs

The files of these theorems show cases of their hypotheses one by one; here the theorems are applied to the same cases.
-/

namespace Verif
open Spec

/-! ## C24 to C28, C33: split plans -/

/-- `C24_exactly_once_partial`: a payload file called like one of BagIt's own is placed once, by every kind of splitter. -/
example (k : Kind) (names : Nat → Option Str) :
    occurrences ((({ kind := k, max := 60 } : Splitter).plan Sample.word py!"bag" (fun _ => 40) Sample.source
      (treeListing (fun _ => 40) Sample.source) names).2.map (·.contents)) py!"data/bagit.txt" = 1 :=
  (C24_exactly_once_partial { kind := k, max := 60 } Sample.word (by decide) py!"bag" (fun _ => 40) Sample.source _ names Sample.wf_source
    (.refl _) (Sample.source_noLookalike _ (by decide)) (fun _ _ _ h => by simp at h)).1 [py!"data", py!"bagit.txt"]
    (.inl ⟨by decide, by rintro ⟨f, h, _⟩; simp at h⟩)

example (names : Nat → Option Str) :=
  C25_wellpacked_partial (Sample.both .wellPacked) rfl Sample.word py!"bag" (fun _ => 40) Sample.two _ names Sample.wf_two (.refl _)

example (names : Nat → Option Str) :=
  C26_neighborly_partial (Sample.both .neighborly) rfl Sample.word py!"bag" (fun _ => 40) Sample.two _ names Sample.wf_two (.refl _)

example (k : Kind) (names : Nat → Option Str) :=
  C27_terminates (Sample.both k) Sample.word py!"bag" (fun _ => 40) Sample.two _ names Sample.wf_two (.refl _)

example (k : Kind) (names : Nat → Option Str) :=
  C28_greedy (Sample.both k) Sample.word py!"bag" (fun _ => 40) Sample.two _ names Sample.wf_two (.refl _)

/-- `C33_named_in_order`: two bags, named in reverse order. -/
example : (nameOutputBags (simpleNamer py!"b") true [{ contents := [py!"data/a"] }, { contents := [py!"data/b"] }]).1 = .ok () :=
  (C33_named_in_order (simpleNamer py!"b") true _ (fun i _ => (C33_default_names py!"b").1 i)).1

/-- `C33_exhausted_partial`: two bags and one name. -/
example : (nameOutputBags (fun i => if i = 0 then some py!"b" else none) false
    [{ contents := [py!"data/a"] }, { contents := [py!"data/b"] }]).1 = .error .runtimeError :=
  C33_exhausted_partial _ false _ 1 (by decide) (by decide) (fun j hj => by
    have : j = 0 := by omega
    subst this
    rfl) rfl

/-! ## C19, C22, C23: updating a head bag -/

/-- `C19_readonly_partial`, after some edits. -/
example : (Sample.edited.updateForMember true Sample.member py!"b2" (.list [py!"data"]) (.list [py!"data/a"])).1 = .ok () :=
  (C19_readonly_partial Sample.tree Sample.info Sample.edits Sample.edited Sample.opened (Sample.some_getD (by decide)) Sample.member
    Sample.wf_member py!"b2" (by decide) [[py!"data"]] [[py!"data", py!"a"]]
    (fun i hi => by rw [List.mem_singleton.1 hi]; refine ⟨by decide, fun c hc => ?_⟩; rw [List.mem_singleton.1 hc]; exact Sample.goodName_of_check (by decide))
    (fun i hi => by
      rw [List.mem_singleton.1 hi]
      refine ⟨by decide, fun c hc => ?_⟩
      rcases List.mem_cons.1 hc with rfl | hc
      · exact Sample.goodName_of_check (by decide)
      · rw [List.mem_singleton.1 hc]; exact Sample.goodName_of_check (by decide))
    (fun i hi e he => by rw [List.mem_singleton.1 hi, List.mem_singleton.1 he]; decide)
    (fun e he d hd h => by
      rw [List.mem_singleton.1 he] at h ⊢
      rcases isdir_iff.1 hd with rfl | hd
      · simp at h
      · have := mem_dkeys_iff.2 ⟨_, hd⟩
        simp [Sample.member, dkeys] at this
        rcases this with rfl | rfl | rfl | rfl | rfl | rfl | rfl <;> revert h <;> decide)).1

/-- `C22_migrate_partial`: with edits that are not saved. -/
example : ∃ s', Sample.edited.setTagDir py!"meta/mb" true = (.ok (), s') ∧ (s'.memberBags).1 = (Sample.edited.memberBags).1 :=
  ⟨_, rfl, (C22_migrate_partial Sample.tree Sample.info Sample.edits Sample.edited _ Sample.opened (Sample.some_getD (by decide))
    (Sample.wf_of_check (by decide)) py!"meta/mb" rfl).1⟩

example := C23_files_in_member Sample.tree Sample.info Sample.edits Sample.edited Sample.opened (Sample.some_getD (by decide))

/-! ## C44 to C46: restoring -/

/-- `C44_overlay`: the file is in both bags. -/
example : Sample.restored.read [py!"data", py!"a"] = overlay (memberTrees Sample.head [⟨py!"/store/m1", Sample.m1⟩]) [py!"data", py!"a"] :=
  C44_overlay Sample.renv_ok Sample.aggregation Sample.clash_sample (.inl ⟨by decide, rfl⟩) Sample.restore_sample (deleted := [py!"data/x"]) rfl
    (by rintro (h | h | h | ⟨a, h | h⟩ | ⟨r, h⟩) <;> simp at h)
    (by
      rintro ⟨q, hq, ⟨r, h⟩, hm⟩
      rw [List.mem_singleton] at hm
      match q, h, hm, hq with
      | [x], h, hm, _ => obtain ⟨rfl, -⟩ := List.cons.inj h; revert hm; decide
      | [x, y], h, hm, _ => obtain ⟨rfl, h'⟩ := List.cons.inj h; obtain ⟨rfl, -⟩ := List.cons.inj h'; revert hm; decide
      | x :: y :: z :: q, h, _, _ => simp at h)

/-- `C45_absent_partial`: a file below a deleted directory. -/
example : Sample.restored.exists [py!"data", py!"x", py!"d"] = false :=
  C45_absent_partial Sample.renv_ok Sample.aggregation Sample.restore_sample (deleted := [py!"data/x"]) rfl
    (by rintro (h | h | h | ⟨a, h | h⟩ | ⟨r, h⟩) <;> simp at h)
    ⟨[py!"data", py!"x"], by decide, ⟨[py!"d"], rfl⟩, by decide⟩

/-- `C46_keeps` and `C46_adds`. -/
example : ∃ d, restoreMember Sample.renv py!"m1" [py!"data/x"] false Sample.hb = .ok d ∧
    d.read [py!"data", py!"a"] = Sample.hb.read [py!"data", py!"a"] ∧ d.exists [py!"data", py!"x", py!"d"] = false :=
  ⟨_, rfl, (C46_keeps Sample.renv_ok (name := py!"m1") (src := ⟨py!"/store/m1", Sample.m1⟩) rfl Sample.wf_m1 (skip := [py!"data/x"]) (by decide) (d := Sample.hb) rfl
      (by rintro ⟨a, h | h⟩ <;> simp at h) rfl).2.1,
    (C46_adds Sample.renv_ok (name := py!"m1") (src := ⟨py!"/store/m1", Sample.m1⟩) rfl (by decide) Sample.wf_m1 (skip := [py!"data/x"]) (by decide) (d := Sample.hb) rfl
      (by rintro ⟨a, h | h⟩ <;> simp at h) rfl).1 ⟨[py!"data", py!"x"], by decide, ⟨[py!"d"], rfl⟩, by decide⟩⟩

/-! ## C58, C101: converting a bag -/

/-- `C101_convert_files`: no state in between changes a payload file. -/
example (x : Tree) (hx : x ∈ (HeadBag.open Sample.newTree Sample.newInfo).convertStates Sample.saveEnv py!"/bags/n0" py!"1.0" (some py!"ark:/9")) :
    dget x [py!"data", py!"a"] = dget Sample.newTree [py!"data", py!"a"] :=
  C101_convert_files _ _ _ _ _ _ _ Sample.convert_runs x hx _ (by decide) (by decide) (by decide) (by decide)
    (fun a h => by cases h)

/-! ## C60, C64 to C66: validation -/

namespace Sample

/-- A passed error check, a failed warning and a failed recommendation. -/
def threeChecks : List Check := [⟨⟨py!"a", 1, true, []⟩, ERROR, true, []⟩,
  ⟨⟨py!"b", 1, true, [py!"x"]⟩, WARN, false, [py!"y"]⟩, ⟨⟨py!"c", 1, true, []⟩, REC, false, []⟩]

end Sample

example := C60_applied PROB WARN Sample.threeChecks _ rfl
example := C60_partition PROB PROB Sample.threeChecks _ rfl

/-- `C65_missing_partial`, `C66_members_partial` and `C66_lookup_partial`: the sample head bag has all three. -/
example : ∃ r, validateHead (fun _ => true) Sample.validHead ALL none = .ok r ∧ ¬ Reports r ERROR py!"3-Version" false ∧
    ¬ Reports r ERROR py!"4.0-1" false ∧ ¬ Reports r ERROR py!"4.0-2" false := by
  obtain ⟨r, h, -⟩ : ∃ r, validateHead (fun _ => true) Sample.validHead ALL none = .ok r ∧ (r.ok && r.countApplied == 34) = true :=
    Sample.results_of_check (by decide +kernel)
  have hv : infoVersion Sample.validHead.info ≠ some py!"0.2" := by decide +kernel
  have hd : Sample.validHead.tree.isdir (comps (tagDirOf Sample.validHead)) = true := by decide +kernel
  refine ⟨r, h, fun hr => ?_, fun hr => ?_, fun hr => ?_⟩
  · exact absurd ((C65_missing_partial _ _ _ r h).1 hr) (by unfold NoValue; decide +kernel)
  · exact absurd ((C66_members_partial _ _ _ r hv h hd).1.1 hr) (by decide +kernel)
  · exact absurd ((C66_lookup_partial _ _ _ r hv h hd).1.1 hr) (by decide +kernel)

/-- `C64_accepts_exactly_partial`: the identifiers of its members are accepted. -/
example : ∃ r, validateHead (fun _ => true) Sample.validHead ALL none = .ok r ∧ (Reports r ERROR py!"4.1-2" true ↔
    ∀ row ∈ [[py!"m1", py!"doi:10/1"], [py!"head"]], ∀ u, row[1]? = some u → u ≠ [] →
      ∃ scheme, urlparse (fun _ => true) u = .ok (scheme, []) ∧ scheme ≠ []) := by
  obtain ⟨r, h, -⟩ : ∃ r, validateHead (fun _ => true) Sample.validHead ALL none = .ok r ∧ (r.ok && r.countApplied == 34) = true :=
    Sample.results_of_check (by decide +kernel)
  have hr : memberRows py!"m1\tdoi:10/1\nhead\n" = [[py!"m1", py!"doi:10/1"], [py!"head"]] := by decide +kernel
  exact ⟨r, h, hr ▸ C64_accepts_exactly_partial _ _ _ r _ (by decide +kernel) h (by decide +kernel) (by decide +kernel)⟩

/-! ## C40: the metadata of an output bag -/

namespace Sample

/-- A bag with identifiers, size, contact and multibag fields. -/
def described : Source :=
  { tree := [], info := [(py!"External-Identifier", .many [py!"ark:/1", py!"doi:2"]),
      (py!"Multibag-Version", .one py!"0.2"), (py!"Bag-Size", .one py!"3 kB"),
      (py!"Internal-Sender-Identifier", .one py!"s1"), (py!"Payload-Oxum", .one py!"9.9"),
      (py!"Contact-Name", .one py!"A. N. Other"), (py!"Contact-Phone", .one py!"1")] }

/-- The metadata of its head bag. -/
def describedFields : List (Str × Str) :=
  ((bagInfoFields described { nopass := [py!"Contact-Name"] } py!"b1" true 12 2).toOption).getD []

theorem described_fields : bagInfoFields described { nopass := [py!"Contact-Name"] } py!"b1" true 12 2 = .ok describedFields := rfl

end Sample

example : valuesOf Sample.describedFields py!"Multibag-Version" = [py!"0.4"] := (C40_version Sample.described_fields).1

example : valuesOf Sample.describedFields py!"Multibag-Source-Bag-Size" = [py!"3 kB"] :=
  C40_renamed (by decide) Sample.described_fields py!"Bag-Size" (by decide) (by decide)

example : valuesOf Sample.describedFields py!"Internal-Sender-Identifier" = [py!"b1"] :=
  (C40_identifiers (by decide) Sample.described_fields).1 (by decide) (by decide)

example : valuesOf Sample.describedFields py!"Contact-Phone" = [py!"1"] :=
  C40_passed_on (by decide) Sample.described_fields py!"Contact-Phone" ⟨by decide, by decide⟩ (by decide) (by decide) (by decide)
    (by decide) (by decide) (by decide)

example : valuesOf Sample.describedFields py!"Contact-Name" = [] :=
  C40_nopass Sample.described_fields py!"Contact-Name" (by decide) (by decide) (by decide)

example := C40_head_marks Sample.described_fields
example := C40_multibag_dropped Sample.described_fields py!"Multibag-Source-Bag-Size" (by decide) (by decide)

/-! ## C103, C106, C124, C129 -/

/-- `C103_touches`: with the tag directory `tags`. -/
example : dget Sample.madeBag.tree [py!"data", py!"a"] = dget Sample.newTree [py!"data", py!"a"] :=
  C103_touches Sample.saveEnv py!"/bags/n0" py!"tags" py!"1.0" none Sample.newTree Sample.newInfo _ (by decide)
    ⟨by decide, by intro c hc; rw [List.mem_singleton.1 (show c ∈ [py!"tags"] from hc)]; exact Sample.goodName_of_check (by decide)⟩
    (by decide) Sample.convertible Sample.made_ok _ (by decide) (by decide) (by decide) (by decide) (fun a h => by cases h)

/-- `C106_kept`: a directory that was there. -/
example (s : Splitter) (hs : s.forhead = []) :
    SameThing (splitCall Sample.callEnv s py!"../src/bag" py!"/work" none [] Sample.callWorld).2 Sample.callWorld [py!"work"] :=
  C106_kept (Sample.call_can s hs) none [] _ (by decide +kernel)

/-- `C106_distinct`. -/
example (k k' : Nat) (n : Str) (hn : n ∈ Spec.numbered py!"bag" k) : n ∉ Spec.numbered py!"other" k' := C106_distinct (by decide) hn

/-- `C124_default`: 250 bytes in three files, of which some numbers are drawn twice. -/
example : ∃ t rest o, mkdatasetFor Nat.log2 true 250 3 none ({}, [7, 7, 20, 20, 31]) = some (o, t, rest) ∧
    ∃ new, Added [] {} t new [] ∧ (bytesOf new : Int) = 250 := by
  have hs : (mkdatasetFor Nat.log2 true 250 3 none ({}, [7, 7, 20, 20, 31])).isSome = true := by kernel_rfl
  obtain ⟨⟨o, t, rest⟩, h⟩ := Option.isSome_iff_exists.1 hs
  obtain ⟨new, h1, h2, -⟩ := C124_default Nat.log2 logLike_log2 250 3 (by decide) (by decide) (by decide) _ _ _ _ _ h
  exact ⟨t, rest, o, h, new, h1, h2⟩

/-- `C124_exact_partial`: 30 bytes in 12 files in directories. -/
example : ∃ t rest o, mkdatasetFor Nat.log2 true 30 12 (some Sample.nested) ({}, List.range 20) = some (o, t, rest) ∧
    ∃ new newDirs, Added [] {} t new newDirs ∧ (bytesOf new : Int) = 30 := by
  have hs : (mkdatasetFor Nat.log2 true 30 12 (some Sample.nested) ({}, List.range 20)).isSome = true := by kernel_rfl
  obtain ⟨⟨o, t, rest⟩, h⟩ := Option.isSome_iff_exists.1 hs
  obtain ⟨new, newDirs, h1, h2, -⟩ := C124_exact_partial Nat.log2 logLike_log2 30 12 Sample.nested suits_nested (by decide) _ _ _ _ _ h
  exact ⟨t, rest, o, h, new, newDirs, h1, h2⟩

/-- `C129_moments`. -/
example : ∃ s', ListSave.members.run Sample.saving = (.ok (), s') ∧ (ListSave.members.states Sample.saving).getLast? = some s'.tree :=
  have h : ListSave.members.run Sample.saving = (.ok (), (ListSave.members.run Sample.saving).2) := Prod.ext (by decide +kernel) rfl
  ⟨_, h, (C129_moments _ _ _ h).2⟩

/-! ## C72, C75, C97, C102 -/

/-- `C72_oxum`: two files of five bytes in all. -/
example : validateOxum List.length {
    tree := Sample.readTree, version := [0, 97], encoding := py!"UTF-8", tagFile := py!"bag-info.txt",
    info := [(py!"Payload-Oxum", .one py!"5.2")], algorithms := [], entries := [] } = .ok () :=
  (C72_oxum (Sample.wf_of_check (t := Sample.readTree) (by decide)) (by decide) List.length).2
    (.inr ⟨_, py!"5", py!"2", rfl, rfl, by decide, by decide, by decide, by decide +kernel, by decide +kernel⟩)

example := C75_fetch (cfg := Sample.readCfg) (t := Sample.readTree) rfl

/-- `C97_accepts`: a restorer is made. -/
example : ∃ r, Restorer.make py!"/store" Sample.storeDisk (fun _ => .ok true) (.location py!"hb") (some py!"../out") none true = .ok r :=
  (C97_accepts Sample.store_cwd Sample.storeDisk (fun _ => .ok true) (.location py!"hb") (some py!"../out") none true).2
    ⟨fun p hp => by cases hp; exact ⟨by decide, rfl⟩, .inl ⟨_, rfl, by decide, by decide⟩⟩

/-- `C97_determined_partial`: the order of the endings makes no difference for a bag that is there as a directory. -/
example : Sample.storeRestorer.find serialized py!"/store" Sample.storeDisk py!"m1" =
    Sample.storeRestorer.find serialized.reverse py!"/store" Sample.storeDisk py!"m1" :=
  C97_determined_partial Sample.store_cwd Sample.store_made (fun _ => Iff.rfl) (fun _ => List.mem_reverse) Sample.good_m1 (.inl (show Sample.storeDisk.isdir _ = true by decide))

/-- `C97_gets_partial`: a bag that is there is not fetched. -/
example := C97_gets_partial Sample.store_cwd (fetcher := none) Sample.store_made (fun _ => Iff.rfl) Sample.good_m1
  (show Sample.storeRestorer.getMember serialized none py!"/store" Sample.storeDisk py!"m1" = .ok (some py!"/store/m1", Sample.storeDisk) by decide)

example : ∀ i ∈ Sample.oneError.failed, Spec.Told Sample.wording i (Sample.oneError.errorStr Sample.wording) :=
  C102_all_told _ _ (by decide)

end Verif
