import Verif.Props.Apply
import Verif.Props.BagSize
import Verif.Props.BagWalk
import Verif.Props.Convert
import Verif.Props.SplitRestored
import Verif.Props.Info
import Verif.Props.MkData
import Verif.Props.OpenBag
import Verif.Props.Paths
import Verif.Props.Queries
import Verif.Props.Refold
import Verif.Props.ReadBag
/-!
# Cases that meet the hypotheses, for theorems with none beside them
-/

namespace Verif

open Spec

/-- `C36_split_places_each_file`: the sample bag is split by any kind of splitter without files asked for the head bag; the
plan that is made can be carried out, and `data/b` is in one of the bags. -/
example (s : Splitter) (hs : s.forhead = []) {o : ApplyOpts} {d' : CopyDisk}
    (h : applyPlan copyFS (Sample.okBag.source Sample.okCfg) List.length o (s.plan Sample.word py!"bag" (fun _ => 1) Sample.okTree (treeListing (fun _ => 1) Sample.okTree) (fun i => some (natStr i))).2 []
      { src := Sample.okTree } = .ok d') :
    ∃ (i : Nat) (n : Str) (t : Tree), d'.done[i]? = some (n, t) ∧ t.read [py!"data", py!"b"] = some py!"uvw" := by
  have ht : (Sample.okBag.source Sample.okCfg).tree = Sample.okTree := by decide +kernel
  have hb : ToPlace Sample.word (Sample.okBag.source Sample.okCfg).tree [py!"data", py!"b"] := by
    rw [ht]
    refine .inl ⟨by decide, ?_⟩
    rintro ⟨f, h, _⟩
    simp at h
  obtain ⟨bags, h1, h2, _⟩ := C36_split_places_each_file Sample.ok_ordinary s Sample.word (by decide) py!"bag" (fun _ => 1) List.length
    (treeListing (fun _ => 1) Sample.okTree) (fun i => some (natStr i)) (by rw [ht]) (by rw [ht]; exact Sample.ok_look)
    (by rw [hs]; intro _ _ _ h; cases h) (by rw [ht]; exact Sample.ok_odd) (d := { src := Sample.okTree }) (by rw [ht]) (by rw [ht]; exact h)
  obtain ⟨i, n, t, h3, h4, _⟩ := h2 [py!"data", py!"b"] py!"uvw" hb (by unfold HeadFile; decide) (by rw [ht]; decide)
  exact ⟨i, n, t, by rw [h1]; exact h3, h4⟩

/-- `C37_manifest_lines`, `C40_written`: the manifest and the metadata of the first bag of the sample split. -/
example : ∃ bags : List (Str × Tree), Sample.splitDone.done = bags ∧ ∀ n t, bags[0]? = some (n, t) →
    (t.isfile [py!"manifest-md5.txt"] = true ∧ ∃ fs, t.read [py!"bag-info.txt"] = some (fieldsText fs)) := by
  obtain ⟨bags, h1, _, h2⟩ := C37_manifest_lines rfl Sample.splitEntries Sample.splitOrdinary.hashes Sample.split_ok
  obtain ⟨bags', h1', _, h2'⟩ := C40_written rfl Sample.splitEntries Sample.splitOrdinary.hashes Sample.split_ok
  rw [List.nil_append] at h1 h1'
  refine ⟨bags, h1, fun n t ht => ⟨?_, ?_⟩⟩
  · exact ((h2 0 _ n t rfl ht [py!"manifest-md5.txt"] ⟨py!"md5", .inl rfl⟩).1).2 (.inr ⟨py!"md5", by decide, rfl⟩)
  · rw [← h1, h1'] at ht
    obtain ⟨fs, _, _, h3, _⟩ := h2' 0 n t ht
    exact ⟨fs, h3⟩

/-- `C98_head`: the size that the sample states. -/
example : ∃ v, fields Sample.sized.info py!"Bag-Size" = [v] ∧ SizeAbout v (totalBytes utf8Bytes Sample.sized.tree) 12 :=
  (C98_head (E := Sample.sizeEnv) Sample.rnd_nearest utf8_byteLength (fun _ _ _ => rfl) (by decide) rfl (Sample.wf_of_check (by decide) : WfTree (HeadBag.open Sample.sizeTree Sample.sizeInfo).tree)
    (version := some py!"1") (pv := CURRENT_VERSION) (by decide +kernel)).2

/-- `C90_readonly_inside`: a walk that starts with a slash too many. -/
example : ∀ r ∈ [(py!"data", [py!"sub"], [py!"a"]), (py!"data//sub", [], [py!"b"])], ∃ d, Sample.onDisk.isdir d = true ∧
    (∀ n, n ∈ r.2.1 ↔ Sample.onDisk.isdir (d ++ [n]) = true) ∧ (∀ n, n ∈ r.2.2 ↔ Sample.onDisk.isfile (d ++ [n]) = true) :=
  C90_readonly_inside Sample.onDisk_wf (start := py!"data/") (by decide +kernel)

/-- `C91_update`: a bag with one file of two bytes and a wrong Payload-Oxum. -/
example : validateOxum List.length { Sample.okBag with tree := [([py!"data"], .dir), ([py!"data", py!"a"], .file py!"xy")], info := [(py!"Payload-Oxum", .one py!"2.1")] } = .ok () := by
  refine C91_update (b := { Sample.okBag with tree := [([py!"data"], .dir), ([py!"data", py!"a"], .file py!"xy")], info := [(py!"Payload-Oxum", .one py!"9.9")] })
    (Sample.wf_of_check (by decide)) (by decide) (sizeof := fun _ => 2) (blen := List.length) (n := 2) (m := 1) ?_ (by decide +kernel)
  intro q c h
  obtain ⟨x, hx⟩ : ∃ x, dget ([([py!"data"], .dir), ([py!"data", py!"a"], .file py!"xy")] : Tree) q = some x := by
    unfold Tree.read at h
    split at h
    · exact ⟨_, by assumption⟩
    · cases h
  have := mem_of_dget hx
  simp only [List.mem_cons, Prod.mk.injEq, List.not_mem_nil, or_false] at this
  rcases this with ⟨rfl, rfl⟩ | ⟨rfl, rfl⟩
  · simp [Tree.read, hx] at h
  · simp [Tree.read, hx] at h
    subst h
    rfl

/-- `C58_touches`: the payload of the sample is as it was after it has been converted. -/
example : dget Sample.convertedBag.tree [py!"data", py!"a"] = dget Sample.newTree [py!"data", py!"a"] :=
  C58_touches _ _ _ _ _ _ _ Sample.convertible Sample.convert_runs _ (by decide) (by decide) (by decide) (by decide) (by intro a; simp)

/-- `C92_close`, `C92_exact`, `C92_number_partial`: with the sample's rounding. -/
example : (∃ w, sizeThousandths (formatBytes Sample.rnd 123456789) = some w ∧ 2000 * w ≤ 2000 * (1000 * 123456789) + 1000 * 123456789) ∧
    sizeThousandths (formatBytes Sample.rnd 1234) = some 1234000 ∧
    (∃ num unit v, formatBytes Sample.rnd 999999 = num ++ ' ' :: unit ∧ decimalThousandths num = some v ∧ v ≤ 1000 * 1000) := by
  obtain ⟨w, h1, h2, _⟩ := C92_close Sample.rnd_nearest 123456789
  obtain ⟨num, unit, v, h3, _, h4, h5, _⟩ := C92_number_partial Sample.rnd_nearest (n := 999999) (by decide)
  exact ⟨⟨w, h1, h2⟩, C92_exact Sample.rnd_nearest (by decide), num, unit, v, h3, h4, h5⟩

/-- `C20_preserves`: a field that has nothing to do with aggregations. -/
example : fields (updateInfo (fun _ => py!"9 B") (some py!"2") py!"0.4" Sample.newInfo) py!"Contact" = [py!"me"] :=
  C20_preserves _ _ _ _ _ (by decide)

/-- `C20_about_once`: a description that already speaks of the profile stays. -/
example : fields (updateInfo (fun _ => py!"9 B") none py!"0.4" [(py!"Internal-Sender-Description", .one ABOUT_MBAG)]) py!"Internal-Sender-Description" =
    [ABOUT_MBAG] := by
  rw [C20_about_once, if_pos ⟨ABOUT_MBAG, by decide +kernel, by decide +kernel⟩]
  decide +kernel

/-- `C76_uniform`, `C76_uniform_rounded`: eleven bytes in four files. -/
example : (∃ l, uniformSizes nearest (some (11 : Nat)) (some (4 : Nat)) = .ok l ∧ l.length = 4 ∧ l.sum = (11 : Nat)) ∧
    ∃ l, uniformSizes (fun _ _ => 5) (some (11 : Nat)) (some (4 : Nat)) = .ok l ∧ l.sum ≠ (11 : Nat) := by
  obtain ⟨l, h1, h2, h3, _⟩ := C76_uniform 11 4 (by decide)
  obtain ⟨l', h1', _, h3'⟩ := C76_uniform_rounded (fun _ _ => 5) 11 4 (by decide)
  refine ⟨⟨l, h1, h2, h3⟩, l', h1', fun e => ?_⟩
  have := h3'.1 e
  omega

/-- `C76_fill_limits`: the third file does not fit. -/
example : ∃ new files' nb nf, fillWithFiles Nat.log2 100 5 [40, 40, 40] [1, 1, 2] [(py!"x", py!"y")] 0 0 = some (files', nb, nf) ∧
    files' = [(py!"x", py!"y")] ++ new ∧ (new.map (fun f => f.2.length)).sum = nb ∧ nb ≤ 100 := by
  cases h : fillWithFiles Nat.log2 100 5 [40, 40, 40] [1, 1, 2] [(py!"x", py!"y")] 0 0 with
  | none =>
    have : (fillWithFiles Nat.log2 100 5 [40, 40, 40] [1, 1, 2] [(py!"x", py!"y")] 0 0).isSome = true := by decide +kernel
    rw [h] at this
    cases this
  | some r =>
    obtain ⟨files', nb, nf⟩ := r
    obtain ⟨new, h1, h2, _, h3, _⟩ := C76_fill_limits Nat.log2 logLike_log2 100 5 (by decide) _ _ _ _ _ _ (by decide) h
    exact ⟨new, files', nb, nf, rfl, h1, h2, h3⟩

/-- `C89_as_headbag`, `C89_idempotent`: an ordinary bag becomes a head bag that can be updated. -/
example : ∃ b', asHeadbag ⟨.bag, true, HeadBag.open Sample.readTree []⟩ false = .ok b' ∧ b'.cls.updatesHead = true ∧ asHeadbag b' false = .ok b' :=
  ⟨_, rfl, (C89_as_headbag (b := ⟨.bag, true, HeadBag.open Sample.readTree []⟩) (readonly := false) rfl).2.2.2.2.2.2
    (.inr ⟨rfl, by decide, by decide⟩), C89_idempotent (b := ⟨.bag, true, HeadBag.open Sample.readTree []⟩) rfl⟩

/-- `C89_rejected`: a bag without bagit.txt. -/
example : ∃ e, asHeadbag ⟨.bag, false, HeadBag.open Sample.readTree []⟩ true = .error e := (C89_rejected _ _).2 (.inr ⟨rfl, rfl⟩)

/-- `C67_inside_accepted`, `C67_used_path_partial`, `C67_queries_partial`: a path with dots that stays in the bag, on a
disk with no look-alike of the bag. -/
example : AbsPath py!"/x/bag" [py!"x", py!"bag"] →
    canonPath py!"/x/bag" py!"data/../a" = some py!"/x/bag/a" ∧
    bagIsfile [([py!"x"], .dir), ([py!"x", py!"bag"], .dir), ([py!"x", py!"bag", py!"a"], .file py!"abc")] py!"/x/bag" py!"data/../a" = true ∧
    ∀ q, canonPath py!"/x/bag" py!"data/./b" = some q → q = py!"/x/bag/data/b" := by
  intro h
  refine ⟨C67_inside_accepted h (by decide) (by unfold Inside; decide), (C67_queries_partial h (by decide) ?_).2.1.2 ⟨by unfold Inside; decide, by decide⟩,
    fun q hq => (C67_used_path_partial h hq).1⟩
  intro q hq
  cases he : Tree.exists [([py!"x"], .dir), ([py!"x", py!"bag"], .dir), ([py!"x", py!"bag", py!"a"], .file py!"abc")] q with
  | false => rfl
  | true =>
    exfalso
    have : q = [] ∨ q = [py!"x"] ∨ q = [py!"x", py!"bag"] ∨ q = [py!"x", py!"bag", py!"a"] := by
      unfold Tree.exists at he
      cases q with
      | nil => exact .inl rfl
      | cons a l =>
        right
        cases hd : dget ([([py!"x"], .dir), ([py!"x", py!"bag"], .dir), ([py!"x", py!"bag", py!"a"], .file py!"abc")] : Tree) (a :: l) with
        | none => simp [hd] at he
        | some n =>
          have := mem_of_dget hd
          simp only [List.mem_cons, Prod.mk.injEq, List.not_mem_nil, or_false] at this
          rcases this with ⟨e, _⟩ | ⟨e, _⟩ | ⟨e, _⟩ <;> simp [e]
    unfold Lookalike at hq
    obtain ⟨pre, l, sfx, rest, e, hs, e2⟩ := hq
    obtain ⟨rfl, rfl⟩ : pre = [py!"x"] ∧ l = py!"bag" := by
      cases pre with
      | nil => simp at e
      | cons a pre =>
        cases pre with
        | nil => simpa using ⟨(List.cons.inj e).1.symm, (List.cons.inj (List.cons.inj e).2).1.symm⟩
        | cons b pre => simp at e
    rcases this with rfl | rfl | rfl | rfl <;> simp at e2 <;> exact hs e2.1

/-- `C68_accepted_iff_partial`, `C68_escape_rejected_partial`. -/
example (h : AbsPath py!"/bag" [py!"bag"]) : isDangerous Sample.env py!"/bag" py!"data/../a b" = false :=
  (C68_accepted_iff_partial Sample.env h _).2 ⟨by decide, by decide, by decide, .inl (by unfold Inside; decide)⟩

/-- `C69_relpath`: in a directory of a bag, with two slashes in front. -/
example (h : GoodPath [py!"data", py!"a b"]) (h' : GoodPath [py!"top", py!"bag"]) :
    relpath py!"top/bag" py!"//data/a b" = py!"top/bag/data/a b" := (C69_relpath (.inr h') h 2).1

/-- `C95_answers`: the sample after it has been edited. -/
example : (Sample.edited.memberBags true).1 = ((HeadBag.open Sample.edited.tree Sample.edited.info).memberBags).1 :=
  (C95_answers _ []).1

/-- `C70_loads`: the first line of the sample's manifest. -/
example : ∃ line, (py!"md5", line) ∈ manifestText Sample.readCfg [0, 97] py!"UTF-8" Sample.readTree ∧ Lists line py!"D3" py!"data/a b" :=
  (C70_loads (cfg := Sample.readCfg) (v := [0, 97]) (enc := py!"UTF-8") (t := Sample.readTree) rfl _ _ _).1 (by decide)

/-- `C70_accepts`, `C70_error`: two identical lines in a bag of version 1.0. -/
example : ¬ ∃ r, loadManifests Sample.readCfg [1, 0] py!"UTF-8" (dset Sample.readTree [py!"manifest-md5.txt"] (.file py!"d2 data/c\nd2 data/c\n")) = .ok r := by
  rintro ⟨r, h⟩
  have : loadManifests Sample.readCfg [1, 0] py!"UTF-8" (dset Sample.readTree [py!"manifest-md5.txt"] (.file py!"d2 data/c\nd2 data/c\n")) = .error .bagError := rfl
  rw [h] at this
  cases this

/-- `C74_replicate_only`: the file beside the one that is copied. -/
example : ∃ disk', roReplicate [([py!"bag"], .dir), ([py!"bag", py!"a"], .file py!"x"), ([py!"out"], .dir), ([py!"out", py!"k"], .file py!"y")] [py!"bag"] [py!"out"] [py!"a"] =
      .ok disk' ∧ dget disk' [py!"out", py!"k"] = some (.file py!"y") := by
  refine ⟨_, rfl, ?_⟩
  refine (C74_replicate_only (disk := [([py!"bag"], .dir), ([py!"bag", py!"a"], .file py!"x"), ([py!"out"], .dir), ([py!"out", py!"k"], .file py!"y")])
    (bag := [py!"bag"]) (dest := [py!"out"]) (p := [py!"a"]) rfl (q := [py!"out", py!"k"]) ?_).trans rfl
  intro r hr hp e
  have e' : r = [py!"k"] := by simpa using e.symm
  subst e'
  revert hp
  decide

/-- `C82_rewrite`: a field of two lines loses the line break at its end. -/
example : ∃ gs, parseTags .universal (fieldsText [(py!"A", py!"one  two\n three \n four"), (py!"B", py!"x")]) = .ok gs ∧ gs.length = 2 := by
  obtain ⟨gs, h1, h2⟩ := C82_rewrite (text := py!"A: one \n  two\n three \n four\nB: x\n") (fs := [(py!"A", py!"one  two\n three \n four"), (py!"B", py!"x")]) (by decide +kernel)
  refine ⟨gs, h1, ?_⟩
  cases h2 with
  | cons _ h =>
    cases h with
    | cons _ h =>
      cases h
      rfl

/-- `C82_unchanged`: fields of one line. -/
example : parseTags .universal (fieldsText [(py!"A", py!"one"), (py!"B", py!"x")]) = .ok [(py!"A", py!"one"), (py!"B", py!"x")] :=
  C82_unchanged (text := py!"A:   one\nB: x\n") (by decide +kernel) (by decide)

end Verif
