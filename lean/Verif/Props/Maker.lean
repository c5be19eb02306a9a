import Verif.Model.Maker
import Verif.Props.Convert
import Verif.Props.TagDir
/-!
# Converting a bag with a tag directory of one's choice (C103)
-/

namespace Verif

open Spec

theorem noProfile_tagDir (info : Info) (v : InfoVal) :
    noProfile (dset info py!"Multibag-Tag-Directory" v) = noProfile info := by
  unfold noProfile
  rw [dget_dset, if_neg (by decide)]

/-- The metadata with which a conversion into the directory `d` begins. -/
theorem makerOpen_ok (tree : Tree) (info : Info) (d : Str) (hd : d ≠ py!"multibag")
    (ht : ∀ l, dget info py!"Multibag-Tag-Directory" ≠ some (.many l)) :
    ∃ i, makerOpen tree info d = (.ok (), HeadBag.open tree i) ∧ comps (tagDir i) = comps d ∧
      (∀ l, dget i py!"Multibag-Tag-Directory" ≠ some (.many l)) ∧ noProfile i = noProfile info ∧
      profileVersion i = profileVersion info ∧ ∀ k, k ≠ py!"Multibag-Tag-Directory" → fields i k = fields info k := by
  unfold makerOpen HeadBag.setTagDir
  rw [if_pos hd]
  simp only [Bool.false_eq_true, if_false]
  have hi : (HeadBag.open tree info).info = info := rfl
  rw [hi]
  split
  · rename_i e
    exact ⟨info, rfl, by rw [← e, comps_osJoin_split], ht, rfl, rfl, fun _ _ => rfl⟩
  · refine ⟨_, rfl, by rw [tagDir_dset, comps_osJoin_split], ?_, noProfile_tagDir _ _, profileVersion_tagDir _ _, ?_⟩
    · intro l; rw [dget_dset, if_pos rfl]; simp
    · intro k hk
      unfold fields
      rw [dget_dset, if_neg (fun e => hk e.symm)]

/-- C103: a conversion that succeeds puts its lists into the directory asked for, and the bag, opened again, finds them
there: its only member is itself and exactly its payload files are looked up.  Missing: that it succeeds for a directory
inside another one (see `C103_negation_nested`). -/
theorem C103_there_partial (E : SaveEnv) (dir name d version : Str) (pid : Option Str) (tree : Tree) (info : Info)
    (s' : HeadBag) (hd : d ≠ py!"multibag") (hg : GoodPath (comps d)) (hp : ¬ [py!"data"] <+: comps d)
    (c : Convertible E tree info) (hn : PathTo dir name) (hpn : Plain name) (hw : Writable [⟨name, pid, none, []⟩])
    (h : makerConvert E tree info dir d version pid = (.ok (), s')) :
    comps (tagDir s'.info) = comps d ∧
    ((HeadBag.open s'.tree s'.info).memberBags).1 = .ok [⟨name, pid, none, []⟩] ∧
    s'.tree.isfile (comps d ++ [py!"member-bags.tsv"]) = true ∧
    (∀ q, Payload tree q → ((HeadBag.open s'.tree s'.info).lookupFile q).1 = .ok (some name)) ∧
    (∀ q, ¬ Payload tree q → ((HeadBag.open s'.tree s'.info).lookupFile q).1 = .ok none) := by
  obtain ⟨i, h1, h2, h3, h4, h5, _⟩ := makerOpen_ok tree info d hd c.tag
  unfold makerConvert at h
  rw [h1] at h
  simp only at h
  have ci : Convertible E tree i :=
    { wf := c.wf, algs := c.algs, tag := h3, dir := by rw [h2]; exact ⟨hg, hp⟩, ver := by rw [h4, h5]; exact c.ver
      files := c.files }
  obtain ⟨u, a⟩ := converted ci.tag ci.ver' h
  refine ⟨?_, C58_only_member E dir name version pid tree i s' ci hn h hw, ?_, fun q => (C58_lookup E dir name version pid tree i s' ci hn hpn h q).1,
    fun q => (C58_lookup E dir name version pid tree i s' ci hn hpn h q).2⟩
  · obtain ⟨t0, t1, e⟩ := a.newInfo
    rw [e, tagDir_updateInfo]
    split
    · rw [tagDir_updateInfo, h2]
    · exact h2
  · obtain ⟨text, _, ht⟩ := a.memberText
    rw [tagFile_eq _ comps_members, h2] at ht
    rw [isfile_read, ht]
    rfl

/-- C103: everything else in the bag, also a directory with the lists of another aggregation, is left as it is. -/
theorem C103_touches (E : SaveEnv) (dir d version : Str) (pid : Option Str) (tree : Tree) (info : Info)
    (s' : HeadBag) (hd : d ≠ py!"multibag") (hg : GoodPath (comps d)) (hp : ¬ [py!"data"] <+: comps d)
    (c : Convertible E tree info) (h : makerConvert E tree info dir d version pid = (.ok (), s')) (p : Path)
    (h1 : p ≠ comps d) (h2 : p ≠ comps d ++ [py!"member-bags.tsv"])
    (h3 : p ≠ comps d ++ [py!"file-lookup.tsv"]) (h4 : p ≠ [py!"bag-info.txt"])
    (h5 : ∀ a, p ≠ [py!"tagmanifest-" ++ a ++ py!".txt"]) : dget s'.tree p = dget tree p := by
  obtain ⟨i, k1, k2, k3, k4, k5, _⟩ := makerOpen_ok tree info d hd c.tag
  unfold makerConvert at h
  rw [k1] at h
  simp only at h
  have ci : Convertible E tree i :=
    { wf := c.wf, algs := c.algs, tag := k3, dir := by rw [k2]; exact ⟨hg, hp⟩, ver := by rw [k4, k5]; exact c.ver
      files := c.files }
  exact C58_touches E dir version pid tree i s' ci h p (by rw [k2]; exact h1) (by rw [k2]; exact h2) (by rw [k2]; exact h3) h4 h5

/-- C103: `make_single_multibag` puts the lists into the directory `multibag`, if the bag names no other one, and gives the
head bag the version asked for. -/
theorem C103_default (E : SaveEnv) (dir name version : Str) (pid : Option Str) (tree : Tree) (info : Info)
    (s' : HeadBag) (hd : dget info py!"Multibag-Tag-Directory" = none) (hv : version ≠ [])
    (c : Convertible E tree info) (hn : PathTo dir name) (hpn : Plain name) (hw : Writable [⟨name, pid, none, []⟩])
    (h : makeSingle E tree info dir version pid = (.ok (), s')) :
    tagDir s'.info = py!"multibag" ∧ fields s'.info py!"Multibag-Head-Version" = [version] ∧
    ((HeadBag.open s'.tree s'.info).memberBags).1 = .ok [⟨name, pid, none, []⟩] ∧
    s'.tree.isfile [py!"multibag", py!"member-bags.tsv"] = true ∧
    (∀ q, Payload tree q → ((HeadBag.open s'.tree s'.info).lookupFile q).1 = .ok (some name)) ∧
    (∀ q, ¬ Payload tree q → ((HeadBag.open s'.tree s'.info).lookupFile q).1 = .ok none) := by
  have ht : tagDir info = py!"multibag" := by unfold tagDir; rw [hd]
  have h : (HeadBag.open tree info).convert E dir version pid = (.ok (), s') := h
  obtain ⟨u, a⟩ := converted c.tag c.ver' h
  refine ⟨?_, (C58_metadata E dir version pid tree info s' c h hv).1, C58_only_member E dir name version pid tree info s' c hn h hw, ?_,
    fun q => (C58_lookup E dir name version pid tree info s' c hn hpn h q).1,
    fun q => (C58_lookup E dir name version pid tree info s' c hn hpn h q).2⟩
  · obtain ⟨t0, t1, e⟩ := a.newInfo
    rw [e, tagDir_updateInfo]
    split
    · rw [tagDir_updateInfo, ht]
    · exact ht
  · obtain ⟨text, _, hx⟩ := a.memberText
    rw [tagFile_eq _ comps_members, ht] at hx
    rw [isfile_read, show [py!"multibag", py!"member-bags.tsv"] = comps py!"multibag" ++ [py!"member-bags.tsv"] by decide, hx]
    rfl

namespace Sample

/-- The sample bag converted with the tag directory `tags`. -/
def madeBag : HeadBag := (makerConvert saveEnv newTree newInfo py!"/bags/n0" py!"tags" py!"1.0" none).2

theorem made_ok : makerConvert saveEnv newTree newInfo py!"/bags/n0" py!"tags" py!"1.0" none = (.ok (), madeBag) :=
  Prod.ext (show (makerConvert saveEnv newTree newInfo py!"/bags/n0" py!"tags" py!"1.0" none).1 = .ok () by decide +kernel) rfl

end Sample

/-- A case of C103. -/
example : ((HeadBag.open Sample.madeBag.tree Sample.madeBag.info).memberBags).1 = .ok [⟨py!"n0", none, none, []⟩] ∧
    Sample.madeBag.tree.isfile [py!"tags", py!"member-bags.tsv"] = true ∧
    ((HeadBag.open Sample.madeBag.tree Sample.madeBag.info).lookupFile py!"data/a").1 = .ok (some py!"n0") ∧
    Sample.madeBag.tree.exists [py!"multibag"] = false := by
  have key := C103_there_partial Sample.saveEnv py!"/bags/n0" py!"n0" py!"tags" py!"1.0" none Sample.newTree Sample.newInfo _
    (by decide) ⟨by decide, by intro c hc; rw [List.mem_singleton.1 (show c ∈ [py!"tags"] from hc)]; exact Sample.goodName_of_check (by decide)⟩
    (by decide) Sample.convertible Sample.pathTo (Sample.plain_of_check (by decide +kernel))
    (Sample.writable_of_check (by decide +kernel)) Sample.made_ok
  exact ⟨key.2.1, key.2.2.1, key.2.2.2.1 _ ⟨[py!"data", py!"a"], by decide +kernel, by decide, rfl⟩, by decide +kernel⟩

/-- A case of C103 for the default directory. -/
example : ∃ s', makeSingle Sample.saveEnv Sample.newTree Sample.newInfo py!"/bags/n0" py!"1.0" (some py!"ark:/9") = (.ok (), s') ∧
    tagDir s'.info = py!"multibag" ∧ s'.tree.isfile [py!"multibag", py!"member-bags.tsv"] = true := by
  have h : makeSingle Sample.saveEnv Sample.newTree Sample.newInfo py!"/bags/n0" py!"1.0" (some py!"ark:/9") = (.ok (), Sample.convertedBag) :=
    Sample.convert_runs
  have key := C103_default _ _ py!"n0" _ _ _ _ _ (by decide) (by decide) Sample.convertible Sample.pathTo
    (Sample.plain_of_check (by decide +kernel)) (Sample.writable_of_check (by decide +kernel)) h
  exact ⟨_, h, key.1, key.2.2.2.1⟩

/-- C103 fails for a tag directory inside another one that does not exist: the conversion ends with an error, and
leaves a bag that says it is a head bag, with no member list. -/
theorem C103_negation_nested : ∃ s', makerConvert Sample.saveEnv Sample.newTree Sample.newInfo py!"/bags/n0" py!"meta/multibag" py!"1.0" none =
      (.error .osError, s') ∧
    s'.tree.read [py!"bag-info.txt"] = some (fieldsText (tagFields s'.info)) ∧
    fields s'.info py!"Multibag-Head-Version" = [py!"1"] ∧ s'.tree.exists [py!"meta"] = false := by
  refine ⟨(makerConvert Sample.saveEnv Sample.newTree Sample.newInfo py!"/bags/n0" py!"meta/multibag" py!"1.0" none).2, ?_, ?_, ?_, ?_⟩
  · exact Prod.ext (by decide +kernel) rfl
  · decide +kernel
  · decide +kernel
  · decide +kernel

/-- C103 fails too if the bag names a tag directory and `multibag` is asked for: the lists go where the bag says. -/
theorem C103_negation_default : ∃ info s', makerConvert Sample.saveEnv Sample.newTree info py!"/bags/n0" py!"multibag" py!"1.0" none = (.ok (), s') ∧
    Convertible Sample.saveEnv Sample.newTree info ∧
    s'.tree.exists [py!"multibag"] = false ∧ s'.tree.isfile [py!"tags", py!"member-bags.tsv"] = true := by
  refine ⟨dset Sample.newInfo py!"Multibag-Tag-Directory" (.one py!"tags"),
    (makerConvert Sample.saveEnv Sample.newTree (dset Sample.newInfo py!"Multibag-Tag-Directory" (.one py!"tags")) py!"/bags/n0"
      py!"multibag" py!"1.0" none).2, ?_, ?_, ?_, ?_⟩
  · exact Prod.ext (by decide +kernel) rfl
  · have c := Sample.convertible
    exact { wf := c.wf, algs := c.algs, tag := by intro l; rw [dget_dset, if_pos rfl]; simp
            dir := by
              rw [tagDir_dset]
              exact ⟨⟨by decide, by intro c hc; rw [List.mem_singleton.1 (show c ∈ [py!"tags"] from hc)]; exact Sample.goodName_of_check (by decide)⟩,
                by decide⟩
            ver := by rw [noProfile_tagDir, profileVersion_tagDir]; exact c.ver
            files := c.files }
  · decide +kernel
  · decide +kernel

end Verif
