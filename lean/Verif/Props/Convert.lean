import Verif.Props.Amend
import Verif.Lemmas.Convert
/-!
# Properties of converting a single bag (`make_single_multibag`): C58
-/

namespace Verif

open Spec

/-- `dir` is a path to a directory called `name`, without a slash at its end. -/
def Spec.PathTo (dir name : Str) : Prop := '/' ∉ name ∧ name ≠ [] ∧ (dir = name ∨ ∃ pre, dir = pre ++ '/' :: name)

theorem baseName_pathTo {dir name : Str} (h : PathTo dir name) : baseName dir = name := by
  obtain ⟨h1, _, rfl | ⟨pre, rfl⟩⟩ := h
  · unfold baseName; rw [splitOn_noSep h1]; rfl
  · unfold baseName; rw [splitOn_append, splitOn_noSep h1]; simp

theorem rstrip_pathTo {dir name : Str} (h : PathTo dir name) : rstripBy (fun c => c = '/') dir = dir := by
  obtain ⟨h1, h2, hd⟩ := h
  have hl : name.getLast? ≠ none := by simpa using h2
  obtain ⟨c, hc⟩ := Option.ne_none_iff_exists'.1 hl
  have hcn : c ≠ '/' := by rintro rfl; exact h1 (List.mem_of_getLast? hc)
  have hdl : dir.getLast? = some c := by
    rcases hd with rfl | ⟨pre, rfl⟩
    · exact hc
    · rw [List.getLast?_append, List.getLast?_cons, hc]; simp
  unfold rstripBy
  rw [List.getLast?_eq_head?_reverse] at hdl
  cases hr : dir.reverse with
  | nil => rw [hr] at hdl; cases hdl
  | cons x xs =>
    rw [hr] at hdl
    simp only [List.head?_cons, Option.some.injEq] at hdl
    subst hdl
    rw [List.dropWhile_cons_of_neg (by simpa using hcn), ← hr, List.reverse_reverse]

/-- A bag that can be converted: an ordinary directory, whose tag directory is not inside the
payload, which either has no multibag metadata or one of profile version 0.3 or later. -/
structure Spec.Convertible (E : SaveEnv) (tree : Tree) (info : Info) : Prop where
  wf : WfTree tree
  algs : ∀ a ∈ E.algs, '/' ∉ a
  tag : ∀ l, dget info py!"Multibag-Tag-Directory" ≠ some (.many l)
  dir : GoodPath (comps (tagDir info)) ∧ ¬ [py!"data"] <+: comps (tagDir info)
  ver : noProfile info = true ∨ verLt (profileVersion info) py!"0.3" = false
  files : ∀ q, Payload tree q → Plain q

theorem Spec.Convertible.ver' {E : SaveEnv} {tree : Tree} {info : Info} (c : Convertible E tree info) :
    noProfile info = false → verLt (profileVersion info) py!"0.3" = false := by
  intro h
  rcases c.ver with h' | h'
  · rw [h] at h'; cases h'
  · exact h'

theorem convert_payload {E : SaveEnv} {dir version : Str} {pid : Option Str} {tree u : Tree} {info : Info} {s' : HeadBag}
    (c : Convertible E tree info) (a : Converted E dir version pid tree info u s') (q : Str) :
    q ∈ filesFor false u [py!"data"] (fun _ => false) ↔ Payload tree q := by
  rw [mem_amendPayload (a.uwf c.algs c.dir.1 c.wf)]
  refine payload_congr (fun p hpre => ?_) q
  refine a.uframe p ?_ ?_ ?_ ?_ ?_
  · rintro rfl; exact payload_outside c.dir.2 comps_members (by decide) hpre
  · rintro rfl; exact payload_outside c.dir.2 comps_lookup (by decide) hpre
  · rintro rfl; exact c.dir.2 hpre
  · rintro rfl; exact absurd hpre (by decide)
  · rintro a rfl
    unfold manPath at hpre
    simp at hpre

/-- C58: the converted bag, opened again, is a head bag whose only member is itself, with the identifier
given. -/
theorem C58_only_member (E : SaveEnv) (dir name version : Str) (pid : Option Str) (tree : Tree) (info : Info)
    (s' : HeadBag) (c : Convertible E tree info) (hd : PathTo dir name)
    (h : (HeadBag.open tree info).convert E dir version pid = (.ok (), s'))
    (hw : Writable [⟨name, pid, none, []⟩]) :
    ((HeadBag.open s'.tree s'.info).memberBags).1 = .ok [⟨name, pid, none, []⟩] := by
  obtain ⟨u, a⟩ := converted c.tag c.ver' h
  have := a.members
  rw [baseName_pathTo hd] at this
  rw [memberBags_fst, this hw]

/-- C58: a path is looked up in the converted bag exactly if it is one of its payload files, and then to
the bag itself. -/
theorem C58_lookup (E : SaveEnv) (dir name version : Str) (pid : Option Str) (tree : Tree) (info : Info)
    (s' : HeadBag) (c : Convertible E tree info) (hd : PathTo dir name) (hn : Plain name)
    (h : (HeadBag.open tree info).convert E dir version pid = (.ok (), s')) (q : Str) :
    (Payload tree q → ((HeadBag.open s'.tree s'.info).lookupFile q).1 = .ok (some name)) ∧
    (¬ Payload tree q → ((HeadBag.open s'.tree s'.info).lookupFile q).1 = .ok none) := by
  obtain ⟨u, a⟩ := converted c.tag c.ver' h
  obtain ⟨d, hok, hdq, hview, _⟩ := a.lookup
  rw [rstrip_pathTo hd, baseName_pathTo hd] at hdq
  have hplain : ∀ e ∈ d, Plain e.1 ∧ Plain e.2 := by
    intro e he
    have hg : dget d e.1 = some e.2 := (dget_iff_mem hok.nodup).2 he
    rw [hdq] at hg
    split at hg
    · rename_i hm
      injection hg with hg
      exact ⟨c.files _ ((convert_payload c a _).1 hm), hg ▸ hn⟩
    · cases hg
  have hlook : ((HeadBag.open s'.tree s'.info).lookupFile q).1 = .ok (dget d q) := by
    rw [(lookupFile_spec _ _).1, hview hplain]; rfl
  rw [hlook, hdq]
  constructor
  · intro hp; rw [if_pos ((convert_payload c a _).2 hp)]
  · intro hp; rw [if_neg (fun hm => hp ((convert_payload c a _).1 hm))]

/-- C58: the converted bag is a head bag of the current profile with the version asked for, any other
metadata being kept. -/
theorem C58_metadata (E : SaveEnv) (dir version : Str) (pid : Option Str) (tree : Tree) (info : Info)
    (s' : HeadBag) (c : Convertible E tree info)
    (h : (HeadBag.open tree info).convert E dir version pid = (.ok (), s')) (hv : version ≠ []) :
    fields s'.info py!"Multibag-Head-Version" = [version] ∧
    fields s'.info py!"Multibag-Version" = [CURRENT_VERSION] ∧
    (∀ k, k ∉ touchedTags → fields s'.info k = fields info k) := by
  obtain ⟨u, a⟩ := converted c.tag c.ver' h
  obtain ⟨t0, t1, e⟩ := a.newInfo
  obtain ⟨f1, _, _, f4, _⟩ := C20_sets_fields (fun _ => E.size t1) (some version) CURRENT_VERSION
    (if noProfile info then updateInfo (fun _ => E.size t0) (some py!"1") CURRENT_VERSION info else info)
  rw [e]
  refine ⟨?_, f1, ?_⟩
  · rw [f4]
    cases version with
    | nil => exact absurd rfl hv
    | cons x xs => rfl
  · intro k hk
    rw [C20_preserves _ _ _ _ _ hk]
    split
    · rw [C20_preserves _ _ _ _ _ hk]
    · rfl

/-- C58: the metadata is saved: a program that opens the bag directory afterwards finds the same. -/
theorem C58_on_disk (E : SaveEnv) (dir version : Str) (pid : Option Str) (tree : Tree) (info : Info)
    (s' : HeadBag) (c : Convertible E tree info)
    (h : (HeadBag.open tree info).convert E dir version pid = (.ok (), s'))
    (hn : (dkeys info).Nodup) (hc : CleanInfo info) (hver : OneLine version) (hsz : ∀ t, OneLine (E.size t))
    {cfg : ReadCfg} {b : RBag} (hb : openBag cfg s'.tree = .ok b) (htag : b.tagFile = py!"bag-info.txt") (k : Str) :
    fields b.info k = fields s'.info k := by
  obtain ⟨u, a⟩ := converted c.tag c.ver' h
  obtain ⟨t0, t1, e⟩ := a.newInfo
  have hcv : OneLine CURRENT_VERSION := oneLine_of_check (by decide +kernel)
  have h0 : CleanInfo (if noProfile info then updateInfo (fun _ => E.size t0) (some py!"1") CURRENT_VERSION info else info) ∧
      (dkeys (if noProfile info then updateInfo (fun _ => E.size t0) (some py!"1") CURRENT_VERSION info else info)).Nodup := by
    split
    · exact ⟨clean_updateInfo hc (fun _ => hsz t0) (oneLine_of_check (by decide)) hcv, nodup_updateInfo hn _ _ _⟩
    · exact ⟨hc, hn⟩
  refine reopened_fields a.saved ?_ ?_ hb htag k
  · rw [e]; exact nodup_updateInfo h0.2 _ _ _
  · rw [e]; exact clean_updateInfo h0.1 (fun _ => hsz t1) hver hcv

/-- C58: nothing else in the bag changes: only the two tag files, the directory holding them,
bag-info.txt and the tag manifests. -/
theorem C58_touches (E : SaveEnv) (dir version : Str) (pid : Option Str) (tree : Tree) (info : Info)
    (s' : HeadBag) (c : Convertible E tree info)
    (h : (HeadBag.open tree info).convert E dir version pid = (.ok (), s')) (p : Path)
    (h1 : p ≠ comps (tagDir info)) (h2 : p ≠ comps (tagDir info) ++ [py!"member-bags.tsv"])
    (h3 : p ≠ comps (tagDir info) ++ [py!"file-lookup.tsv"]) (h4 : p ≠ [py!"bag-info.txt"])
    (h5 : ∀ a, p ≠ [py!"tagmanifest-" ++ a ++ py!".txt"]) : dget s'.tree p = dget tree p := by
  obtain ⟨u, a⟩ := converted c.tag c.ver' h
  refine a.frame p ?_ ?_ h1 h4 ?_
  · rw [tagFile_eq _ comps_members]; exact h2
  · rw [tagFile_eq _ comps_lookup]; exact h3
  · intro a
    have := h5 a
    unfold manPath
    simpa using this

/-- A bag without payload files has no lookup file after the conversion, although it is a head bag. -/
theorem C58_no_payload (E : SaveEnv) (dir version : Str) (pid : Option Str) (tree : Tree) (info : Info)
    (s' : HeadBag) (c : Convertible E tree info)
    (h : (HeadBag.open tree info).convert E dir version pid = (.ok (), s')) (he : ∀ q, ¬ Payload tree q) :
    s'.tree.read (comps (tagDir info) ++ [py!"file-lookup.tsv"]) = none := by
  obtain ⟨u, a⟩ := converted c.tag c.ver' h
  have := a.nofile (List.eq_nil_iff_forall_not_mem.2 (fun q hq => he q ((convert_payload c a q).1 hq)))
  rw [tagFile_eq _ comps_lookup] at this
  exact this

namespace Sample

theorem convertible : Convertible saveEnv newTree newInfo where
  wf := wf_newTree
  algs := by decide
  tag := newOpened.tag
  dir := ordinary.dir
  ver := .inl (by decide)
  files := fun _ hq => payload_plain (by decide +kernel) hq

/-- The converted bag. -/
def convertedBag : HeadBag :=
  ((HeadBag.open newTree newInfo).convert saveEnv py!"/bags/n0" py!"1.0" (some py!"ark:/9")).2

theorem convert_runs : (HeadBag.open newTree newInfo).convert saveEnv py!"/bags/n0" py!"1.0" (some py!"ark:/9") =
    (.ok (), convertedBag) :=
  Prod.ext (show ((HeadBag.open newTree newInfo).convert saveEnv py!"/bags/n0" py!"1.0" (some py!"ark:/9")).1 = .ok () by
    decide +kernel) rfl

theorem pathTo : PathTo py!"/bags/n0" py!"n0" := ⟨by decide, by decide, .inr ⟨py!"/bags", rfl⟩⟩

end Sample

example : ((HeadBag.open Sample.convertedBag.tree Sample.convertedBag.info).memberBags).1 =
    .ok [⟨py!"n0", some py!"ark:/9", none, []⟩] :=
  C58_only_member _ _ _ _ _ _ _ _ Sample.convertible Sample.pathTo Sample.convert_runs
    (Sample.writable_of_check (by decide +kernel))

example : ((HeadBag.open Sample.convertedBag.tree Sample.convertedBag.info).lookupFile py!"data/a").1 = .ok (some py!"n0") ∧
    ((HeadBag.open Sample.convertedBag.tree Sample.convertedBag.info).lookupFile py!"data/b").1 = .ok none := by
  have key := C58_lookup _ _ _ _ _ _ _ _ Sample.convertible Sample.pathTo (Sample.plain_of_check (by decide +kernel))
    Sample.convert_runs
  refine ⟨(key _).1 ⟨[py!"data", py!"a"], by decide +kernel, by decide, rfl⟩, (key _).2 ?_⟩
  rintro ⟨p, hp, _, e⟩
  obtain ⟨x, hx⟩ := isfile_iff.1 hp
  have hall : (Sample.newTree.all (fun e => decide (joinPath e.1 ≠ py!"data/b"))) = true := by decide +kernel
  have := List.all_eq_true.1 hall _ (mem_of_dget hx)
  simp [← e] at this

example : fields Sample.convertedBag.info py!"Multibag-Head-Version" = [py!"1.0"] ∧
    fields Sample.convertedBag.info py!"Contact" = [py!"me"] := by
  have := C58_metadata _ _ _ _ _ _ _ Sample.convertible Sample.convert_runs (by decide)
  exact ⟨this.1, this.2.2 _ (by decide)⟩

/-- C58 is false of the code if the path of the bag is given with a slash at its end: the bag then
is not listed as a member, although the files are looked up to it. -/
theorem C58_negation_slash :
    ∃ s', (HeadBag.open Sample.newTree Sample.newInfo).convert Sample.saveEnv py!"/bags/n0/" py!"1.0" none = (.ok (), s') ∧
      py!"n0" ∉ (((HeadBag.open s'.tree s'.info).memberBagNames).1.toOption.getD []) ∧
      ((HeadBag.open s'.tree s'.info).lookupFile py!"data/a").1 = .ok (some py!"n0") :=
  ⟨((HeadBag.open Sample.newTree Sample.newInfo).convert Sample.saveEnv py!"/bags/n0/" py!"1.0" none).2,
   Prod.ext (by decide +kernel) rfl, by decide +kernel, by decide +kernel⟩

/-- C58 is false of the code for bags that say they follow a profile before 0.3: their old lookup
is taken over. -/
theorem C58_negation_old_profile :
    ∃ tree info s', (HeadBag.open tree info).convert Sample.saveEnv py!"/bags/n0" py!"1.0" none = (.ok (), s') ∧
      tree.isfile [py!"data", py!"gone"] = false ∧
      ((HeadBag.open s'.tree s'.info).lookupFile py!"data/gone").1 = .ok (some py!"m1") :=
  ⟨Sample.newTree ++ [([py!"multibag"], .dir), ([py!"multibag", py!"group-directory.txt"], .file py!"data/gone m1\n")],
   [(py!"Multibag-Version", .one py!"0.2")],
   ((HeadBag.open (Sample.newTree ++ [([py!"multibag"], .dir), ([py!"multibag", py!"group-directory.txt"], .file py!"data/gone m1\n")])
      [(py!"Multibag-Version", .one py!"0.2")]).convert Sample.saveEnv py!"/bags/n0" py!"1.0" none).2,
   Prod.ext (by decide +kernel) rfl, by decide +kernel, by decide +kernel⟩

end Verif
