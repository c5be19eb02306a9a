import Verif.Lemmas.Apply
/-!
# Applying a plan to an ordinary bag does not fail
-/

namespace Verif
open Verif.Spec

namespace Spec

/-- A source bag on which nothing can go wrong: a well-formed tree with bagit.txt,
bag-info.txt and data/, in which the names that the split writes are not taken by
directories, nor the name of the tag directory by a file. -/
structure Ordinary (S : Source) : Prop where
  wf : WfTree S.tree
  bagit : S.tree.isfile [py!"bagit.txt"] = true
  baginfo : S.tree.isfile [py!"bag-info.txt"] = true
  data : S.tree.isdir [py!"data"] = true
  standard : ∀ p, Standard p → S.tree.isdir p = false
  headfile : ∀ p, HeadFile p → S.tree.isdir p = false
  multibag : S.tree.isfile [py!"multibag"] = false
  ids : ∀ v, dget S.info py!"External-Identifier" = some v → v.values ≠ []
  nodup : (dkeys S.info).Nodup
  algs : ∀ a ∈ S.algs, '/' ∉ a
  hashes : ∀ f, ∀ ah ∈ S.hashes f, '/' ∉ ah.1

end Spec

/-- The output bag so far holds only what the source has, and standard files. -/
structure OutOk (S : Source) (t : Tree) : Prop where
  wf : WfTree t
  files : ∀ p, t.isfile p = true → S.tree.isfile p = true ∨ Standard p
  dirs : ∀ p, t.isdir p = true → S.tree.isdir p = true

theorem not_dir_of_file {t : Tree} (h : WfTree t) {p : Path} (hf : t.isfile p = true) : t.isdir p = false := by
  obtain ⟨c, hc⟩ := isfile_iff.1 hf
  cases hd : t.isdir p with
  | false => rfl
  | true =>
    rcases isdir_iff.1 hd with rfl | hd
    · exact absurd rfl (h.good [] (mem_dkeys_iff.2 ⟨_, hc⟩)).1
    · rw [hd] at hc; cases hc

theorem file_mem {t : Tree} {p : Path} (h : t.isfile p = true) : p ∈ dkeys t := by
  obtain ⟨c, hc⟩ := isfile_iff.1 h
  exact mem_dkeys_iff.2 ⟨_, hc⟩

theorem srcdir_not_file {S : Source} (o : Ordinary S) {t : Tree} (h : OutOk S t) {p : Path}
    (hd : S.tree.isdir p = true) : t.isfile p = false := by
  cases hf : t.isfile p with
  | false => rfl
  | true =>
    rcases h.files p hf with h' | h'
    · rw [not_dir_of_file o.wf h'] at hd; cases hd
    · rw [o.standard p h'] at hd; cases hd

theorem prefix_dir {t : Tree} (h : WfTree t) {p q : Path} (hd : t.isdir p = true) (hq : q <+: p) : t.isdir q = true := by
  by_cases e : q = p
  · rw [e]; exact hd
  · rcases isdir_iff.1 hd with rfl | hd
    · rw [List.prefix_nil] at hq; exact absurd hq e
    · exact wf_prefix_dir h (mem_dkeys_iff.2 ⟨_, hd⟩) hq e

theorem dropLast_dir {t : Tree} (h : WfTree t) {p : Path} (hf : t.isfile p = true) : t.isdir p.dropLast = true :=
  h.parent p (file_mem hf)

theorem lift_total {d : CopyDisk} {r : Except PyErr Tree} (h : ∃ t, r = .ok t) : ∃ d', d.lift r = .ok d' := by
  obtain ⟨t, rfl⟩ := h
  exact ⟨_, rfl⟩

theorem write_total {t : Tree} {p : Path} {c : Str} (h : t.isdir p = false) (hp : t.isdir p.dropLast = true) :
    ∃ t', t.write p c = .ok t' := by
  unfold Tree.write
  rw [if_neg (by simp [h, hp])]
  exact ⟨_, rfl⟩

theorem ensureDir_total {S : Source} (o : Ordinary S) {d : CopyDisk} (h : OutOk S d.out) {p : Path}
    (hd : S.tree.isdir p = true) : ∃ d', ensureDir copyFS d p = .ok d' := by
  unfold ensureDir
  split
  · exact ⟨_, rfl⟩
  · refine lift_total (makedirsFrom_total (by simp [Tree.isdir]) ?_)
    intro q hq
    exact srcdir_not_file o h (prefix_dir o.wf hd (by simpa using hq))

theorem singleton_isdir_root (t : Tree) (c : Str) : t.isdir ([c] : Path).dropLast = true := by
  simp [Tree.isdir]

theorem recordHashes_total {S : Source} (o : Ordinary S) {f : Str} (hs : List (Str × Str)) {d : CopyDisk}
    (hd : ∀ p, d.out.isdir p = true → S.tree.isdir p = true) :
    ∃ d', recordHashes copyFS f hs d = .ok d' := by
  induction hs generalizing d with
  | nil => exact ⟨_, rfl⟩
  | cons ah hs ih =>
    obtain ⟨alg, hash⟩ := ah
    simp only [recordHashes]
    have hnd : d.out.isdir (manPath (manType f) alg) = false := by
      cases hx : d.out.isdir (manPath (manType f) alg) with
      | false => rfl
      | true =>
        have := hd _ hx
        rw [o.standard] at this
        · cases this
        · rw [manPath_eq]
          refine .inr (.inr ⟨alg, ?_⟩)
          split
          · exact .inl rfl
          · exact .inr rfl
    obtain ⟨d1, h1⟩ := lift_total (d := d) (write_total (c := (d.out.read (manPath (manType f) alg)).getD [] ++ hashLine hash f)
      hnd (by simp [manPath, Tree.isdir]))
    have : copyFS.append d (manPath (manType f) alg) (hashLine hash f) = .ok d1 := h1
    rw [this]
    apply ih
    obtain ⟨_, w⟩ := lift_ok h1
    obtain ⟨e, n1, _⟩ := Tree.write_ok w
    intro p hp
    apply hd
    rw [e, isdir_dset] at hp
    split at hp
    · rename_i e; subst e; simp [manPath] at hp
    · exact hp

theorem putEntry_total {S : Source} (o : Ordinary S) {blen : Str → Nat} {bagname : Str} {s : PState CopyDisk} {f : Str}
    (hsrc : s.disk.src = S.tree) (hf : PlanEntry f) (h : OutOk S s.disk.out) :
    ∃ s', putEntry copyFS S blen bagname s f = .ok s' := by
  obtain ⟨hg, hns, _⟩ := planEntry_good hf
  simp only [putEntry]
  split
  · exact ⟨_, rfl⟩
  · rename_i he
    split
    · rename_i hd
      obtain ⟨d1, h1⟩ := ensureDir_total o h hd
      rw [h1]; exact ⟨_, rfl⟩
    · rename_i hd
      have hsf : S.tree.isfile (comps f) = true := by
        rw [exists_cases, Bool.or_eq_false_iff] at he
        rw [Bool.not_eq_true] at hd
        cases hx : S.tree.isfile (comps f) with
        | false => exact absurd ⟨hd, hx⟩ he
        | true => rfl
      have hpar := dropLast_dir o.wf hsf
      obtain ⟨d1, h1⟩ := ensureDir_total o h hpar
      rw [h1]
      obtain ⟨e1, e2, e3, e4⟩ := ensureDir_copy h1
      have hdirs := e4 h.wf (srcdir_not_file o h hpar)
      obtain ⟨c, hc⟩ : ∃ c, S.tree.read (comps f) = some c := by
        rw [isfile_read] at hsf; exact Option.isSome_iff_exists.1 hsf
      have hd1 : ∀ p, d1.out.isdir p = true → S.tree.isdir p = true := by
        intro p hp
        rcases (hdirs p).1 hp with h' | h'
        · exact h.dirs p h'
        · exact prefix_dir o.wf hpar h'
      have hnd : d1.out.isdir (comps f) = false := by
        cases hx : d1.out.isdir (comps f) with
        | false => rfl
        | true => exact absurd (hd1 _ hx) hd
      obtain ⟨d2, h2⟩ := lift_total (d := d1) (write_total (c := c) hnd ((hdirs _).2 (.inr (List.prefix_refl _))))
      have h2' : copyFS.replicate d1 (comps f) = .ok d2 := by
        simp only [copyFS, e1.src, hsrc, hc]; exact h2
      simp only [h2']
      obtain ⟨_, w⟩ := lift_ok h2
      obtain ⟨e, n1, _⟩ := Tree.write_ok w
      have hif : copyFS.isfile d2 (comps f) = true := by
        show d2.out.isfile (comps f) = true
        rw [isfile_read, e, Tree.read_dset, if_pos rfl]; rfl
      rw [if_neg (by simp [hif])]
      obtain ⟨d3, h3⟩ := recordHashes_total o (f := f) (S.hashes f) (d := d2) (by
        intro p hp
        apply hd1
        rw [e, isdir_dset] at hp
        split at hp
        · rename_i e'; subst e'; simp [hg.1] at hp
        · exact hp)
      rw [h3]
      exact ⟨_, rfl⟩

theorem needsDir_src {S : Source} (o : Ordinary S) {fs : List Str} {p : Path} (h : NeedsDir S.tree fs p) :
    S.tree.isdir p = true := by
  obtain ⟨f, _, ⟨h1, h2⟩ | ⟨h1, h2⟩⟩ := h
  · exact prefix_dir o.wf h1 h2
  · exact prefix_dir o.wf (dropLast_dir o.wf h1) h2

theorem outOk_put {S : Source} (o : Ordinary S) {blen : Str → Nat} {bagname : Str} {fs : List Str}
    {s s' : PState CopyDisk} (h : OutOk S s.disk.out) (p : Put S blen bagname fs s s') : OutOk S s'.disk.out := by
  refine ⟨p.wf h.wf, p.files h.files, ?_⟩
  intro q hq
  rcases (p.dirs h.wf h.files q).1 hq with h' | h'
  · exact h.dirs q h'
  · exact needsDir_src o h'

theorem putEntries_total {S : Source} (o : Ordinary S) {blen : Str → Nat} {bagname : Str} {fs : List Str}
    {s : PState CopyDisk} (hsrc : s.disk.src = S.tree) (hf : ∀ f ∈ fs, PlanEntry f) (h : OutOk S s.disk.out) :
    ∃ s', putEntries copyFS S blen bagname fs s = .ok s' ∧ OutOk S s'.disk.out := by
  induction fs generalizing s with
  | nil => exact ⟨s, rfl, h⟩
  | cons f fs ih =>
    obtain ⟨s1, h1⟩ := putEntry_total o (blen := blen) (bagname := bagname) hsrc (hf f (List.mem_cons_self ..)) h
    have p1 := putEntry_copy hsrc (hf f (List.mem_cons_self ..)) (o.hashes f) h1
    obtain ⟨s2, h2, h3⟩ := ih (s := s1) (by rw [p1.same.src, hsrc]) (fun g hg => hf g (List.mem_cons_of_mem _ hg))
      (outOk_put o h p1)
    refine ⟨s2, ?_, h3⟩
    simp only [putEntries, h1, h2]

theorem emptyManifests_total (algs : List Str) {d : CopyDisk}
    (hd : ∀ a ∈ algs, d.out.isdir [py!"manifest-" ++ a ++ py!".txt"] = false) :
    ∃ d', emptyManifests copyFS algs d = .ok d' := by
  induction algs generalizing d with
  | nil => exact ⟨_, rfl⟩
  | cons a algs ih =>
    simp only [emptyManifests]
    obtain ⟨d1, h1⟩ := lift_total (d := d) (write_total (c := ([] : Str)) (hd a (List.mem_cons_self ..))
      (by simp [Tree.isdir]))
    have : copyFS.write d (manPath py!"manifest" a) [] = .ok d1 := by rw [manPath_manifest]; exact h1
    rw [this]
    apply ih
    obtain ⟨_, w⟩ := lift_ok h1
    obtain ⟨e, _, _⟩ := Tree.write_ok w
    intro b hb
    rw [e, isdir_dset]
    split
    · simp
    · exact hd b (List.mem_cons_of_mem _ hb)

theorem startBag_total {S : Source} (o : Ordinary S) {n : Str} {d : CopyDisk} (hsrc : d.src = S.tree)
    (hn : n ∉ d.taken) : ∃ d', startBag copyFS S n d = .ok d' ∧ OutOk S d'.out := by
  have : ∃ d', startBag copyFS S n d = .ok d' := by
    simp only [startBag]
    have h1 : copyFS.newBag d n = .ok { d with taken := n :: d.taken, out := [] } := by
      simp [copyFS, hn]
    rw [h1]
    simp only
    have h2 : copyFS.mkdir { d with taken := n :: d.taken, out := [] } [py!"data"] =
        .ok { d with taken := n :: d.taken, out := [([py!"data"], .dir)] } := rfl
    rw [h2]
    simp only
    obtain ⟨d3, h3⟩ := emptyManifests_total S.algs
      (d := { d with taken := n :: d.taken, out := [([py!"data"], .dir)] }) (by
        intro a _; simp [Tree.isdir, dget])
    rw [h3]
    obtain ⟨s3, r3, i3, _⟩ := emptyManifests_copy h3
    simp only
    rw [if_pos (by rw [exists_cases, o.bagit]; simp)]
    obtain ⟨c, hc⟩ : ∃ c, S.tree.read [py!"bagit.txt"] = some c := by
      have := o.bagit; rw [isfile_read] at this; exact Option.isSome_iff_exists.1 this
    have : copyFS.replicate d3 [py!"bagit.txt"] = d3.lift (d3.out.write [py!"bagit.txt"] c) := by
      simp only [copyFS, s3.src, hsrc, hc]
    rw [this]
    refine lift_total (write_total ?_ (by simp [Tree.isdir]))
    rw [i3]; rfl
  obtain ⟨d', h⟩ := this
  refine ⟨d', h, ?_⟩
  obtain ⟨_, _, r, i, w, _⟩ := startBag_copy hsrc h
  refine ⟨w o.algs, ?_, ?_⟩
  · intro p hp; rw [isfile_read, r] at hp; exact .inr (baseRead_standard hp)
  · intro p hp
    rcases (i p).1 hp with rfl | rfl
    · simp [Tree.isdir]
    · exact o.data

theorem infoBody_total {nopass : List Str} {n : Str} {size count : Nat} (info : Info)
    (h : ∀ e ∈ info, e.1 = py!"External-Identifier" → e.2.values ≠ []) :
    ∃ l, infoBody nopass n size count info = .ok l := by
  induction info with
  | nil => exact ⟨_, rfl⟩
  | cons e info ih =>
    obtain ⟨l2, h2⟩ := ih (fun e' he' => h e' (List.mem_cons_of_mem _ he'))
    have : ∃ l1, infoFields nopass n size count e = .ok l1 := by
      obtain ⟨name, v⟩ := e
      simp only [infoFields]
      split
      · exact ⟨_, rfl⟩
      split
      · exact ⟨_, rfl⟩
      split
      · exact ⟨_, rfl⟩
      split
      · rename_i hid
        cases hv : v.values with
        | nil => exact absurd hv (h (name, v) (List.mem_cons_self ..) hid)
        | cons x xs => exact ⟨_, rfl⟩
      split
      · exact ⟨_, rfl⟩
      split
      · exact ⟨_, rfl⟩
      · exact ⟨_, rfl⟩
    obtain ⟨l1, h1⟩ := this
    simp only [infoBody, h1, h2]
    exact ⟨_, rfl⟩

theorem bagInfoFields_total {S : Source} (o : Ordinary S) {opts : ApplyOpts} {n : Str} {ishead : Bool} {size count : Nat} :
    ∃ l, bagInfoFields S opts n ishead size count = .ok l := by
  obtain ⟨l, h⟩ := infoBody_total (nopass := opts.nopass) (n := n) (size := size) (count := count) S.info (by
    intro e he hid
    apply o.ids e.2
    rw [← hid]
    exact dget_of_mem o.nodup he)
  simp only [bagInfoFields, h]
  exact ⟨_, rfl⟩

theorem writeHeadFiles_total {S : Source} (o : Ordinary S) {members : List Str} {dest : List (Str × Str)}
    {d : CopyDisk} (hsrc : d.src = S.tree) (h : OutOk S d.out) :
    ∃ d', writeHeadFiles copyFS S members dest d = .ok d' := by
  simp only [writeHeadFiles]
  have hmf : d.out.isfile [py!"multibag"] = false := by
    cases hx : d.out.isfile [py!"multibag"] with
    | false => rfl
    | true =>
      rcases h.files _ hx with h' | h'
      · rw [o.multibag] at h'; cases h'
      · rcases h' with h' | h' | ⟨a, h' | h'⟩ <;> simp at h'
  have hnd : ∀ p, HeadFile p → d.out.isdir p = false := by
    intro p hp
    cases hx : d.out.isdir p with
    | false => rfl
    | true => have := h.dirs p hx; rw [o.headfile p hp] at this; cases this
  obtain ⟨d1, h1, s1, i1⟩ : ∃ d1, (if copyFS.isdir d [py!"multibag"] = true then Except.ok d else copyFS.mkdir d [py!"multibag"]) = .ok d1
      ∧ SameBut d d1 ∧ ∀ p, d1.out.isdir p = true ↔ d.out.isdir p = true ∨ p = [py!"multibag"] := by
    split
    · rename_i hm
      refine ⟨d, rfl, rfl, ?_⟩
      intro p; exact ⟨.inl, fun h => h.elim id (fun e => e ▸ hm)⟩
    · rename_i hm
      have hm' : d.out.isdir [py!"multibag"] = false := by simpa [copyFS] using hm
      have : d.out.mkdir [py!"multibag"] = .ok (dset d.out [py!"multibag"] .dir) := by
        unfold Tree.mkdir
        rw [if_neg]
        rw [exists_cases, hm', hmf]
        simp [Tree.isdir]
      refine ⟨{ d with out := dset d.out [py!"multibag"] .dir }, ?_, rfl, ?_⟩
      · show d.lift _ = _; rw [this]; rfl
      · intro p
        show Tree.isdir (dset d.out [py!"multibag"] .dir) p = true ↔ _
        rw [isdir_dset]
        split
        · rename_i e; subst e; simp
        · rename_i e; exact ⟨.inl, fun h => h.elim id (fun e' => absurd e'.symm e)⟩
  rw [h1]
  simp only
  have key : ∀ (d : CopyDisk) (p : Path) (c : Str), HeadFile p → (∀ q, HeadFile q → d.out.isdir q = false) →
      d.out.isdir [py!"multibag"] = true →
      ∃ d', copyFS.write d p c = .ok d' ∧ d'.src = d.src ∧ (∀ q, HeadFile q → d'.out.isdir q = false) ∧
        d'.out.isdir [py!"multibag"] = true := by
    intro d p c hp hq hm
    have hdl : p.dropLast = [py!"multibag"] := by rcases hp with rfl | rfl | rfl <;> rfl
    obtain ⟨d', h'⟩ := lift_total (d := d) (write_total (c := c) (hq p hp) (by rw [hdl]; exact hm))
    obtain ⟨s, w⟩ := lift_ok h'
    obtain ⟨e, _, _⟩ := Tree.write_ok w
    refine ⟨d', h', s.src, ?_, ?_⟩
    · intro q hq'
      rw [e, isdir_dset]
      split
      · rename_i e'; subst e'; rcases hp with rfl | rfl | rfl <;> rfl
      · exact hq q hq'
    · rw [e, isdir_dset, if_neg]
      · exact hm
      · rcases hp with rfl | rfl | rfl <;> decide
  have hnd1 : ∀ q, HeadFile q → d1.out.isdir q = false := by
    intro q hq
    cases hx : d1.out.isdir q with
    | false => rfl
    | true =>
      rcases (i1 q).1 hx with h' | h'
      · rw [hnd q hq] at h'; cases h'
      · rcases hq with rfl | rfl | rfl <;> simp at h'
  obtain ⟨d2, h2, e2, n2, m2⟩ := key d1 _ (members.map (· ++ ['\n'])).flatten (.inl rfl) hnd1 ((i1 _).2 (.inr rfl))
  rw [h2]; simp only
  obtain ⟨d3, h3, e3, n3, m3⟩ := key d2 _ (lookupText dest) (.inr (.inl rfl)) n2 m2
  rw [h3]; simp only
  obtain ⟨d4, h4, e4, n4, m4⟩ := key d3 _ (copiedText S.mode ((copyFS.srcRead d3 [py!"bag-info.txt"]).getD []))
    (.inr (.inr rfl)) n3 m3
  rw [h4]; simp only
  rw [if_pos]
  · exact ⟨_, rfl⟩
  · show (d4.src.read _).isSome = true
    rw [e4, e3, e2, s1.src, hsrc, ← isfile_read]; exact o.baginfo

theorem writeBag_total {S : Source} (o : Ordinary S) {blen : Str → Nat} {opts : ApplyOpts} {n : Str}
    {contents : List Str} {ishead : Bool} {members : List Str} {dest : List (Str × Str)} {d : CopyDisk}
    (hsrc : d.src = S.tree) (hn : n ∉ d.taken) (hf : ∀ f ∈ contents, PlanEntry f) :
    ∃ r, writeBag copyFS S blen opts n contents ishead members dest d = .ok r := by
  obtain ⟨d1, h1, ok1⟩ := startBag_total o hsrc hn
  obtain ⟨_, hd1, _⟩ := startBag_copy hsrc h1
  have hsrc1 : d1.src = S.tree := by rw [hd1]; exact hsrc
  obtain ⟨s2, h2, ok2⟩ := putEntries_total o (blen := blen) (bagname := n)
    (s := ({ disk := d1, dest := dest } : PState CopyDisk)) hsrc1 hf ok1
  have p2 := putEntries_copy (s := ({ disk := d1, dest := dest } : PState CopyDisk)) hsrc1 hf (fun f _ => o.hashes f) h2
  obtain ⟨fields, h3⟩ := bagInfoFields_total o (opts := opts) (n := n) (ishead := ishead) (size := s2.size) (count := s2.count)
  have hnd : s2.disk.out.isdir [py!"bag-info.txt"] = false := by
    cases hx : s2.disk.out.isdir [py!"bag-info.txt"] with
    | false => rfl
    | true => have := ok2.dirs _ hx; rw [o.standard _ (.inr (.inl rfl))] at this; cases this
  obtain ⟨d4, h4⟩ := lift_total (d := s2.disk) (write_total (c := fieldsText fields) hnd (by simp [Tree.isdir]))
  obtain ⟨s4, w4⟩ := lift_ok h4
  obtain ⟨e4, n4, q4⟩ := Tree.write_ok w4
  have h4' : copyFS.write s2.disk [py!"bag-info.txt"] (fieldsText fields) = .ok d4 := h4
  simp only [writeBag, h1, h2, h3, h4']
  cases ishead with
  | false => exact ⟨_, rfl⟩
  | true =>
    have ok4 : OutOk S d4.out := by
      rw [e4]
      refine ⟨wf_dset ok2.wf good_baginfo q4 (.inl n4), ?_, ?_⟩
      · intro p hp
        rw [isfile_read, Tree.read_dset] at hp
        split at hp
        · rename_i e; exact .inr (.inr (.inl e))
        · rw [← isfile_read] at hp; exact ok2.files p hp
      · intro p hp
        rw [isdir_dset] at hp
        split at hp
        · rename_i e; subst e; simp at hp
        · exact ok2.dirs p hp
    obtain ⟨d5, h5⟩ := writeHeadFiles_total o (members := members) (dest := s2.dest)
      (d := d4) (by rw [s4.src, p2.same.src]; exact hsrc1) ok4
    simp only [if_true, h5]
    exact ⟨_, rfl⟩

theorem applyLoop_total {S : Source} (o : Ordinary S) {blen : Str → Nat} {opts : ApplyOpts} {plan : List Manifest}
    {names members : List Str} {dest : List (Str × Str)} {d : CopyDisk} (hsrc : d.src = S.tree)
    (hf : ∀ m ∈ plan, ∀ f ∈ m.contents, PlanEntry f) {ns : List Str}
    (hns : chosenNames plan names = ns.map some) (hnd : ns.Nodup) (ht : ∀ n ∈ ns, n ∉ d.taken) :
    ∃ d', applyLoop copyFS S blen opts plan names members dest d = .ok d' := by
  induction plan generalizing names members dest d ns with
  | nil => exact ⟨_, rfl⟩
  | cons m rest ih =>
    cases ns with
    | nil => simp [chosenNames] at hns
    | cons n ns =>
      simp only [chosenNames, List.map_cons, List.cons.injEq] at hns
      rw [List.nodup_cons] at hnd
      simp only [applyLoop, hns.1]
      obtain ⟨⟨d1, dest1⟩, h1⟩ := writeBag_total o (blen := blen) (opts := opts) (n := n) (ishead := rest.isEmpty)
        (members := moveToEnd members n) (dest := dest) hsrc (ht n (List.mem_cons_self ..)) (hf m (List.mem_cons_self ..))
      rw [h1]
      obtain ⟨t, fields, _, hd1, _, _⟩ := writeBag_copy hsrc (hf m (List.mem_cons_self ..)) (fun f _ => o.hashes f) h1
      refine ih (by rw [hd1]; exact hsrc) (fun m' hm' => hf m' (List.mem_cons_of_mem _ hm')) hns.2 hnd.2 ?_
      intro x hx
      rw [hd1]
      intro hx'
      rcases List.mem_cons.1 hx' with rfl | hx'
      · exact hnd.1 hx
      · exact ht x (List.mem_cons_of_mem _ hx) hx'

end Verif
