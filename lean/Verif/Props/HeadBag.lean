import Verif.Lemmas.Frame
/-!
# Properties of the head bag object

The theorems speak about an opened head bag after any history of successful
calls (`runOk ops (HeadBag.open tree info) = some s`), and observe it through
`member_bags`, `lookup_file`, `files_in_member` and `deleted_paths`.
-/

namespace Verif

open Spec

/-! ## From opened bags to the invariant -/

theorem infoOk_of_tag {info : Info} (ht : ∀ l, dget info py!"Multibag-Tag-Directory" ≠ some (.many l))
    (hv : verLt (profileVersion info) py!"0.3" = false) : InfoOk info := by
  refine ⟨?_, hv⟩
  unfold readerTagDir tagDir
  cases h : dget info py!"Multibag-Tag-Directory" with
  | none => rfl
  | some v =>
    cases v with
    | one s => rfl
    | many l => exact absurd h (ht l)

theorem inv_open {tree : Tree} {info : Info} (o : Opened tree info) : Inv (HeadBag.open tree info) := by
  have hi := infoOk_of_tag o.tag o.ver
  refine ⟨hi, ?_, ?_, ?_⟩
  · obtain ⟨ms, h⟩ := o.members
    rw [memberBags_fst] at h; exact ⟨ms, h⟩
  · obtain ⟨b, h⟩ := o.lookup
    rw [(lookupFile_spec _ _).1] at h
    cases hl : lookupView (HeadBag.open tree info) with
    | error e => rw [hl] at h; cases h
    | ok d => exact ⟨d, rfl, tableOk_of_view hi (by simp [HeadBag.open]) hl⟩
  · obtain ⟨ps, h⟩ := o.deleted
    rw [(deletedPaths_spec _).1] at h
    refine ⟨ps, h, ?_⟩
    unfold deletedView at h
    simp only [HeadBag.open] at h
    split at h
    · injection h with h; subst h; exact nodup_pySet _
    · cases h

theorem inv_reached {tree : Tree} {info : Info} {ops : List Op} {s : HeadBag} (o : Opened tree info)
    (h : runOk ops (HeadBag.open tree info) = some s) : Inv s := run_inv (inv_open o) h

theorem infoOk_reached {tree : Tree} {info : Info} {ops : List Op} {s : HeadBag} (o : Opened tree info)
    (h : runOk ops (HeadBag.open tree info) = some s) : InfoOk s.info := (inv_reached o h).info

/-! ## A concrete bag, used to show that hypotheses can be met -/

namespace Sample

/-- Metadata of a small head bag. -/
def info : Info := [(py!"Multibag-Version", .one py!"0.4"), (py!"Contact", .many [py!"a", py!"b"])]

/-- A head bag with two members, three lookup lines (one repeated) and one deletion. -/
def tree : Tree :=
  [([py!"data"], .dir), ([py!"data", py!"x"], .file py!"hello"),
   ([py!"multibag"], .dir),
   ([py!"multibag", py!"member-bags.tsv"], .file py!"b1\tark:/1\nb2\n"),
   ([py!"multibag", py!"file-lookup.tsv"], .file py!"data/x\tb1\ndata/y\tb2\ndata/x\tb2\n"),
   ([py!"multibag", py!"deleted.txt"], .file py!"data/old\n")]

theorem opened : Opened tree info where
  tag := by intro l; simp [dget, info]
  ver := by decide
  members := ⟨[⟨py!"b1", some py!"ark:/1", none, []⟩, ⟨py!"b2", none, none, []⟩], by decide⟩
  lookup := ⟨none, by decide⟩
  deleted := ⟨[py!"data/old"], by decide⟩

/-- A history with every kind of call. -/
def ops : List Op :=
  [.memberBags, .deletedPaths, .addMember ⟨py!"b3", none, some py!"new", []⟩ true, .addLookup py!"data/z" py!"b3",
   .removeMember py!"b1", .removeLookup py!"data/y", .setDeleted py!"data/x", .unsetDeleted py!"data/old",
   .lookupFile py!"data/x", .filesInMember py!"b3", .saveMembers, .saveLookup, .saveDeleted id,
   .reloadMembers, .reloadLookup py!"data/z", .reloadDeleted]

/-- The history succeeds. -/
theorem runs : (runOk ops (HeadBag.open tree info)).isSome = true := by decide +kernel

end Sample

/-! ## C09 -/

/-- C09: `lookup_file` on an opened bag returns the bag of the last line of
file-lookup.tsv for that path, and nothing exactly if there is no such line. -/
theorem C09_last_line_wins (tree : Tree) (info : Info) (text : Str) (rs : List (Str × Str)) (p : Str)
    (o : Opened tree info)
    (hf : tree.read (comps (tagDir info) ++ [py!"file-lookup.tsv"]) = some text)
    (hr : readLookup03 .codecs text = .ok rs) :
    (∀ b, ((HeadBag.open tree info).lookupFile p).1 = .ok (some b) ↔
      ∃ before after, rs = before ++ (p, b) :: after ∧ ∀ r ∈ after, r.1 ≠ p) ∧
    (((HeadBag.open tree info).lookupFile p).1 = .ok none ↔ ∀ r ∈ rs, r.1 ≠ p) := by
  have hi := infoOk_of_tag o.tag o.ver
  have hit : iterLookup .codecs tree info = .ok rs := by
    rw [iterLookup_03 hi, tagFile_eq _ comps_lookup, hf]; exact hr
  have hv : lookupView (HeadBag.open tree info) = .ok (dofPairs rs) := by
    simp [lookupView, HeadBag.open, hit]
  rw [(lookupFile_spec _ p).1, hv]
  simp only [Except.map, Except.ok.injEq]
  have hd : dget (dofPairs rs) p = (rs.reverse.find? (fun q => q.1 = p)).map Prod.snd := by
    rw [dofPairs, dget_foldl_dset]
    cases rs.reverse.find? (fun q => q.1 = p) <;> rfl
  rw [hd]
  constructor
  · intro b
    constructor
    · intro h
      obtain ⟨q, hq, rfl⟩ := Option.map_eq_some_iff.1 h
      rw [List.find?_eq_some_iff_append] at hq
      obtain ⟨hqp, as, bs, e, hn⟩ := hq
      have e' : rs = bs.reverse ++ q :: as.reverse := by
        have := congrArg List.reverse e
        simpa using this
      have hqp' : q.1 = p := by simpa using hqp
      refine ⟨bs.reverse, as.reverse, by rw [e', ← hqp'], ?_⟩
      intro r hr
      have := hn r (by simpa using hr)
      simpa using this
    · rintro ⟨bf, af, e, hn⟩
      have : rs.reverse.find? (fun q => q.1 = p) = some (p, b) := by
        rw [List.find?_eq_some_iff_append]
        refine ⟨by simp, af.reverse, bf.reverse, by simp [e], ?_⟩
        intro a ha
        simpa using hn a (by simpa using ha)
      rw [this]; rfl
  · rw [Option.map_eq_none_iff, List.find?_eq_none]
    simp

example : ((HeadBag.open Sample.tree Sample.info).lookupFile py!"data/x").1 = .ok (some py!"b2") := by decide

/-! ## C12 -/

/-- C12: `add_member_bag` lists the bag last; with `override` all earlier entries
of that name are dropped, without it they are kept; other entries keep their order. -/
theorem C12_add_member (tree : Tree) (info : Info) (ops : List Op) (s : HeadBag) (o : Opened tree info)
    (h : runOk ops (HeadBag.open tree info) = some s) (ms : List MemberInfo)
    (hm : (s.memberBags).1 = .ok ms) (m : MemberInfo) (override : Bool) :
    (s.addMemberBag m override).1 = .ok () ∧
    ((s.addMemberBag m override).2.memberBags).1 =
      .ok ((if override then ms.filter (fun x => x.name ≠ m.name) else ms) ++ [m]) := by
  have hi := inv_reached o h
  obtain ⟨d, hd, ht⟩ := hi.lookup
  rw [memberBags_fst] at hm
  obtain ⟨h1, h2, _⟩ := addMemberBag_spec s m override ms d hm hd ht.nodup ht.nonempty
  refine ⟨h1, ?_⟩
  rw [memberBags_fst]
  simp only [membersView, h2]

example : (((HeadBag.open Sample.tree Sample.info).addMemberBag ⟨py!"b1", none, none, []⟩).2.memberBags).1
    = .ok [⟨py!"b2", none, none, []⟩, ⟨py!"b1", none, none, []⟩] := by decide

/-! ## C13 -/

/-- C13 is false of the code: on a freshly opened bag `remove_member_bag` leaves
the member in the list (line 512 names `member_bags` but does not call it). -/
theorem C13_negation :
    ∃ tree info b, Opened tree info ∧ ∃ ms,
      ((HeadBag.open tree info).removeMemberBag b).1 = .ok () ∧
      (((HeadBag.open tree info).removeMemberBag b).2.memberBags).1 = .ok ms ∧ ∃ m ∈ ms, m.name = b := by
  refine ⟨Sample.tree, Sample.info, py!"b2", Sample.opened,
    [⟨py!"b1", some py!"ark:/1", none, []⟩, ⟨py!"b2", none, none, []⟩], by decide, by decide, ?_⟩
  exact ⟨⟨py!"b2", none, none, []⟩, by simp, rfl⟩

/-- C13, second refutation: removing a member of a freshly opened bag forgets all
deletions that were saved in it. -/
theorem C13_negation_deleted :
    ∃ tree info b, Opened tree info ∧
      ((HeadBag.open tree info).deletedPaths).1 = .ok [py!"data/old"] ∧
      (((HeadBag.open tree info).removeMemberBag b).2.deletedPaths).1 = .ok [] ∧
      (((HeadBag.open tree info).lookupFile py!"data/old").1 = .ok none) :=
  ⟨Sample.tree, Sample.info, py!"b2", Sample.opened, by decide, by decide, by decide⟩

/-- C13 (partial): if the member list has been asked for first, `remove_member_bag`
removes exactly the entries of that name.  Missing: the case in which the list was
not loaded, where the property fails (`C13_negation`). -/
theorem C13_members_partial (tree : Tree) (info : Info) (ops : List Op) (s : HeadBag) (o : Opened tree info)
    (h : runOk ops (HeadBag.open tree info) = some s) (ms : List MemberInfo)
    (hm : (s.memberBags).1 = .ok ms) (b : Str) :
    let s1 := (s.memberBags).2
    (s1.removeMemberBag b).1 = .ok () ∧
    ((s1.removeMemberBag b).2.memberBags).1 = .ok (ms.filter (fun m => m.name ≠ b)) := by
  intro s1
  have hi := inv_reached o h
  obtain ⟨d, hd, ht⟩ := hi.lookup
  have hfr := memberBags_frame s
  have hd1 : lookupView s1 = .ok d := by
    rw [← hd]; simp only [lookupView, s1, hfr.1, hfr.2.1, hfr.2.2.1]
  rw [memberBags_fst] at hm
  have hm1 : membersView s1 = .ok ms := by rw [← hm]; exact memberBags_view s
  obtain ⟨g1, g2, g3, g4, g5, g6⟩ := removeMemberBag_spec s1 b d hd1 ht.nodup ht.nonempty
  refine ⟨g1, ?_⟩
  rw [memberBags_fst]
  cases hc : s1.members with
  | some l =>
    have : l = ms := by simpa [membersView, hc] using hm1
    subst this
    simp [membersView, g5, hc]
  | none =>
    -- the list is still not cached, so there is no file and the list is empty
    have hv : membersView (s1.removeMemberBag b).2 = membersView s1 := by
      simp only [membersView, g3, g4, g5, hc, Option.map]
    rw [hv, hm1]
    have he : ms = [] := by
      have hsn : s.members = none := by
        cases hs : s.members with
        | none => rfl
        | some l => simp [s1, HeadBag.memberBags, hs] at hc
      simp only [s1] at hc
      unfold HeadBag.memberBags at hc
      unfold membersView at hm
      simp only [hsn, Option.isNone_none, Bool.or_true, if_true] at hc hm
      split at hm <;> rename_i hit <;> rw [hit] at hc
      · simp at hc
      · injection hm with hm; exact hm.symm
      · cases hm
    simp [he]

example : let s1 := ((HeadBag.open Sample.tree Sample.info).memberBags).2
    (s1.removeMemberBag py!"b2").1 = .ok () ∧
    ((s1.removeMemberBag py!"b2").2.memberBags).1 = .ok [⟨py!"b1", some py!"ark:/1", none, []⟩] :=
  C13_members_partial Sample.tree Sample.info [] _ Sample.opened rfl
    [⟨py!"b1", some py!"ark:/1", none, []⟩, ⟨py!"b2", none, none, []⟩] (by decide) py!"b2"

/-- C13: after `remove_member_bag` no file is looked up to the bag and all other
lookups are unchanged, in every state. -/
theorem C13_lookups (tree : Tree) (info : Info) (ops : List Op) (s : HeadBag) (o : Opened tree info)
    (h : runOk ops (HeadBag.open tree info) = some s) (b : Str) :
    (s.removeMemberBag b).1 = .ok () ∧
    ∀ p f, (s.lookupFile p).1 = .ok f →
      ((s.removeMemberBag b).2.lookupFile p).1 = .ok (if f = some b then none else f) := by
  have hi := inv_reached o h
  obtain ⟨d, hd, ht⟩ := hi.lookup
  obtain ⟨g1, g2, _⟩ := removeMemberBag_spec s b d hd ht.nodup ht.nonempty
  refine ⟨g1, fun p f hf => ?_⟩
  rw [(lookupFile_spec _ _).1, hd] at hf
  rw [(lookupFile_spec _ _).1, g2]
  simp only [Except.map, Except.ok.injEq] at hf ⊢
  rw [dget_filter_snd ht.nodup, hf]

/-- Removing a member of the sample bag. -/
example : (((HeadBag.open Sample.tree Sample.info).removeMemberBag py!"b2").2.lookupFile py!"data/y").1 = .ok none :=
  (C13_lookups Sample.tree Sample.info [] _ Sample.opened rfl py!"b2").2 _ (some py!"b2") (by decide)

/-- C13 (partial): if the deletions have been asked for first, removing a member
unmarks exactly the files that were looked up to it.
Missing: calls before the deletions have been asked for (`C13_negation_deleted`). -/
theorem C13_deleted_partial (tree : Tree) (info : Info) (ops : List Op) (s : HeadBag) (o : Opened tree info)
    (h : runOk ops (HeadBag.open tree info) = some s) (ps : List Str)
    (hp : (s.deletedPaths).1 = .ok ps) (b : Str) :
    ∃ ps', ((((s.deletedPaths).2.removeMemberBag b).2).deletedPaths).1 = .ok ps' ∧
      ∀ q, q ∈ ps' ↔ q ∈ ps ∧ (s.lookupFile q).1 ≠ .ok (some b) := by
  have hi := inv_reached o h
  obtain ⟨d, hd, ht⟩ := hi.lookup
  obtain ⟨k1, k2, k3, k4, k5, k6⟩ := deletedPaths_spec s
  have hd1 : lookupView (s.deletedPaths).2 = .ok d := by
    rw [← hd]; simp only [lookupView, k3, k4, k6]
  rw [k1] at hp
  have hc : (s.deletedPaths).2.deleted = some ps := by
    unfold HeadBag.deletedPaths
    unfold deletedView at hp
    cases hs : s.deleted with
    | some l => rw [hs] at hp; simp only at hp; injection hp with hp; simp [hs, hp]
    | none =>
      rw [hs] at hp
      simp only [Option.isNone_none, Bool.or_true, if_true] at hp ⊢
      split at hp
      · rename_i hit; rw [hit]; injection hp with hp; simp [hp]
      · cases hp
  obtain ⟨g1, g2, g3, g4, g5, g6⟩ := removeMemberBag_spec (s.deletedPaths).2 b d hd1 ht.nodup ht.nonempty
  rw [(deletedPaths_spec _).1]
  have hq : ∀ q, (s.lookupFile q).1 = .ok (some b) ↔ dget d q = some b := by
    intro q
    rw [(lookupFile_spec _ _).1, hd]; simp [Except.map]
  simp only [ne_eq, hq]
  rw [hc] at g6
  by_cases hb : b ∈ d.map Prod.snd
  · rw [if_pos hb] at g6
    refine ⟨_, by simp only [deletedView, g6]; rfl, fun q => ?_⟩
    simp
  · rw [if_neg hb] at g6
    refine ⟨ps, by simp only [deletedView, g6], fun q => ⟨fun h => ⟨h, fun e => ?_⟩, fun h => h.1⟩⟩
    exact hb (List.mem_map.2 ⟨(q, b), (dget_iff_mem ht.nodup).1 e, rfl⟩)

example : ∃ ps', (((((HeadBag.open Sample.tree Sample.info).deletedPaths).2.removeMemberBag py!"b2").2).deletedPaths).1 = .ok ps' ∧
    py!"data/old" ∈ ps' := by
  obtain ⟨ps', h1, h2⟩ := C13_deleted_partial Sample.tree Sample.info [] _ Sample.opened rfl [py!"data/old"] (by decide) py!"b2"
  exact ⟨ps', h1, (h2 _).2 ⟨by decide, by decide⟩⟩

/-! ## C14 -/

theorem run_lookup {ops : List Op} {s s' : HeadBag} (hi : Inv s) (h : runOk ops s = some s')
    (hr : ∀ p, Op.reloadLookup p ∉ ops) {d : List (Str × Str)} (hd : lookupView s = .ok d) :
    ∃ d', lookupView s' = .ok d' ∧ ∀ q, dget d' q = ops.foldl lookupEffect (dget d) q := by
  induction ops generalizing s d with
  | nil => simp [runOk] at h; subst h; exact ⟨d, hd, fun _ => rfl⟩
  | cons op ops ih =>
    obtain ⟨s1, h1, h2⟩ := runOk_cons h
    obtain ⟨d0, d1, e0, e1, _, e2⟩ := step_lookup hi h1 (fun p e => hr p (by simp [e]))
    rw [hd] at e0; injection e0 with e0; subst e0
    obtain ⟨d', g1, g2⟩ := ih (step_inv hi h1) h2 (fun p hp => hr p (by simp [hp])) e1
    refine ⟨d', g1, fun q => ?_⟩
    rw [g2, List.foldl_cons]
    rw [funext e2]

/-- C14: after any history of successful calls (other than an explicit re-read),
`lookup_file` reports what the calls say, starting from what was saved. -/
theorem C14_lookup_history (tree : Tree) (info : Info) (ops : List Op) (s : HeadBag) (o : Opened tree info)
    (h : runOk ops (HeadBag.open tree info) = some s) (hr : ∀ p, Op.reloadLookup p ∉ ops)
    (saved : Str → Option Str) (hs : ∀ p, ((HeadBag.open tree info).lookupFile p).1 = .ok (saved p)) :
    ∀ p, (s.lookupFile p).1 = .ok (ops.foldl lookupEffect saved p) := by
  have hi := inv_open o
  obtain ⟨d, hd, _⟩ := hi.lookup
  have e : saved = dget d := by
    funext p
    have := hs p
    rw [(lookupFile_spec _ _).1, hd] at this
    simpa [Except.map] using this.symm
  obtain ⟨d', g1, g2⟩ := run_lookup hi h hr hd
  intro p
  rw [(lookupFile_spec _ _).1, g1, e, ← g2]
  rfl

/-- A history of the sample bag. -/
example : ∃ s, runOk [.addLookup py!"data/z" py!"b3", .removeMember py!"b2"] (HeadBag.open Sample.tree Sample.info) = some s ∧
    (s.lookupFile py!"data/z").1 = .ok (some py!"b3") ∧ (s.lookupFile py!"data/x").1 = .ok none := by
  obtain ⟨s, hs⟩ := Option.isSome_iff_exists.1 (show (runOk [.addLookup py!"data/z" py!"b3", .removeMember py!"b2"]
    (HeadBag.open Sample.tree Sample.info)).isSome = true by decide)
  have key := C14_lookup_history Sample.tree Sample.info _ s Sample.opened hs (by simp)
    (fun p => dget [(py!"data/x", py!"b2"), (py!"data/y", py!"b2")] p) (fun p => by
      show Except.ok (dget (([(py!"data/x", py!"b1"), (py!"data/y", py!"b2"), (py!"data/x", py!"b2")] : List (Str × Str)).foldl
        (fun d e => dset d e.1 e.2) []) p) = _
      rfl)
  exact ⟨s, hs, key _, key _⟩

/-- C14: the calls themselves do not fail when their arguments are not empty. -/
theorem C14_calls_succeed (tree : Tree) (info : Info) (ops : List Op) (s : HeadBag) (o : Opened tree info)
    (h : runOk ops (HeadBag.open tree info) = some s) (p b : Str) (hp : p ≠ []) :
    (s.removeFileLookup p).1 = .ok () ∧ (b ≠ [] → (s.addFileLookup p b).1 = .ok ()) := by
  obtain ⟨d, hd, _⟩ := (inv_reached o h).lookup
  exact ⟨(removeFileLookup_spec s p hp d hd).1, fun hb => (addFileLookup_spec s p b hp hb d hd).1⟩

example : ((((HeadBag.open Sample.tree Sample.info).removeFileLookup py!"data/x").2.addFileLookup
    py!"data/w" py!"b1").2.lookupFile py!"data/x").1 = .ok none := by decide

/-! ## C15 -/

/-- C15 is false of the code: `set_deleted` on a freshly opened bag forgets the
deletions that were saved (line 651 names `deleted_paths` but does not call it). -/
theorem C15_negation :
    ∃ tree info p, Opened tree info ∧
      ((HeadBag.open tree info).deletedPaths).1 = .ok [py!"data/old"] ∧
      (((HeadBag.open tree info).setDeleted p).2.deletedPaths).1 = .ok [p] ∧ p ≠ py!"data/old" :=
  ⟨Sample.tree, Sample.info, py!"data/new", Sample.opened, by decide, by decide, by decide⟩

/-- C15, as it reaches the disk: `set_deleted` and `save_deleted` on a freshly
opened bag lose a saved deletion. -/
theorem C15_negation_saved :
    ∃ tree info p s, Opened tree info ∧
      ((HeadBag.open tree info).deletedPaths).1 = .ok [py!"data/old"] ∧
      runOk [.setDeleted p, .saveDeleted id] (HeadBag.open tree info) = some s ∧
      ((HeadBag.open s.tree s.info).deletedPaths).1 = .ok [p] ∧ p ≠ py!"data/old" := by
  refine ⟨Sample.tree, Sample.info, py!"data/new", _, Sample.opened, by decide, rfl, by decide, by decide⟩

/-- Calls whose effect on the deleted set is determined by `deletedEffect`. -/
def plainForDeleted : Op → Bool
  | .removeMember _ | .addMember _ true | .reloadDeleted => false
  | _ => true

theorem run_deleted {ops : List Op} {s s' : HeadBag} (hi : Inv s) (h : runOk ops s = some s')
    (ho : ∀ op ∈ ops, plainForDeleted op = true) {ps : List Str} (hp : deletedView s = .ok ps)
    (hl : s.deleted ≠ none ∨ ps = []) :
    ∃ ps', deletedView s' = .ok ps' ∧ ∀ q, q ∈ ps' ↔ ops.foldl deletedEffect (· ∈ ps) q := by
  induction ops generalizing s ps with
  | nil => simp [runOk] at h; subst h; exact ⟨ps, hp, fun _ => Iff.rfl⟩
  | cons op ops ih =>
    obtain ⟨s1, h1, h2⟩ := runOk_cons h
    have hop := ho op (by simp)
    obtain ⟨_, _, hd⟩ := step_deleted hi h1
    obtain ⟨p0, p1, e0, e1, e2, e3⟩ := hd (by rintro b rfl; cases hop) (by rintro b rfl; cases hop)
      (by rintro rfl; cases hop) (fun p _ => by
        rcases hl with hl | hl
        · exact .inl hl
        · exact .inr (hl ▸ hp))
    rw [hp] at e0; injection e0 with e0; subst e0
    have hl1 : s1.deleted ≠ none ∨ p1 = [] := by
      rcases hl with hl | hl
      · exact .inl (e3 hl)
      · cases hd1 : s1.deleted with
        | some _ => exact .inl (by simp)
        | none =>
          right
          -- the call did not touch the deletions
          have hne : ∀ p, op ≠ .setDeleted p := by
            rintro p rfl; simp [step, HeadBag.setDeleted] at h1; subst h1; cases hd1
          apply List.eq_nil_iff_forall_not_mem.2
          intro q hq
          rw [e2 q, hl] at hq
          cases op <;> simp_all [deletedEffect]
    obtain ⟨ps', g1, g2⟩ := ih (step_inv hi h1) h2 (fun op hm => ho op (by simp [hm])) e1 hl1
    refine ⟨ps', g1, fun q => ?_⟩
    rw [g2, List.foldl_cons]
    have : (fun x => x ∈ p1) = deletedEffect (fun x => x ∈ ps) op := funext fun q => propext (e2 q)
    rw [this]

/-- C15 (partial): once `deleted_paths` has been asked for, the reported deletions
follow the calls.  Missing: histories that do not ask first, where the property
fails (`C15_negation`). -/
theorem C15_deleted_history_partial (tree : Tree) (info : Info) (ops : List Op) (s : HeadBag)
    (o : Opened tree info) (h : runOk (.deletedPaths :: ops) (HeadBag.open tree info) = some s)
    (ho : ∀ op ∈ ops, plainForDeleted op = true)
    (saved : List Str) (hs : ((HeadBag.open tree info).deletedPaths).1 = .ok saved) :
    ∃ ps, (s.deletedPaths).1 = .ok ps ∧ ∀ q, q ∈ ps ↔ ops.foldl deletedEffect (· ∈ saved) q := by
  have hi := inv_open o
  obtain ⟨s1, h1, h2⟩ := runOk_cons h
  have hd := deletedPaths_spec (HeadBag.open tree info)
  rw [hd.1] at hs
  obtain ⟨a, ha⟩ := void_ok h1
  rw [ha] at hd
  simp only at hd
  have hc : s1.deleted ≠ none := by
    unfold HeadBag.deletedPaths at ha
    simp only [HeadBag.open, Option.isNone_none, Bool.or_true, if_true] at ha
    split at ha
    · injection ha with _ ha; rw [← ha]; simp
    · injection ha with ha; cases ha
  obtain ⟨ps, g1, g2⟩ := run_deleted (step_inv hi h1) h2 ho (hd.2.1.trans hs) (.inl hc)
  exact ⟨ps, by rw [(deletedPaths_spec _).1, g1], g2⟩

/-- A history of the sample bag. -/
example : ∃ s ps, runOk [.deletedPaths, .setDeleted py!"data/x", .unsetDeleted py!"data/old"]
      (HeadBag.open Sample.tree Sample.info) = some s ∧ (s.deletedPaths).1 = .ok ps ∧
    py!"data/x" ∈ ps ∧ py!"data/old" ∉ ps := by
  obtain ⟨s, hs⟩ := Option.isSome_iff_exists.1 (show (runOk [.deletedPaths, .setDeleted py!"data/x", .unsetDeleted py!"data/old"]
    (HeadBag.open Sample.tree Sample.info)).isSome = true by decide)
  obtain ⟨ps, h1, h2⟩ := C15_deleted_history_partial Sample.tree Sample.info _ s Sample.opened hs (by decide) [py!"data/old"]
    (by decide)
  refine ⟨s, ps, hs, h1, (h2 _).2 ?_, fun h => ?_⟩
  · simp [deletedEffect]
  · have := (h2 _).1 h
    simp [deletedEffect] at this

/-- C15 (partial): the same without asking first, if nothing was saved as deleted.
Missing: saved deletions (`C15_negation_saved`). -/
theorem C15_nothing_saved_partial (tree : Tree) (info : Info) (ops : List Op) (s : HeadBag)
    (o : Opened tree info) (h : runOk ops (HeadBag.open tree info) = some s)
    (ho : ∀ op ∈ ops, plainForDeleted op = true)
    (hs : ((HeadBag.open tree info).deletedPaths).1 = .ok []) :
    ∃ ps, (s.deletedPaths).1 = .ok ps ∧ ∀ q, q ∈ ps ↔ ops.foldl deletedEffect (fun _ => False) q := by
  have hi := inv_open o
  rw [(deletedPaths_spec _).1] at hs
  obtain ⟨ps, g1, g2⟩ := run_deleted hi h ho hs (.inr rfl)
  refine ⟨ps, by rw [(deletedPaths_spec _).1, g1], fun q => ?_⟩
  rw [g2]
  simp

example : ∃ s, runOk [.deletedPaths, .setDeleted py!"data/new"] (HeadBag.open Sample.tree Sample.info) = some s ∧
    (s.deletedPaths).1 = .ok [py!"data/old", py!"data/new"] := ⟨_, rfl, by decide⟩

/-! ## C16 -/

theorem open_members_eq {s : HeadBag} (hi : InfoOk s.info) {ms : List MemberInfo} {text : Str}
    (ht : s.tree.read (tagFile (tagDir s.info) py!"member-bags.tsv") = some text)
    (hm : membersText ms = .ok text) (hc : ∀ m ∈ ms, CleanMember m)
    (hb : ∀ m ∈ ms.head?, m.name.head? ≠ some bom) :
    membersView (HeadBag.open s.tree s.info) = .ok ms := by
  obtain ⟨t, h1, h2⟩ := C06_members_roundtrip .codecs ms hc hb
  rw [hm] at h1; injection h1 with h1; subst h1
  simp [membersView, HeadBag.open, iterMembers_03 hi, ht, h2]

theorem open_lookup_eq {s : HeadBag} (hi : InfoOk s.info) {d : List (Str × Str)}
    (ht : s.tree.read (tagFile (tagDir s.info) py!"file-lookup.tsv") = some (lookupText d))
    (hn : (dkeys d).Nodup)
    (hc : ∀ p ∈ d, Clean p.1 ∧ Clean p.2) (hb : ∀ p ∈ d.head?, p.1.head? ≠ some bom) :
    lookupView (HeadBag.open s.tree s.info) = .ok d := by
  have h2 := C07_lookup_roundtrip .codecs d hc hb
  simp [lookupView, HeadBag.open, iterLookup_03 hi, ht, h2, dofPairs_of_nodup hn]

theorem open_deleted_eq {s : HeadBag} {ps : List Str}
    (ht : s.tree.read (deletedFile s.info) = some (deletedText ps)) (hn : ps.Nodup)
    (hc : ∀ p ∈ ps, Clean p) (hb : ∀ p ∈ ps.head?, p.head? ≠ some bom) :
    deletedView (HeadBag.open s.tree s.info) = .ok ps := by
  have h2 := C08_deleted_roundtrip .codecs ps hc hb
  have h3 : dget s.tree (deletedFile s.info) = some (.file (deletedText ps)) := by
    rw [read_eq] at ht
    split at ht
    · rename_i c hc; injection ht with ht; rw [hc, ht]
    · cases ht
  simp [deletedView, HeadBag.open, iterDeleted, h3, h2, pySet_of_nodup hn]

/-- The saving calls, each with an admissible order of the deleted set. -/
def IsSave : Op → Prop
  | .saveMembers => True
  | .saveLookup => True
  | .saveDeleted e => ∀ l, (e l).Perm l
  | _ => False

/-- Reports agree between an object and a freshly opened one. -/
structure Durable (s : HeadBag) (wm wl wd : Prop) : Prop where
  m : wm → membersView (HeadBag.open s.tree s.info) = membersView s
  l : wl → lookupView (HeadBag.open s.tree s.info) = lookupView s
  d : wd → ∃ ps ps', deletedView (HeadBag.open s.tree s.info) = .ok ps ∧ deletedView s = .ok ps' ∧
    ps.Perm ps'

/-- Contents that survive being written to the tag files. -/
structure PlainState (s : HeadBag) : Prop where
  members : ∀ ms, membersView s = .ok ms → ∀ m ∈ ms, CleanMember m ∧ m.name.head? ≠ some bom
  lookup : ∀ d, lookupView s = .ok d → ∀ p ∈ d, Plain p.1 ∧ Clean p.2
  deleted : ∀ ps, deletedView s = .ok ps → ∀ p ∈ ps, Plain p

theorem mem_of_mem_head? {α : Type} {l : List α} {a : α} (h : a ∈ l.head?) : a ∈ l :=
  List.mem_of_mem_head? h

theorem view_open_none {s : HeadBag} :
    (s.members = none → membersView (HeadBag.open s.tree s.info) = membersView s) ∧
    (s.lookup = none → lookupView (HeadBag.open s.tree s.info) = lookupView s) ∧
    (s.deleted = none → deletedView (HeadBag.open s.tree s.info) = deletedView s) := by
  refine ⟨fun h => ?_, fun h => ?_, fun h => ?_⟩
  · simp [membersView, HeadBag.open, h]
  · simp [lookupView, HeadBag.open, h]
  · simp [deletedView, HeadBag.open, h]

theorem save_durable {s s' : HeadBag} {op : Op} {wm wl wd : Prop} (hi : Inv s) (hp : PlainState s)
    (hd : Durable s wm wl wd) (hs : IsSave op) (h : step s op = (.ok (), s')) :
    Durable s' (wm ∨ op = .saveMembers) (wl ∨ op = .saveLookup) (wd ∨ ∃ e, op = .saveDeleted e) ∧
    membersView s' = membersView s ∧ lookupView s' = lookupView s ∧ deletedView s' = deletedView s := by
  have hi' := step_inv hi h
  cases op with
  | saveMembers =>
    have hv := saveMembers_views hi.info h
    refine ⟨?_, hv.1, hv.2.1, hv.2.2.1⟩
    rcases saveMembers_ok h with ⟨hm, rfl⟩ | ⟨ms, text, t, hm, ht, rfl, hsv⟩
    · exact ⟨fun _ => view_open_none.1 hm, fun w => hd.l (by simpa using w), fun w => hd.d (by simpa using w)⟩
    · have hvm : membersView s = .ok ms := by simp [membersView, hm]
      refine ⟨fun _ => ?_, fun w => ?_, fun w => ?_⟩
      · rw [hv.1, hvm]
        exact open_members_eq (s := { s with tree := t }) hi.info hsv.content ht
          (fun m hm => (hp.members ms hvm m hm).1)
          (fun m hm => (hp.members ms hvm m (mem_of_mem_head? hm)).2)
      · rw [hv.2.1, ← hd.l (by simpa using w)]
        exact lookupView_congr (s := HeadBag.open s.tree s.info) (s' := HeadBag.open t s.info) hi.info rfl rfl
          (fun _ => savedTo_read comps_members comps_lookup ne1 hsv)
      · rw [hv.2.2.1]
        obtain ⟨ps, ps', a, b, c⟩ := hd.d (by simpa using w)
        refine ⟨ps, ps', ?_, b, c⟩
        rw [← a]
        exact deletedView_congr (s := HeadBag.open s.tree s.info) (s' := HeadBag.open t s.info) rfl rfl
          (fun _ => savedTo_dget comps_members comps_deleted ne2 hsv)
  | saveLookup =>
    have hv := saveLookup_views hi.info h
    refine ⟨?_, hv.1, hv.2.1, hv.2.2.1⟩
    rcases saveLookup_ok h with ⟨hm, rfl⟩ | ⟨d, t, hm, rfl, hsv⟩
    · exact ⟨fun w => hd.m (by simpa using w), fun _ => view_open_none.2.1 hm, fun w => hd.d (by simpa using w)⟩
    · have hvm : lookupView s = .ok d := by simp [lookupView, hm]
      refine ⟨fun w => ?_, fun _ => ?_, fun w => ?_⟩
      · rw [hv.1, ← hd.m (by simpa using w)]
        exact membersView_congr (s := HeadBag.open s.tree s.info) (s' := HeadBag.open t s.info) hi.info rfl rfl
          (fun _ => savedTo_read comps_lookup comps_members ne1.symm hsv)
      · rw [hv.2.1, hvm]
        obtain ⟨d', hd', ht⟩ := hi.lookup
        rw [hvm] at hd'; injection hd' with hd'; subst hd'
        exact open_lookup_eq (s := { s with tree := t }) hi.info hsv.content ht.nodup
          (fun p hpd => ⟨(hp.lookup d hvm p hpd).1.clean, (hp.lookup d hvm p hpd).2⟩)
          (fun p hpd => (hp.lookup d hvm p (mem_of_mem_head? hpd)).1.nobom)
      · rw [hv.2.2.1]
        obtain ⟨ps, ps', a, b, c⟩ := hd.d (by simpa using w)
        refine ⟨ps, ps', ?_, b, c⟩
        rw [← a]
        exact deletedView_congr (s := HeadBag.open s.tree s.info) (s' := HeadBag.open t s.info) rfl rfl
          (fun _ => savedTo_dget comps_lookup comps_deleted ne3 hsv)
  | saveDeleted e =>
    have hv := saveDeleted_views hi.info h
    refine ⟨?_, hv.1, hv.2.1, hv.2.2.1⟩
    rcases saveDeleted_ok h with ⟨hm, rfl⟩ | ⟨ps, t, hm, rfl, hsv⟩
    · refine ⟨fun w => hd.m (by simpa using w), fun w => hd.l (by simpa using w), fun _ => ?_⟩
      obtain ⟨ps, hps, _⟩ := hi.deleted
      exact ⟨ps, ps, by rw [view_open_none.2.2 hm, hps], hps, List.Perm.refl _⟩
    · have hvm : deletedView s = .ok ps := by simp [deletedView, hm]
      refine ⟨fun w => ?_, fun w => ?_, fun _ => ?_⟩
      · rw [hv.1, ← hd.m (by simpa using w)]
        exact membersView_congr (s := HeadBag.open s.tree s.info) (s' := HeadBag.open t s.info) hi.info rfl rfl
          (fun _ => savedTo_read comps_deleted comps_members ne2.symm hsv)
      · rw [hv.2.1, ← hd.l (by simpa using w)]
        exact lookupView_congr (s := HeadBag.open s.tree s.info) (s' := HeadBag.open t s.info) hi.info rfl rfl
          (fun _ => savedTo_read comps_deleted comps_lookup ne3.symm hsv)
      · rw [hv.2.2.1]
        obtain ⟨ps0, hps0, hn⟩ := hi.deleted
        rw [hvm] at hps0; injection hps0 with hps0; subst hps0
        have hperm : (e ps).Perm ps := hs ps
        have hpl : ∀ p ∈ e ps, Plain p := fun p hpp => hp.deleted ps hvm p (hperm.mem_iff.1 hpp)
        refine ⟨e ps, ps, ?_, hvm, hperm⟩
        exact open_deleted_eq (s := { s with tree := t }) hsv.content (hperm.nodup_iff.2 hn)
          (fun p hpp => (hpl p hpp).clean) (fun p hpp => (hpl p (mem_of_mem_head? hpp)).nobom)
  | _ => exact absurd hs id

theorem saves_durable {saves : List Op} {s s' : HeadBag} {wm wl wd : Prop} (hi : Inv s) (hp : PlainState s)
    (hd : Durable s wm wl wd) (hs : ∀ op ∈ saves, IsSave op) (h : runOk saves s = some s') :
    Durable s' (wm ∨ .saveMembers ∈ saves) (wl ∨ .saveLookup ∈ saves) (wd ∨ ∃ e, .saveDeleted e ∈ saves) ∧
    membersView s' = membersView s ∧ lookupView s' = lookupView s ∧ deletedView s' = deletedView s := by
  induction saves generalizing s wm wl wd with
  | nil => simp [runOk] at h; subst h; simpa using hd
  | cons op ops ih =>
    obtain ⟨s1, h1, h2⟩ := runOk_cons h
    obtain ⟨hd1, v1, v2, v3⟩ := save_durable hi hp hd (hs op (by simp)) h1
    have hp1 : PlainState s1 := ⟨v1 ▸ hp.members, v2 ▸ hp.lookup, v3 ▸ hp.deleted⟩
    obtain ⟨g, w1, w2, w3⟩ := ih (step_inv hi h1) hp1 hd1 (fun o ho => hs o (by simp [ho])) h2
    refine ⟨⟨fun w => g.m ?_, fun w => g.l ?_, fun w => g.d ?_⟩, w1.trans v1, w2.trans v2, w3.trans v3⟩
    · rcases w with w | w
      · exact .inl (.inl w)
      · rcases List.mem_cons.1 w with w | w
        · exact .inl (.inr w.symm)
        · exact .inr w
    · rcases w with w | w
      · exact .inl (.inl w)
      · rcases List.mem_cons.1 w with w | w
        · exact .inl (.inr w.symm)
        · exact .inr w
    · rcases w with w | ⟨e, w⟩
      · exact .inl (.inl w)
      · rcases List.mem_cons.1 w with w | w
        · exact .inl (.inr ⟨e, w.symm⟩)
        · exact .inr ⟨e, w⟩

/-- C16: after any history of calls and then the three saves (in any order, with
any iteration order of the deleted set), a bag opened anew reports the same members,
the same lookup of every path, the same files of every member in the same order, and
the same deletions — provided the reported names can be written to tag files. -/
theorem C16_saved_state_is_durable (tree : Tree) (info : Info) (ops saves : List Op) (s s' : HeadBag)
    (o : Opened tree info) (h : runOk ops (HeadBag.open tree info) = some s)
    (hsv : ∀ op ∈ saves, IsSave op)
    (hsm : Op.saveMembers ∈ saves) (hsl : Op.saveLookup ∈ saves) (hsd : ∃ e, Op.saveDeleted e ∈ saves)
    (h' : runOk saves s = some s')
    (hm : ∀ ms, (s.memberBags).1 = .ok ms → ∀ m ∈ ms, CleanMember m ∧ m.name.head? ≠ some bom)
    (hl : ∀ p b, (s.lookupFile p).1 = .ok (some b) → Plain p ∧ Clean b)
    (hd : ∀ ps, (s.deletedPaths).1 = .ok ps → ∀ p ∈ ps, Plain p) :
    let new := HeadBag.open s'.tree s'.info
    (new.memberBags).1 = (s.memberBags).1 ∧
    (∀ p, (new.lookupFile p).1 = (s.lookupFile p).1) ∧
    (∀ b, (new.filesInMember b).1 = (s.filesInMember b).1) ∧
    ∃ ps ps', (new.deletedPaths).1 = .ok ps ∧ (s.deletedPaths).1 = .ok ps' ∧ ps.Perm ps' := by
  intro new
  have hi := inv_reached o h
  have hp : PlainState s := by
    refine ⟨fun ms hms => hm ms (by rw [memberBags_fst, hms]), fun d hdd p hpd => ?_, fun ps hps => hd ps (by
      rw [(deletedPaths_spec _).1, hps])⟩
    obtain ⟨d', hd', ht⟩ := hi.lookup
    rw [hdd] at hd'; injection hd' with hd'; subst hd'
    apply hl p.1 p.2
    rw [(lookupFile_spec _ _).1, hdd]
    simp only [Except.map]
    rw [(dget_iff_mem ht.nodup).2 hpd]
  obtain ⟨g, w1, w2, w3⟩ := saves_durable (wm := False) (wl := False) (wd := False) hi hp
    ⟨False.elim, False.elim, False.elim⟩ hsv h'
  have gm := g.m (.inr hsm)
  have gl := g.l (.inr hsl)
  obtain ⟨ps, ps', a, b, c⟩ := g.d (.inr hsd)
  refine ⟨?_, fun p => ?_, fun b => ?_, ps, ps', ?_, ?_, c⟩
  · rw [memberBags_fst, memberBags_fst, gm, w1]
  · rw [(lookupFile_spec _ _).1, (lookupFile_spec _ _).1, gl, w2]
  · rw [(filesInMember_spec _ _).1, (filesInMember_spec _ _).1, gl, w2]
  · rw [(deletedPaths_spec _).1, a]
  · rw [(deletedPaths_spec _).1, ← w3, b]

namespace Sample

theorem some_getD {α : Type} {o : Option α} {d : α} (h : o.isSome = true) : o = some (o.getD d) := by
  cases o with
  | none => cases h
  | some x => rfl

/-- Some updates. -/
def edits : List Op := [.addLookup py!"data/z" py!"b3", .deletedPaths, .setDeleted py!"data/x"]

/-- The sample bag after these. -/
def edited : HeadBag := (runOk edits (HeadBag.open tree info)).getD (HeadBag.open tree info)

/-- The same after all is saved. -/
def saved : HeadBag := (runOk [.saveMembers, .saveLookup, .saveDeleted id] edited).getD edited

end Sample

/-- The sample bag after an update, saved and opened again. -/
example : runOk Sample.edits (HeadBag.open Sample.tree Sample.info) = some Sample.edited ∧
    ((HeadBag.open Sample.saved.tree Sample.saved.info).lookupFile py!"data/z").1 = .ok (some py!"b3") := by
  have hr : runOk Sample.edits (HeadBag.open Sample.tree Sample.info) = some Sample.edited := Sample.some_getD (by decide)
  have key := C16_saved_state_is_durable Sample.tree Sample.info _ [.saveMembers, .saveLookup, .saveDeleted id]
    Sample.edited Sample.saved Sample.opened hr ?_ (by simp) (by simp) ⟨id, by simp⟩ (Sample.some_getD (by decide)) ?_ ?_ ?_
  · exact ⟨hr, (key.2.1 _).trans (by decide)⟩
  · intro op hop
    simp only [List.mem_cons, List.not_mem_nil, or_false] at hop
    rcases hop with rfl | rfl | rfl
    · trivial
    · trivial
    · exact fun _ => .refl _
  · intro ms hms m hm
    have e : (Sample.edited.memberBags).1 = .ok [⟨py!"b1", some py!"ark:/1", none, []⟩, ⟨py!"b2", none, none, []⟩] := by decide
    rw [e] at hms
    cases hms
    simp only [List.mem_cons, List.not_mem_nil, or_false] at hm
    rcases hm with rfl | rfl
    · exact ⟨⟨clean_of_check (by decide), fun u h => by injection h with h; subst h; exact clean_of_check (by decide),
        (fun u h => by cases h), by simp, rfl⟩, by decide⟩
    · exact ⟨⟨clean_of_check (by decide), (fun u h => by cases h), (fun u h => by cases h), by simp, rfl⟩, by decide⟩
  · intro p b hpb
    have e : lookupView Sample.edited = .ok [(py!"data/x", py!"b2"), (py!"data/y", py!"b2"), (py!"data/z", py!"b3")] := by decide
    rw [(lookupFile_spec _ _).1, e] at hpb
    have hm := mem_of_dget (Except.ok.inj hpb)
    simp only [List.mem_cons, Prod.mk.injEq, List.not_mem_nil, or_false] at hm
    rcases hm with ⟨rfl, rfl⟩ | ⟨rfl, rfl⟩ | ⟨rfl, rfl⟩ <;>
      exact ⟨⟨clean_of_check (by decide), by decide⟩, clean_of_check (by decide)⟩
  · intro ps hps p hp
    have e : (Sample.edited.deletedPaths).1 = .ok [py!"data/old", py!"data/x"] := by decide
    rw [e] at hps
    cases hps
    simp only [List.mem_cons, List.not_mem_nil, or_false] at hp
    rcases hp with rfl | rfl <;> exact ⟨clean_of_check (by decide), by decide⟩

/-! ## C17 -/

/-- C17: no sequence of calls other than the saves and `clear_file_lookup`, whether
they succeed or fail, changes anything in the bag directory. -/
theorem C17_updates_leave_disk (s : HeadBag) (ops : List Op) (h : ∀ op ∈ ops, writesDisk op = false) :
    (runAll ops s).tree = s.tree := by
  induction ops generalizing s with
  | nil => rfl
  | cons op ops ih =>
    simp only [runAll, List.foldl_cons]
    have := ih (step s op).2 (fun o ho => h o (by simp [ho]))
    simp only [runAll] at this
    rw [this, step_tree s op (h op (by simp))]

example : (runAll [.addLookup py!"data/z" py!"b3", .removeMember py!"b1", .setDeleted py!"data/x"]
    (HeadBag.open Sample.tree Sample.info)).tree = Sample.tree :=
  C17_updates_leave_disk _ _ (by decide)

/-- The one file a call may write, relative to the tag directory. -/
def Spec.ownFile : Op → Option Str
  | .saveMembers => some py!"member-bags.tsv"
  | .saveLookup => some py!"file-lookup.tsv"
  | .clearLookup => some py!"file-lookup.tsv"
  | .saveDeleted _ => some py!"deleted.txt"
  | _ => none

/-- C17: each saving call, successful or not, changes at most its own file in the tag
directory; the tag directory itself may be created. -/
theorem C17_save_frame (s : HeadBag) (op : Op) (name : Str) (h : Spec.ownFile op = some name) :
    (∀ p, p ≠ comps (tagDir s.info) ++ [name] → p ≠ comps (tagDir s.info) →
      dget (step s op).2.tree p = dget s.tree p) ∧
    (dget (step s op).2.tree (comps (tagDir s.info)) = dget s.tree (comps (tagDir s.info)) ∨
      (dget s.tree (comps (tagDir s.info)) = none ∧
        dget (step s op).2.tree (comps (tagDir s.info)) = some .dir)) := by
  have key : OnlyFile s.tree (step s op).2.tree (comps (tagDir s.info)) (comps (tagDir s.info) ++ [name]) := by
    cases op with
    | saveMembers =>
      injection h with h; subst h
      rw [← tagFile_eq _ comps_members]; exact saveMembers_only s
    | saveLookup =>
      injection h with h; subst h
      rw [← tagFile_eq _ comps_lookup]; exact saveLookup_only s
    | saveDeleted e =>
      injection h with h; subst h
      rw [← tagFile_eq _ comps_deleted]; exact saveDeleted_only s e
    | clearLookup =>
      injection h with h; subst h
      rw [← tagFile_eq _ comps_lookup]; exact clearLookup_only s
    | _ => cases h
  exact ⟨key.frame, key.dir⟩

example : dget (step (HeadBag.open Sample.tree Sample.info) .saveMembers).2.tree [py!"multibag", py!"deleted.txt"] =
    some (.file py!"data/old\n") :=
  (C17_save_frame (HeadBag.open Sample.tree Sample.info) .saveMembers py!"member-bags.tsv" rfl).1 _ (by decide) (by decide)

/-! ## C21 -/

/-- C21 is false of the code: if the tag directory is given twice, what is saved
goes to the last one named and reading it back raises `TypeError`. -/
theorem C21_negation_repeated :
    ∃ tree info s, dget info py!"Multibag-Tag-Directory" = some (.many [py!"mb1", py!"mb2"]) ∧
      runOk [.setMembers [⟨py!"b", none, none, []⟩], .saveMembers] (HeadBag.open tree info) = some s ∧
      s.tree.read [py!"mb2", py!"member-bags.tsv"] = some py!"b\n" ∧
      ((HeadBag.open s.tree s.info).memberBags).1 = .error .typeError :=
  ⟨[], [(py!"Multibag-Tag-Directory", .many [py!"mb1", py!"mb2"])], _, rfl, rfl, by decide, by decide⟩

/-- C21, second refutation: in a bag of profile 0.2 a saved member list is not seen. -/
theorem C21_negation_old_profile :
    ∃ tree info s, dget info py!"Multibag-Version" = some (.one py!"0.2") ∧
      runOk [.setMembers [⟨py!"b", none, none, []⟩], .saveMembers] (HeadBag.open tree info) = some s ∧
      ((HeadBag.open s.tree s.info).memberBags).1 = .ok [] :=
  ⟨[], [(py!"Multibag-Version", .one py!"0.2")], _, rfl, rfl, by decide⟩

/-- C21 (partial): with the tag directory absent or given once, and profile 0.3 or
later, what is saved is what is read back, whatever was on disk before.  Missing: a
repeated tag directory and older profiles, where the property fails. -/
theorem C21_read_back_partial (tree : Tree) (info : Info) (s : HeadBag) (ms : List MemberInfo)
    (ht : ∀ l, dget info py!"Multibag-Tag-Directory" ≠ some (.many l))
    (hv : verLt (profileVersion info) py!"0.3" = false)
    (hc : ∀ m ∈ ms, CleanMember m) (hb : ∀ m ∈ ms.head?, m.name.head? ≠ some bom)
    (h : runOk [.setMembers ms, .saveMembers] (HeadBag.open tree info) = some s) :
    ((HeadBag.open s.tree s.info).memberBags).1 = .ok ms := by
  have hi := infoOk_of_tag ht hv
  obtain ⟨s1, h1, h2⟩ := runOk_cons h
  obtain ⟨s2, h3, h4⟩ := runOk_cons h2
  simp [runOk] at h4
  subst h4
  simp [step, HeadBag.setMemberBags] at h1
  subst h1
  simp only [step] at h3
  rcases saveMembers_ok h3 with ⟨hm, rfl⟩ | ⟨ms', text, t, hm, htx, rfl, hsv⟩
  · cases hm
  · injection hm with hm; subst hm
    rw [memberBags_fst]
    exact open_members_eq (s := { HeadBag.open tree info with tree := t, members := some ms })
      hi hsv.content htx hc hb

example : ∃ s, runOk [.setMembers [⟨py!"b1", none, none, []⟩], .saveMembers] (HeadBag.open Sample.tree Sample.info) = some s ∧
    ((HeadBag.open s.tree s.info).memberBags).1 = .ok [⟨py!"b1", none, none, []⟩] := by
  obtain ⟨s, hs⟩ := Option.isSome_iff_exists.1 (show (runOk [.setMembers [⟨py!"b1", none, none, []⟩], .saveMembers]
    (HeadBag.open Sample.tree Sample.info)).isSome = true by decide)
  refine ⟨s, hs, C21_read_back_partial _ _ s _ Sample.opened.tag Sample.opened.ver ?_ (by decide) hs⟩
  intro m hm
  rw [List.mem_singleton] at hm
  subst hm
  exact ⟨clean_of_check (by decide), (fun u h => by cases h), (fun u h => by cases h), by simp, rfl⟩

/-- C21: deletions are read from where they are written, for all metadata. -/
theorem C21_deleted (tree : Tree) (info : Info) (s : HeadBag) (p : Str) (hp : Plain p)
    (h : runOk [.setDeleted p, .saveDeleted id] (HeadBag.open tree info) = some s) :
    ((HeadBag.open s.tree s.info).deletedPaths).1 = .ok [p] := by
  obtain ⟨s1, h1, h2⟩ := runOk_cons h
  obtain ⟨s2, h3, h4⟩ := runOk_cons h2
  simp [runOk] at h4
  subst h4
  simp [step, HeadBag.setDeleted, HeadBag.open] at h1
  subst h1
  simp only [step] at h3
  rcases saveDeleted_ok h3 with ⟨hm, rfl⟩ | ⟨ps, t, hm, rfl, hsv⟩
  · cases hm
  · injection hm with hm; subst hm
    rw [(deletedPaths_spec _).1]
    exact open_deleted_eq (s := { tree := t, info := info, deleted := some [p] }) hsv.content (by simp)
      (by simpa using hp.clean) (by simpa using hp.nobom)

example : ∃ s, runOk [.setDeleted py!"data/x", .saveDeleted id] (HeadBag.open Sample.tree Sample.info) = some s ∧
    ((HeadBag.open s.tree s.info).deletedPaths).1 = .ok [py!"data/x"] := by
  obtain ⟨s, hs⟩ := Option.isSome_iff_exists.1 (show (runOk [.setDeleted py!"data/x", .saveDeleted id]
    (HeadBag.open Sample.tree Sample.info)).isSome = true by decide)
  exact ⟨s, hs, C21_deleted _ _ s _ ⟨clean_of_check (by decide), by decide⟩ hs⟩

/-! ## C23 -/

/-- C23: `files_in_member` lists each path looked up to the bag exactly once; the
order is that of one listing of all paths, the same for all bags. -/
theorem C23_files_in_member (tree : Tree) (info : Info) (ops : List Op) (s : HeadBag) (o : Opened tree info)
    (h : runOk ops (HeadBag.open tree info) = some s) :
    ∃ paths : List Str, paths.Nodup ∧ ∀ b, ∃ fs, (s.filesInMember b).1 = .ok fs ∧ fs.Sublist paths ∧
      ∀ p, p ∈ fs ↔ (s.lookupFile p).1 = .ok (some b) := by
  obtain ⟨d, hd, ht⟩ := (inv_reached o h).lookup
  refine ⟨dkeys d, ht.nodup, fun b => ⟨(d.filter (fun p => p.2 = b)).map Prod.fst, ?_, ?_, fun p => ?_⟩⟩
  · rw [(filesInMember_spec _ _).1, hd]; rfl
  · exact List.Sublist.map _ List.filter_sublist
  · rw [(lookupFile_spec _ _).1, hd]
    simp only [Except.map, Except.ok.injEq, dget_iff_mem ht.nodup]
    simp

theorem dset_new {d : List (Str × Str)} {p b : Str} (h : dget d p = none) : dset d p b = d ++ [(p, b)] := by
  induction d with
  | nil => rfl
  | cons x d ih =>
    obtain ⟨k, v⟩ := x
    unfold dget at h
    split at h
    · cases h
    · rename_i hk
      simp [dset, hk, ih h]

theorem filter_dset_other {d : List (Str × Str)} {p b b' : Str} (hb : b' ≠ b) (hn : (dkeys d).Nodup) :
    ((dset d p b').filter (fun x => decide (x.2 = b))).map Prod.fst =
      ((d.filter (fun x => decide (x.2 = b))).map Prod.fst).filter (fun q => decide (q ≠ p)) := by
  induction d with
  | nil => simp [dset, hb]
  | cons x d ih =>
    obtain ⟨k, v⟩ := x
    have hn' : k ∉ dkeys d ∧ (dkeys d).Nodup := by
      unfold dkeys at hn ⊢
      rw [List.map_cons, List.nodup_cons] at hn
      exact hn
    by_cases hk : k = p
    · subst hk
      have hrest : ((d.filter (fun x => decide (x.2 = b))).map Prod.fst).filter (fun q => decide (q ≠ k)) =
          (d.filter (fun x => decide (x.2 = b))).map Prod.fst := by
        rw [List.filter_eq_self]
        intro q hq
        obtain ⟨y, hy, rfl⟩ := List.mem_map.1 hq
        have hm : y.1 ∈ dkeys d := List.mem_map.2 ⟨y, (List.mem_filter.1 hy).1, rfl⟩
        simp only [ne_eq, decide_not, Bool.not_eq_eq_eq_not, Bool.not_true, decide_eq_false_iff_not]
        intro e
        exact hn'.1 (e ▸ hm)
      rw [dset, if_pos rfl, List.filter_cons, if_neg (by simpa using hb)]
      by_cases hv : v = b
      · rw [List.filter_cons, if_pos (by simpa using hv), List.map_cons, List.filter_cons, if_neg (by simp), hrest]
      · rw [List.filter_cons, if_neg (by simpa using hv), hrest]
    · rw [dset, if_neg hk]
      by_cases hv : v = b
      · rw [List.filter_cons, if_pos (by simpa using hv), List.filter_cons, if_pos (by simpa using hv), List.map_cons,
          List.map_cons, List.filter_cons, if_pos (by simpa using hk), ih hn'.2]
      · rw [List.filter_cons, if_neg (by simpa using hv), List.filter_cons, if_neg (by simpa using hv), ih hn'.2]

theorem firstNamed_eq (rs : List (Str × Str)) : firstNamed rs = dkeys (dofPairs rs) := by
  unfold dofPairs
  suffices h : ∀ d : List (Str × Str), dkeys d ++ (firstNamed rs).filter (fun p => decide (p ∉ dkeys d)) =
      dkeys (rs.foldl (fun d p => dset d p.1 p.2) d) by
    have := h []
    rw [show dkeys ([] : List (Str × Str)) = [] from rfl, List.nil_append] at this
    rw [← this, List.filter_eq_self.2 (by simp)]
  induction rs with
  | nil => intro d; simp [firstNamed]
  | cons r rs ih =>
    intro d
    rw [List.foldl_cons, ← ih, dkeys_dset]
    simp only [firstNamed, List.filter_cons, List.filter_filter]
    by_cases hm : r.1 ∈ dkeys d
    · simp only [hm, not_true, decide_false, Bool.false_eq_true, if_false, if_true]
      congr 1
      refine List.filter_congr (fun x _ => ?_)
      by_cases hx : x = r.1
      · subst hx; simp [hm]
      · simp [hx]
    · simp only [hm, not_false_eq_true, decide_true, if_true, if_false, List.append_assoc, List.singleton_append]
      congr 2
      refine List.filter_congr (fun x _ => ?_)
      by_cases hx : x = r.1 <;> simp [hx]

/-- **C23** The order is that of the lookup file: as the lines first name them. -/
theorem C23_order_opened (tree : Tree) (info : Info) (text : Str) (rs : List (Str × Str)) (o : Opened tree info)
    (hf : tree.read (comps (tagDir info) ++ [py!"file-lookup.tsv"]) = some text)
    (hr : readLookup03 .codecs text = .ok rs) (b : Str) :
    ((HeadBag.open tree info).filesInMember b).1 =
      .ok ((firstNamed rs).filter (fun p => ((HeadBag.open tree info).lookupFile p).1 = .ok (some b))) := by
  have hi := infoOk_of_tag o.tag o.ver
  have hit : iterLookup .codecs tree info = .ok rs := by
    rw [iterLookup_03 hi, tagFile_eq _ comps_lookup, hf]; exact hr
  have hv : lookupView (HeadBag.open tree info) = .ok (dofPairs rs) := by
    simp [lookupView, HeadBag.open, hit]
  rw [(filesInMember_spec _ b).1, hv]
  simp only [Except.map, Except.ok.injEq]
  have hk : firstNamed rs = dkeys (dofPairs rs) := firstNamed_eq rs
  rw [hk, dkeys, List.filter_map]
  congr 1
  refine List.filter_congr (fun x hx => ?_)
  simp only [Function.comp_apply, (lookupFile_spec _ x.1).1, hv, Except.map, Except.ok.injEq, decide_eq_decide]
  rw [dget_iff_mem (nodup_dofPairs rs)]
  obtain ⟨k, v⟩ := x
  constructor
  · rintro rfl; exact hx
  · intro h
    have h1 := (dget_iff_mem (nodup_dofPairs rs)).2 hx
    have h2 := (dget_iff_mem (nodup_dofPairs rs)).2 h
    rw [h1] at h2
    simpa using h2

/-- **C23** A path that was not looked up comes last when it is added, and the others keep their order; so they do when a
path is removed. -/
theorem C23_order_updates (tree : Tree) (info : Info) (ops : List Op) (s : HeadBag) (o : Opened tree info)
    (h : runOk ops (HeadBag.open tree info) = some s) (b : Str) (fs : List Str) (hb : (s.filesInMember b).1 = .ok fs)
    (p : Str) (hp : p ≠ []) :
    (b ≠ [] → (s.lookupFile p).1 = .ok none → ((s.addFileLookup p b).2.filesInMember b).1 = .ok (fs ++ [p])) ∧
    (∀ b', b' ≠ b → b' ≠ [] → ((s.addFileLookup p b').2.filesInMember b).1 = .ok (fs.filter (fun q => q ≠ p))) ∧
    ((s.removeFileLookup p).2.filesInMember b).1 = .ok (fs.filter (fun q => q ≠ p)) := by
  obtain ⟨d, hd, ht⟩ := (inv_reached o h).lookup
  rw [(filesInMember_spec _ _).1, hd] at hb
  simp only [Except.map, Except.ok.injEq] at hb
  subst hb
  refine ⟨fun hbn hn => ?_, fun b' hb' hbn => ?_, ?_⟩
  · rw [(filesInMember_spec _ _).1, (addFileLookup_spec s p b hp hbn d hd).2.1]
    rw [(lookupFile_spec _ _).1, hd] at hn
    simp only [Except.map, Except.ok.injEq] at hn
    simp only [Except.map, Except.ok.injEq, dset_new hn, List.filter_append, List.map_append]
    simp
  · rw [(filesInMember_spec _ _).1, (addFileLookup_spec s p b' hp hbn d hd).2.1]
    simp only [Except.map, Except.ok.injEq]
    exact filter_dset_other hb' ht.nodup
  · rw [(filesInMember_spec _ _).1, (removeFileLookup_spec s p hp d hd).2.1]
    simp only [Except.map, Except.ok.injEq, ddel, List.filter_filter, List.filter_map]
    congr 1
    refine List.filter_congr (fun x _ => ?_)
    simp [Bool.and_comm]

example : ((HeadBag.open Sample.tree Sample.info).filesInMember py!"b2").1 = .ok [py!"data/x", py!"data/y"] := by
  decide

end Verif
