import Verif.Lemmas.AmendSave
/-!
# Amending an aggregation (C54–C57, C59, C78)
-/

namespace Verif

open Spec

/-! ## A concrete amendment, used to show that hypotheses can be met -/

namespace Sample

/-- The head bag of an aggregation of two bags; `b0` is the head itself. -/
def oldTree : Tree :=
  [([py!"data"], .dir), ([py!"data", py!"a"], .file py!"A"),
   ([py!"multibag"], .dir),
   ([py!"multibag", py!"member-bags.tsv"], .file py!"m1\tark:/1\nb0\n"),
   ([py!"multibag", py!"file-lookup.tsv"], .file py!"data/a\tb0\ndata/b\tm1\ndata/c\tm1\n"),
   ([py!"multibag", py!"deleted.txt"], .file py!"data/gone\n")]

/-- Its metadata. -/
def oldInfo : Info :=
  [(py!"Multibag-Version", .one py!"0.4"), (py!"Multibag-Head-Version", .one py!"1.1"),
   (py!"Multibag-Head-Deprecates", .one py!"1.0")]

/-- The head bag to be amended. -/
def oldHead : Amendee := ⟨py!"b0", oldTree, oldInfo, .codecs, false⟩

/-- An amending bag that replaces `data/b` and repeats `data/a`. -/
def extra : Amending :=
  { name := py!"x1", tree := [([py!"data"], .dir), ([py!"data", py!"a"], .file py!"a2"), ([py!"data", py!"b"], .file py!"b2")],
    uri := some py!"ark:/2" }

/-- The bag that becomes the new head: it replaces `data/a` again and adds `data/d`. -/
def newTree : Tree :=
  [([py!"bagit.txt"], .file py!"BagIt-Version: 0.97\nTag-File-Character-Encoding: UTF-8\n"),
   ([py!"bag-info.txt"], .file py!"Contact: me\n"),
   ([py!"manifest-md5.txt"], .file []),
   ([py!"data"], .dir), ([py!"data", py!"a"], .file py!"a3"), ([py!"data", py!"d"], .file py!"D")]

/-- Its metadata. -/
def newInfo : Info := [(py!"Contact", .one py!"me")]

/-- Its name. -/
def newHead : NewHead := { name := py!"n0" }

/-- Checksums and sizes. -/
def saveEnv : SaveEnv := ⟨[py!"md5"], fun _ _ => py!"d41d8c", fun _ => py!"1 kB"⟩

theorem newOpened : Opened newTree newInfo where
  tag := by intro l; simp [dget, newInfo]
  ver := by decide
  members := ⟨[], by decide⟩
  lookup := ⟨none, by decide⟩
  deleted := ⟨[], by decide⟩

/-- A decidable form of `Clean`. -/
def cleanCheck (s : Str) : Bool := decide (s ≠ [] ∧ '\t' ∉ s ∧ (∀ c ∈ s, isBreak c = false) ∧ strip s = s)

/-- A decidable form of `Plain`. -/
def plainCheck (s : Str) : Bool := cleanCheck s && decide (s.head? ≠ some bom)

/-- A decidable form of `Writable`. -/
def writableCheck (ms : List MemberInfo) : Bool :=
  ms.all (fun m => plainCheck m.name && m.uri.all cleanCheck && m.comment.all cleanCheck &&
    (m.comment.isSome || m.uri.all (fun u => decide (u.head? ≠ some '#'))) && m.info.isEmpty)

theorem plain_of_check {s : Str} (h : plainCheck s = true) : Plain s := by
  unfold plainCheck cleanCheck at h
  rw [Bool.and_eq_true, decide_eq_true_eq, decide_eq_true_eq] at h
  exact ⟨clean_of_check h.1, h.2⟩

theorem writable_of_check {ms : List MemberInfo} (h : writableCheck ms = true) : Writable ms := by
  intro m hm
  have := List.all_eq_true.1 h m hm
  simp only [Bool.and_eq_true, Bool.or_eq_true] at this
  obtain ⟨⟨⟨⟨h1, h2⟩, h3⟩, h4⟩, h5⟩ := this
  have hc : ∀ s, cleanCheck s = true → Clean s := by
    intro s hs
    unfold cleanCheck at hs
    rw [decide_eq_true_eq] at hs
    exact clean_of_check hs
  refine ⟨⟨(plain_of_check h1).clean, ?_, ?_, ?_, by simpa using h5⟩, (plain_of_check h1).nobom⟩
  · intro u hu; rw [hu] at h2; exact hc u h2
  · intro u hu; rw [hu] at h3; exact hc u h3
  · intro u hu hn
    rw [hn, hu] at h4
    simpa using h4

/-- The new head bag after the amendment. -/
def amendedBag : HeadBag :=
  (amend saveEnv false oldHead newHead py!"2.0" [extra] (HeadBag.open newTree newInfo)).2

theorem amend_runs : amend saveEnv false oldHead newHead py!"2.0" [extra] (HeadBag.open newTree newInfo) =
    (.ok (), amendedBag) := by
  have : (amend saveEnv false oldHead newHead py!"2.0" [extra] (HeadBag.open newTree newInfo)).1 = .ok () := by
    decide +kernel
  exact Prod.ext this rfl

end Sample

/-! ## C54: members -/

theorem nodup_keepLast (l : List MemberInfo) : ((keepLast l).map (·.name)).Nodup := by
  induction l with
  | nil => exact List.nodup_nil
  | cons m l ih =>
    unfold keepLast
    split
    · exact ih
    · rename_i h
      rw [List.map_cons, List.nodup_cons]
      refine ⟨?_, ih⟩
      intro hm
      obtain ⟨x, hx, hn⟩ := List.mem_map.1 hm
      exact h (List.mem_map.2 ⟨x, mem_keepLast hx, hn⟩)

theorem names_keepLast (l : List MemberInfo) (n : Str) : n ∈ (keepLast l).map (·.name) ↔ n ∈ l.map (·.name) := by
  induction l with
  | nil => exact Iff.rfl
  | cons m l ih =>
    unfold keepLast
    split
    · rename_i h
      rw [ih, List.map_cons, List.mem_cons]
      constructor
      · exact .inr
      · rintro (rfl | h')
        · exact h
        · exact h'
    · rw [List.map_cons, List.map_cons, List.mem_cons, List.mem_cons, ih]

theorem keepLast_of_nodup {l : List MemberInfo} (h : (l.map (·.name)).Nodup) : keepLast l = l := by
  induction l with
  | nil => rfl
  | cons m l ih =>
    rw [List.map_cons, List.nodup_cons] at h
    unfold keepLast
    rw [if_neg h.1, ih h.2]

theorem keepLast_snoc (l : List MemberInfo) (m : MemberInfo) :
    keepLast (l ++ [m]) = (keepLast l).filter (fun x => x.name ≠ m.name) ++ [m] := by
  rw [← foldl_addOnce_nil, List.foldl_append, foldl_addOnce_nil]
  rfl

/-- C54: after a successful amendment of a head bag, opening the new head bag again gives the old
members, then the amending bags in the order they were added, then the new head bag. -/
theorem C54_members_of_head (E : SaveEnv) (keep : Bool) (old : Amendee) (me : NewHead) (version : Str)
    (bags : List Amending) (tree : Tree) (info : Info) (s' : HeadBag) (o : Opened tree info)
    (hv : keep = true → verLt (profileVersion old.info) py!"0.3" = false)
    (h : amend E keep old me version bags (HeadBag.open tree info) = (.ok (), s'))
    (hh : py!"Multibag-Head-Version" ∈ dkeys old.info) {oms : List MemberInfo}
    (ho : iterMembers old.mode old.tree old.info = .ok oms)
    (hw : Writable (oms ++ bags.map record ++ [headRecord me])) :
    ((HeadBag.open s'.tree s'.info).memberBags).1 = .ok (keepLast (oms ++ bags.map record ++ [headRecord me])) := by
  obtain ⟨oms', oes, u, a⟩ := amended o hv h
  have e := a.oldMembers
  unfold Amendee.members isHeadInfo at e
  rw [if_pos (dmem_iff.2 hh), ho] at e
  injection e with e
  subst e
  rw [memberBags_fst, a.members hw]

/-- C54: the same if the bag that is amended is a traditional bag: it is the only old member. -/
theorem C54_members_of_single (E : SaveEnv) (keep : Bool) (old : Amendee) (me : NewHead) (version : Str)
    (bags : List Amending) (tree : Tree) (info : Info) (s' : HeadBag) (o : Opened tree info)
    (hv : keep = true → verLt (profileVersion old.info) py!"0.3" = false)
    (h : amend E keep old me version bags (HeadBag.open tree info) = (.ok (), s'))
    (hh : py!"Multibag-Head-Version" ∉ dkeys old.info)
    (hw : Writable (⟨old.name, none, none, []⟩ :: bags.map record ++ [headRecord me])) :
    ((HeadBag.open s'.tree s'.info).memberBags).1 =
      .ok (keepLast (⟨old.name, none, none, []⟩ :: bags.map record ++ [headRecord me])) := by
  obtain ⟨oms', oes, u, a⟩ := amended o hv h
  have e := a.oldMembers
  unfold Amendee.members isHeadInfo at e
  rw [if_neg (fun hc => hh (dmem_iff.1 hc))] at e
  injection e with e
  subst e
  rw [memberBags_fst, a.members hw]
  rfl

/-- C54: in that list no bag comes twice, none is missing, the new head bag is last, and if the
bags have different names the list is just the old members, the amending bags and the new head. -/
theorem C54_each_once (oms bags : List MemberInfo) (m : MemberInfo) :
    ((keepLast (oms ++ bags ++ [m])).map (·.name)).Nodup ∧
    (∀ n, n ∈ (keepLast (oms ++ bags ++ [m])).map (·.name) ↔ n ∈ (oms ++ bags ++ [m]).map (·.name)) ∧
    (keepLast (oms ++ bags ++ [m])).getLast? = some m ∧
    (((oms ++ bags ++ [m]).map (·.name)).Nodup → keepLast (oms ++ bags ++ [m]) = oms ++ bags ++ [m]) := by
  refine ⟨nodup_keepLast _, names_keepLast _, ?_, keepLast_of_nodup⟩
  rw [keepLast_snoc]
  simp

example : ((HeadBag.open Sample.amendedBag.tree Sample.amendedBag.info).memberBags).1 =
    .ok [⟨py!"m1", some py!"ark:/1", none, []⟩, ⟨py!"b0", none, none, []⟩,
      ⟨py!"x1", some py!"ark:/2", none, []⟩, ⟨py!"n0", none, none, []⟩] :=
  C54_members_of_head Sample.saveEnv false Sample.oldHead Sample.newHead py!"2.0" [Sample.extra] Sample.newTree
    Sample.newInfo Sample.amendedBag Sample.newOpened (by intro h; cases h) Sample.amend_runs (by decide)
    (oms := [⟨py!"m1", some py!"ark:/1", none, []⟩, ⟨py!"b0", none, none, []⟩]) (by decide +kernel)
    (Sample.writable_of_check (by decide +kernel))

/-! ## C55: lookups -/

theorem mem_amendPayload {t : Tree} (h : WfTree t) (ro : Bool) (q : Str) :
    q ∈ filesFor ro t [py!"data"] (fun _ => false) ↔ Payload t q := by
  have e : ([py!"data"] : List Str) = [[py!"data"]].map joinPath := rfl
  rw [e, mem_filesFor h ro [[py!"data"]] (by
    intro i hi
    rw [List.mem_singleton] at hi
    subst hi
    exact good_data)]
  constructor
  · rintro ⟨i, hi, _, p, hp, rfl, hc⟩
    rw [List.mem_singleton] at hi
    subst hi
    refine ⟨p, hp, ?_, rfl⟩
    rcases hc with rfl | hc
    · exact List.prefix_rfl
    · exact hc.1
  · rintro ⟨p, hp, hpre, rfl⟩
    exact ⟨[py!"data"], List.mem_singleton.2 rfl, rfl, p, hp, rfl, .inr ⟨hpre, rfl, rfl, fun _ _ _ _ _ => rfl⟩⟩

theorem payload_outside {dir n : Str} (hd : ¬ [py!"data"] <+: comps dir) (hn : comps n = [n])
    (hne : n ≠ py!"data") : ¬ [py!"data"] <+: tagFile dir n := by
  rw [tagFile_eq dir hn]
  intro hp
  cases hc : comps dir with
  | nil =>
    rw [hc] at hp
    simp at hp
    exact hne hp.symm
  | cons x xs =>
    rw [hc] at hp hd
    rw [List.cons_append, List.cons_prefix_cons] at hp
    exact hd (by rw [hp.1, List.cons_prefix_cons]; exact ⟨rfl, List.nil_prefix⟩)

theorem payload_congr {t u : Tree} (h : ∀ p, [py!"data"] <+: p → dget u p = dget t p) (q : Str) :
    Payload u q ↔ Payload t q := by
  have : ∀ p, [py!"data"] <+: p → (u.isfile p = true ↔ t.isfile p = true) := by
    intro p hp
    rw [isfile_iff, isfile_iff, h p hp]
  constructor
  · rintro ⟨p, hp, hpre, e⟩; exact ⟨p, (this p hpre).1 hp, hpre, e⟩
  · rintro ⟨p, hp, hpre, e⟩; exact ⟨p, (this p hpre).2 hp, hpre, e⟩

/-- The bags with their directories, as far as the lookup is concerned. -/
def Spec.withTrees (bags : List Amending) (me : NewHead) (tree : Tree) : List (Str × Tree) :=
  bags.map (fun b => (b.name, b.tree)) ++ [(me.name, tree)]

/-- An amendment with the payload files of all bags registered, as `amend_bag_with` does it, and
with names and paths that tag files can hold. -/
structure Spec.Amendable (bags : List Amending) (me : NewHead) (tree : Tree) (info : Info) : Prop where
  wf : WfTree tree
  wfBags : ∀ b ∈ bags, WfTree b.tree
  dir : GoodPath (comps (tagDir info)) ∧ ¬ [py!"data"] <+: comps (tagDir info)
  defaults : (∀ b ∈ bags, b.incl = .none ∧ b.excl = .none) ∧ me.incl = .none ∧ me.excl = .none
  names : ∀ b ∈ withTrees bags me tree, Plain b.1
  files : ∀ b ∈ withTrees bags me tree, ∀ q, Payload b.2 q → Plain q

/-- What the bags contribute. -/
theorem contributions_payload {bags : List Amending} {me : NewHead} {tree u : Tree} {info : Info}
    (hO : Amendable bags me tree info) (huw : WfTree u)
    (hu : ∀ p, [py!"data"] <+: p → dget u p = dget tree p) :
    Forall₂ (fun (c : MemberInfo × List Str) (b : Str × Tree) => c.1.name = b.1 ∧ ∀ q, q ∈ c.2 ↔ Payload b.2 q)
      (contributions bags me u) (withTrees bags me tree) := by
  unfold contributions withTrees
  have hlast : (filesFor false u (includeList me.incl me.excl) me.excl.has) =
      filesFor false u [py!"data"] (fun _ => false) := by
    rw [hO.defaults.2.1, hO.defaults.2.2]; rfl
  have hend : Forall₂ (fun (c : MemberInfo × List Str) (b : Str × Tree) => c.1.name = b.1 ∧ ∀ q, q ∈ c.2 ↔ Payload b.2 q)
      [(headRecord me, filesFor false u (includeList me.incl me.excl) me.excl.has)] [(me.name, tree)] := by
    refine .cons ⟨rfl, fun q => ?_⟩ .nil
    rw [hlast, mem_amendPayload huw]
    exact payload_congr hu q
  have hwfb := hO.wfBags
  have hdef := hO.defaults.1
  clear hO hlast
  induction bags with
  | nil => exact hend
  | cons b bs ih =>
    refine .cons ⟨rfl, fun q => ?_⟩ (ih (fun b' hb => hwfb b' (List.mem_cons_of_mem _ hb))
      (fun b' hb => hdef b' (List.mem_cons_of_mem _ hb)))
    have hb := hdef b List.mem_cons_self
    have : b.files = filesFor b.readonly b.tree [py!"data"] (fun _ => false) := by
      unfold Amending.files; rw [hb.1, hb.2]; rfl
    show q ∈ b.files ↔ _
    rw [this, mem_amendPayload (hwfb b List.mem_cons_self)]

theorem forall₂_split {α β : Type} {R : α → β → Prop} {as : List α} {pre post : List β} {b : β}
    (h : Forall₂ R as (pre ++ b :: post)) :
    ∃ apre a apost, as = apre ++ a :: apost ∧ Forall₂ R apre pre ∧ R a b ∧ Forall₂ R apost post := by
  induction pre generalizing as with
  | nil =>
    cases h with
    | cons h1 h2 => exact ⟨[], _, _, rfl, .nil, h1, h2⟩
  | cons x pre ih =>
    cases h with
    | cons h1 h2 =>
      obtain ⟨apre, a, apost, rfl, g1, g2, g3⟩ := ih h2
      exact ⟨_ :: apre, a, apost, rfl, .cons h1 g1, g2, g3⟩

theorem foldl_bagLookup_some {cs : List (MemberInfo × List Str)} {r : Option Str} {q n : Str}
    (h : cs.foldl (fun r c => bagLookup c r q) r = some n) :
    (∃ c ∈ cs, q ∈ c.2 ∧ c.1.name = n) ∨ r = some n := by
  induction cs generalizing r with
  | nil => exact .inr h
  | cons c cs ih =>
    rw [List.foldl_cons] at h
    rcases ih h with ⟨c', hc, e⟩ | e
    · exact .inl ⟨c', List.mem_cons_of_mem _ hc, e⟩
    · unfold bagLookup at e
      split at e
      · rename_i hq
        exact .inl ⟨c, List.mem_cons_self, hq, Option.some.inj e⟩
      · split at e
        · cases e
        · exact .inr e

theorem mem_of_lastFor {es : List (Str × Str)} {q n : Str} (h : lastFor es q = some n) : (q, n) ∈ es := by
  unfold lastFor at h
  cases hf : es.reverse.find? (fun e => e.1 = q) with
  | none => rw [hf] at h; cases h
  | some x =>
    rw [hf] at h
    have h1 := List.find?_some hf
    have h2 := List.mem_of_find?_eq_some hf
    simp only [decide_eq_true_eq] at h1
    simp only [Option.map_some, Option.some.injEq] at h
    subst h1 h
    exact List.mem_reverse.1 h2

theorem lookup_readable {E : SaveEnv} {keep : Bool} {old : Amendee} {me : NewHead} {version : Str}
    {bags : List Amending} {tree : Tree} {info : Info} {oms : List MemberInfo} {oes : List (Str × Str)} {u : Tree}
    {s' : HeadBag} (a : Amended E keep old me version bags tree info oms oes u s')
    (hO : Amendable bags me tree info) (hp : ∀ e ∈ oes, Plain e.1 ∧ Plain e.2) :
    ∃ d, lookupView (HeadBag.open s'.tree s'.info) = .ok d := by
  have hu : ∀ p, [py!"data"] <+: p → dget u p = dget tree p := by
    intro p hpre
    refine a.uframe p ?_ ?_ ?_
    · rintro rfl; exact payload_outside hO.dir.2 comps_members (by decide) hpre
    · rintro rfl; exact payload_outside hO.dir.2 comps_lookup (by decide) hpre
    · rintro rfl; exact hO.dir.2 hpre
  have hcs := contributions_payload hO (a.uwf hO.dir.1 hO.wf) hu
  obtain ⟨d, hok, hd, hview, _⟩ := a.lookup
  refine ⟨d, hview ?_⟩
  intro e he
  have hg : dget d e.1 = some e.2 := (dget_iff_mem hok.nodup).2 he
  rw [hd] at hg
  rcases foldl_bagLookup_some hg with ⟨c, hc, h1, h2⟩ | h1
  · obtain ⟨b, hb, e1, e2⟩ := forall₂_mem_left hcs hc
    refine ⟨hO.files b hb _ ((e2 _).1 h1), ?_⟩
    rw [← h2, e1]
    exact hO.names b hb
  · exact hp _ (mem_of_lastFor h1)

/-- The lookup table of an amended head bag. -/
theorem amended_table {E : SaveEnv} {keep : Bool} {old : Amendee} {me : NewHead} {version : Str}
    {bags : List Amending} {tree : Tree} {info : Info} {oms : List MemberInfo} {oes : List (Str × Str)} {u : Tree}
    {s' : HeadBag} (a : Amended E keep old me version bags tree info oms oes u s')
    (hO : Amendable bags me tree info) (hp : ∀ q n, lastFor oes q = some n → Plain q ∧ Plain n) :
    ∃ d, TableOk d ∧ (∀ e ∈ d, Plain e.1 ∧ Plain e.2) ∧ lookupView (HeadBag.open s'.tree s'.info) = .ok d ∧
      (d = [] ∧ s'.tree.read (tagFile (tagDir info) py!"file-lookup.tsv") = none ∨
        s'.tree.read (tagFile (tagDir info) py!"file-lookup.tsv") = some (lookupText d)) ∧
      ∀ q, (∀ n, ((withTrees bags me tree).map Prod.fst).Nodup → LastOwner (withTrees bags me tree) q n → dget d q = some n) ∧
        ((∀ b ∈ withTrees bags me tree, ¬ Payload b.2 q) →
          dget d q = match lastFor oes q with
            | none => none
            | some n => if n ∈ (withTrees bags me tree).map Prod.fst then none else some n) := by
  have hu : ∀ p, [py!"data"] <+: p → dget u p = dget tree p := by
    intro p hpre
    refine a.uframe p ?_ ?_ ?_
    · rintro rfl; exact payload_outside hO.dir.2 comps_members (by decide) hpre
    · rintro rfl; exact payload_outside hO.dir.2 comps_lookup (by decide) hpre
    · rintro rfl; exact hO.dir.2 hpre
  have hcs := contributions_payload hO (a.uwf hO.dir.1 hO.wf) hu
  obtain ⟨d, hok, hd, hview, hfile⟩ := a.lookup
  have hplain : ∀ e ∈ d, Plain e.1 ∧ Plain e.2 := by
    intro e he
    have hg : dget d e.1 = some e.2 := (dget_iff_mem hok.nodup).2 he
    rw [hd] at hg
    rcases foldl_bagLookup_some hg with ⟨c, hc, h1, h2⟩ | h1
    · obtain ⟨b, hb, e1, e2⟩ := forall₂_mem_left hcs hc
      refine ⟨hO.files b hb _ ((e2 _).1 h1), ?_⟩
      rw [← h2, e1]
      exact hO.names b hb
    · exact hp _ _ h1
  have hnames : (contributions bags me u).map (·.1.name) = (withTrees bags me tree).map Prod.fst := by
    have : ∀ {cs : List (MemberInfo × List Str)} {bs : List (Str × Tree)},
        Forall₂ (fun (c : MemberInfo × List Str) (b : Str × Tree) => c.1.name = b.1 ∧ ∀ q, q ∈ c.2 ↔ Payload b.2 q) cs bs →
        cs.map (·.1.name) = bs.map Prod.fst := by
      intro cs bs h
      induction h with
      | nil => rfl
      | cons h1 _ ih => rw [List.map_cons, List.map_cons, h1.1, ih]
    exact this hcs
  refine ⟨d, hok, hplain, hview hplain, hfile, fun q => ?_⟩
  constructor
  · rintro n hnd ⟨pre, t, post, hb, hpay, hnone⟩
    rw [hb] at hcs
    obtain ⟨cpre, c, cpost, hc, _, ⟨e1, e2⟩, hpost⟩ := forall₂_split hcs
    rw [hd, hc, List.foldl_append, List.foldl_cons]
    have h1 : ∀ r, bagLookup c r q = some n := by
      intro r
      unfold bagLookup
      rw [if_pos ((e2 q).2 hpay), e1]
    rw [h1, foldl_bagLookup_keep]
    · simp only
      rw [if_neg]
      rw [← hnames, hc, List.map_append, List.map_cons, e1] at hnd
      have := (List.nodup_append.1 hnd).2.1
      exact (List.nodup_cons.1 this).1
    · intro c' hc' hq
      obtain ⟨b, hb', _, e3⟩ := forall₂_mem_left hpost hc'
      exact hnone b hb' ((e3 q).1 hq)
  · intro hnone
    rw [hd, foldl_bagLookup_keep]
    · rw [hnames]; cases lastFor oes q <;> rfl
    · intro c hc hq
      obtain ⟨b, hb', _, e3⟩ := forall₂_mem_left hcs hc
      exact hnone b hb' ((e3 q).1 hq)

theorem lookup_amended {E : SaveEnv} {keep : Bool} {old : Amendee} {me : NewHead} {version : Str}
    {bags : List Amending} {tree : Tree} {info : Info} {oms : List MemberInfo} {oes : List (Str × Str)} {u : Tree}
    {s' : HeadBag} (a : Amended E keep old me version bags tree info oms oes u s')
    (hO : Amendable bags me tree info) (hp : ∀ e ∈ oes, Plain e.1 ∧ Plain e.2) (q : Str) :
    (∀ n, ((withTrees bags me tree).map Prod.fst).Nodup → LastOwner (withTrees bags me tree) q n →
      ((HeadBag.open s'.tree s'.info).lookupFile q).1 = .ok (some n)) ∧
    ((∀ b ∈ withTrees bags me tree, ¬ Payload b.2 q) →
      ((HeadBag.open s'.tree s'.info).lookupFile q).1 =
        .ok (match lastFor oes q with
          | none => none
          | some n => if n ∈ (withTrees bags me tree).map Prod.fst then none else some n)) := by
  obtain ⟨d, _, _, hview, _, hd⟩ := amended_table a hO (fun q n h => hp _ (mem_of_lastFor h))
  have hlook : ((HeadBag.open s'.tree s'.info).lookupFile q).1 = .ok (dget d q) := by
    rw [(lookupFile_spec _ _).1, hview]; rfl
  rw [hlook]
  exact ⟨fun n h1 h2 => by rw [(hd q).1 n h1 h2], fun h1 => by rw [(hd q).2 h1]⟩

/-- C55: amending a head bag.  A path that is a payload file of an amending bag or of the new head
is looked up to the last of them that has it; any other path to the bag it was in before.  (If a
bag of the old aggregation is added again as an amending bag, the files it no longer has are
looked up to no bag.) -/
theorem C55_lookup_of_head (E : SaveEnv) (keep : Bool) (old : Amendee) (me : NewHead) (version : Str)
    (bags : List Amending) (tree : Tree) (info : Info) (s' : HeadBag) (o : Opened tree info)
    (hv : keep = true → verLt (profileVersion old.info) py!"0.3" = false)
    (h : amend E keep old me version bags (HeadBag.open tree info) = (.ok (), s'))
    (hO : Amendable bags me tree info)
    (hh : py!"Multibag-Head-Version" ∈ dkeys old.info) {oes : List (Str × Str)}
    (ho : iterLookup old.mode old.tree old.info = .ok oes) (hp : ∀ e ∈ oes, Plain e.1 ∧ Plain e.2) (q : Str) :
    (∀ n, ((withTrees bags me tree).map Prod.fst).Nodup → LastOwner (withTrees bags me tree) q n →
      ((HeadBag.open s'.tree s'.info).lookupFile q).1 = .ok (some n)) ∧
    ((∀ b ∈ withTrees bags me tree, ¬ Payload b.2 q) →
      ((HeadBag.open s'.tree s'.info).lookupFile q).1 =
        .ok (match lastFor oes q with
          | none => none
          | some n => if n ∈ (withTrees bags me tree).map Prod.fst then none else some n)) := by
  obtain ⟨oms', oes', u, a⟩ := amended o hv h
  have e := a.oldLookup
  unfold Amendee.lookup isHeadInfo at e
  rw [if_pos (dmem_iff.2 hh), ho] at e
  injection e with e
  subst e
  exact lookup_amended a hO hp q

/-- C55: amending a traditional bag.  Paths that none of the new bags has are looked up to the old
bag if it has them. -/
theorem C55_lookup_of_single (E : SaveEnv) (keep : Bool) (old : Amendee) (me : NewHead) (version : Str)
    (bags : List Amending) (tree : Tree) (info : Info) (s' : HeadBag) (o : Opened tree info)
    (hv : keep = true → verLt (profileVersion old.info) py!"0.3" = false)
    (h : amend E keep old me version bags (HeadBag.open tree info) = (.ok (), s'))
    (hO : Amendable bags me tree info)
    (hh : py!"Multibag-Head-Version" ∉ dkeys old.info) (hwo : WfTree old.tree)
    (hp : Plain old.name ∧ ∀ q, Payload old.tree q → Plain q) (hn : old.name ∉ (withTrees bags me tree).map Prod.fst)
    (q : Str) :
    (∀ n, ((withTrees bags me tree).map Prod.fst).Nodup → LastOwner (withTrees bags me tree) q n →
      ((HeadBag.open s'.tree s'.info).lookupFile q).1 = .ok (some n)) ∧
    ((∀ b ∈ withTrees bags me tree, ¬ Payload b.2 q) →
      (Payload old.tree q → ((HeadBag.open s'.tree s'.info).lookupFile q).1 = .ok (some old.name)) ∧
      (¬ Payload old.tree q → ((HeadBag.open s'.tree s'.info).lookupFile q).1 = .ok none)) := by
  obtain ⟨oms', oes, u, a⟩ := amended o hv h
  have e := a.oldLookup
  unfold Amendee.lookup isHeadInfo at e
  rw [if_neg (fun hc => hh (dmem_iff.1 hc))] at e
  injection e with e
  subst e
  obtain ⟨h1, h2⟩ := lookup_amended a hO (by
    intro e he
    obtain ⟨f, hf, rfl⟩ := List.mem_map.1 he
    exact ⟨hp.2 f ((mem_amendPayload hwo _ f).1 hf), hp.1⟩) q
  refine ⟨h1, fun hnone => ?_⟩
  have h3 := h2 hnone
  rw [lastFor_map] at h3
  constructor
  · intro hq
    rw [if_pos ((mem_amendPayload hwo _ q).2 hq)] at h3
    rw [h3]
    simp only
    rw [if_neg hn]
  · intro hq
    rw [if_neg (fun hc => hq ((mem_amendPayload hwo _ q).1 hc))] at h3
    exact h3

namespace Sample

theorem wf_newTree : WfTree newTree := wf_of_check (by decide +kernel)

/-- The payload of a small bag, listed. -/
theorem payload_plain {t : Tree} (h : (t.all (fun e => match e.2 with | .dir => true | .file _ => plainCheck (joinPath e.1))) = true)
    {q : Str} (hq : Payload t q) : Plain q := by
  obtain ⟨p, hp, _, rfl⟩ := hq
  obtain ⟨c, hc⟩ := isfile_iff.1 hp
  have := List.all_eq_true.1 h _ (mem_of_dget hc)
  exact plain_of_check this

theorem ordinary : Amendable [extra] newHead newTree newInfo where
  wf := wf_newTree
  wfBags := by
    intro b hb
    rw [List.mem_singleton] at hb
    subst hb
    exact wf_of_check (by decide +kernel)
  dir := ⟨⟨by decide, by
    intro c hc
    have : comps (tagDir newInfo) = [py!"multibag"] := by decide +kernel
    rw [this, List.mem_singleton] at hc
    subst hc
    exact goodName_of_check (by decide)⟩, by decide +kernel⟩
  defaults := ⟨by
    intro b hb
    rw [List.mem_singleton] at hb
    subst hb
    exact ⟨rfl, rfl⟩, rfl, rfl⟩
  names := by
    intro b hb
    have : b = (py!"x1", extra.tree) ∨ b = (py!"n0", newTree) := by
      simpa [withTrees, extra, newHead] using hb
    rcases this with rfl | rfl <;> exact plain_of_check (by decide +kernel)
  files := by
    intro b hb q hq
    have : b = (py!"x1", extra.tree) ∨ b = (py!"n0", newTree) := by
      simpa [withTrees, extra, newHead] using hb
    rcases this with rfl | rfl <;> exact payload_plain (by decide +kernel) hq

end Sample

/-- `data/a` is looked up to the new head, `data/b` to the amending bag, `data/c` to its old bag. -/
example :
    let look := fun q => ((HeadBag.open Sample.amendedBag.tree Sample.amendedBag.info).lookupFile q).1
    look py!"data/a" = .ok (some py!"n0") ∧ look py!"data/b" = .ok (some py!"x1") ∧
      look py!"data/c" = .ok (some py!"m1") := by
  have key := C55_lookup_of_head Sample.saveEnv false Sample.oldHead Sample.newHead py!"2.0" [Sample.extra]
    Sample.newTree Sample.newInfo Sample.amendedBag Sample.newOpened (by intro h; cases h) Sample.amend_runs
    Sample.ordinary (by decide) (oes := [(py!"data/a", py!"b0"), (py!"data/b", py!"m1"), (py!"data/c", py!"m1")])
    (by decide +kernel) (by
      intro e he
      simp only [List.mem_cons, List.not_mem_nil, or_false] at he
      rcases he with rfl | rfl | rfl <;> exact ⟨Sample.plain_of_check (by decide +kernel), Sample.plain_of_check (by decide +kernel)⟩)
  have pay : ∀ (t : Tree) (p : Path), t.isfile p = true → [py!"data"] <+: p → Payload t (joinPath p) :=
    fun t p h1 h2 => ⟨p, h1, h2, rfl⟩
  have nopay : ∀ (t : Tree) (q : Str), (t.all (fun e => decide (joinPath e.1 ≠ q))) = true → ¬ Payload t q := by
    rintro t q hall ⟨p, hp, _, rfl⟩
    obtain ⟨c, hc⟩ := isfile_iff.1 hp
    have := List.all_eq_true.1 hall _ (mem_of_dget hc)
    simp at this
  refine ⟨(key _).1 _ (by decide +kernel) ?_, (key _).1 _ (by decide +kernel) ?_, ?_⟩
  · exact ⟨[(py!"x1", Sample.extra.tree)], Sample.newTree, [], rfl, pay _ [py!"data", py!"a"] (by decide +kernel) (by decide), by simp⟩
  · refine ⟨[], Sample.extra.tree, [(py!"n0", Sample.newTree)], rfl, pay _ [py!"data", py!"b"] (by decide +kernel) (by decide), ?_⟩
    intro b hb
    rw [List.mem_singleton] at hb
    subst hb
    exact nopay _ _ (by decide +kernel)
  · have := (key py!"data/c").2 (by
      intro b hb
      have : b = (py!"x1", Sample.extra.tree) ∨ b = (py!"n0", Sample.newTree) := by
        simpa [withTrees, Sample.extra, Sample.newHead] using hb
      rcases this with rfl | rfl <;> exact nopay _ _ (by decide +kernel))
    exact this

namespace Sample

/-- A traditional bag to be amended. -/
def oldSingle : Amendee :=
  ⟨py!"s0", [([py!"data"], .dir), ([py!"data", py!"a"], .file py!"A"), ([py!"data", py!"z"], .file py!"Z")], [], .codecs, false⟩

/-- The new head bag after amending the traditional bag. -/
def amendedSingle : HeadBag :=
  (amend saveEnv false oldSingle newHead py!"2" [extra] (HeadBag.open newTree newInfo)).2

theorem amend_single_runs : amend saveEnv false oldSingle newHead py!"2" [extra] (HeadBag.open newTree newInfo) =
    (.ok (), amendedSingle) :=
  Prod.ext (show (amend saveEnv false oldSingle newHead py!"2" [extra] (HeadBag.open newTree newInfo)).1 = .ok () by
    decide +kernel) rfl

end Sample

example : ((HeadBag.open Sample.amendedSingle.tree Sample.amendedSingle.info).memberBags).1 =
    .ok [⟨py!"s0", none, none, []⟩, ⟨py!"x1", some py!"ark:/2", none, []⟩, ⟨py!"n0", none, none, []⟩] :=
  C54_members_of_single Sample.saveEnv false Sample.oldSingle Sample.newHead py!"2" [Sample.extra] Sample.newTree
    Sample.newInfo Sample.amendedSingle Sample.newOpened (by intro h; cases h) Sample.amend_single_runs (by decide)
    (Sample.writable_of_check (by decide +kernel))

example : ((HeadBag.open Sample.amendedSingle.tree Sample.amendedSingle.info).lookupFile py!"data/z").1 =
    .ok (some py!"s0") := by
  have key := C55_lookup_of_single Sample.saveEnv false Sample.oldSingle Sample.newHead py!"2" [Sample.extra]
    Sample.newTree Sample.newInfo Sample.amendedSingle Sample.newOpened (by intro h; cases h) Sample.amend_single_runs
    Sample.ordinary (by decide) (Sample.wf_of_check (by decide +kernel))
    ⟨Sample.plain_of_check (by decide +kernel), fun q => Sample.payload_plain (by decide +kernel)⟩ (by decide +kernel)
    py!"data/z"
  refine (key.2 ?_).1 ⟨[py!"data", py!"z"], by decide +kernel, by decide, rfl⟩
  intro b hb
  have : b = (py!"x1", Sample.extra.tree) ∨ b = (py!"n0", Sample.newTree) := by
    simpa [withTrees, Sample.extra, Sample.newHead] using hb
  rcases this with rfl | rfl <;>
  · rintro ⟨p, hp, _, hq⟩
    obtain ⟨c, hc⟩ := isfile_iff.1 hp
    have hall : ∀ e ∈ (Sample.extra.tree ++ Sample.newTree : Tree), joinPath e.1 ≠ py!"data/z" := by decide +kernel
    first
      | exact hall _ (List.mem_append_left _ (mem_of_dget hc)) hq.symm
      | exact hall _ (List.mem_append_right _ (mem_of_dget hc)) hq.symm

/-! ## C56: metadata -/

theorem fields_initInfo (keep : Bool) (old new : Info) (k : Str) :
    fields (initInfo keep old new) k =
      if k = py!"Multibag-Head-Deprecates" then fields old py!"Multibag-Head-Deprecates" ++ [oldVersion old]
      else if k = py!"Multibag-Version" then (newProfile keep old).values else fields new k := by
  have hd : oldDeprecates old = fields old py!"Multibag-Head-Deprecates" := rfl
  unfold initInfo
  simp only [fields_dset]
  by_cases h1 : k = py!"Multibag-Head-Deprecates"
  · rw [if_pos h1, if_pos h1.symm, ← hd]; rfl
  · rw [if_neg h1, if_neg (fun e => h1 e.symm)]
    by_cases h2 : k = py!"Multibag-Version"
    · rw [if_pos h2, if_pos h2.symm]
    · rw [if_neg h2, if_neg (fun e => h2 e.symm)]

/-- C56: the new head deprecates what the old head deprecated and the old head version (`1` if the
old bag has none), has the new version, and keeps every other field that is not the multibag
profile's own. -/
theorem C56_deprecates (E : SaveEnv) (keep : Bool) (old : Amendee) (me : NewHead) (version : Str)
    (bags : List Amending) (tree : Tree) (info : Info) (s' : HeadBag) (o : Opened tree info)
    (hv : keep = true → verLt (profileVersion old.info) py!"0.3" = false)
    (h : amend E keep old me version bags (HeadBag.open tree info) = (.ok (), s')) :
    (∀ v, dget old.info py!"Multibag-Head-Version" = some (.one v) →
      fields s'.info py!"Multibag-Head-Deprecates" = fields old.info py!"Multibag-Head-Deprecates" ++ [v]) ∧
    (py!"Multibag-Head-Version" ∉ dkeys old.info →
      fields s'.info py!"Multibag-Head-Deprecates" = fields old.info py!"Multibag-Head-Deprecates" ++ [py!"1"]) ∧
    (version ≠ [] → fields s'.info py!"Multibag-Head-Version" = [version]) ∧
    fields s'.info py!"Multibag-Version" = [if keep then profileVersion old.info else CURRENT_VERSION] ∧
    (∀ k, k ∉ touchedTags → k ≠ py!"Multibag-Head-Deprecates" → fields s'.info k = fields info k) := by
  obtain ⟨oms', oes, u, a⟩ := amended o hv h
  obtain ⟨t0, e⟩ := a.newInfo
  have hdep : fields s'.info py!"Multibag-Head-Deprecates" =
      fields old.info py!"Multibag-Head-Deprecates" ++ [oldVersion old.info] := by
    rw [e, C20_preserves _ _ _ _ _ (by decide), fields_initInfo, if_pos rfl]
  refine ⟨?_, ?_, ?_, ?_, ?_⟩
  · intro v hg
    rw [hdep]; unfold oldVersion; rw [hg]
  · intro hn
    rw [hdep]; unfold oldVersion; rw [dget_eq_none_iff.2 hn]
  · intro hne
    rw [e, (C20_sets_fields _ _ _ _).2.2.2.1]
    cases version with
    | nil => exact absurd rfl hne
    | cons c cs => rfl
  · rw [e, (C20_sets_fields _ _ _ _).1]
  · intro k hk hk2
    rw [e, C20_preserves _ _ _ _ _ hk, fields_initInfo, if_neg hk2, if_neg]
    rintro rfl
    exact hk (by decide)

example : fields Sample.amendedBag.info py!"Multibag-Head-Deprecates" = [py!"1.0", py!"1.1"] :=
  (C56_deprecates Sample.saveEnv false Sample.oldHead Sample.newHead py!"2.0" [Sample.extra] Sample.newTree
    Sample.newInfo Sample.amendedBag Sample.newOpened (by intro h; cases h) Sample.amend_runs).1 py!"1.1" rfl

/-- C56 is false of the code if the old bag gives its head version twice (of which the last
counts): the text of a Python list is deprecated instead. -/
theorem C56_negation_repeated :
    ∃ old s', infoItem old.info py!"Multibag-Head-Version" = .ok py!"1.1" ∧
      amend Sample.saveEnv false old Sample.newHead py!"2.0" [] (HeadBag.open Sample.newTree Sample.newInfo) = (.ok (), s') ∧
      fields s'.info py!"Multibag-Head-Deprecates" = [py!"['1.0', '1.1']"] :=
  ⟨{ Sample.oldHead with info := [(py!"Multibag-Head-Version", .many [py!"1.0", py!"1.1"])] },
   (amend Sample.saveEnv false
      { Sample.oldHead with info := [(py!"Multibag-Head-Version", .many [py!"1.0", py!"1.1"])] }
      Sample.newHead py!"2.0" [] (HeadBag.open Sample.newTree Sample.newInfo)).2,
   rfl, Prod.ext (by decide +kernel) rfl, by decide +kernel⟩

/-! ### The metadata on disk -/

theorem nodup_dsetDefault {info : Info} (h : (dkeys info).Nodup) (k : Str) (v : InfoVal) :
    (dkeys (dsetDefault info k v)).Nodup := by
  unfold dsetDefault
  split
  · exact h
  · exact nodup_dset h k v

theorem nodup_addAbout {info : Info} (h : (dkeys info).Nodup) : (dkeys (addAbout info)).Nodup := by
  unfold addAbout
  split
  · exact nodup_dset h _ _
  · exact nodup_dset h _ _

theorem nodup_updateInfo {info : Info} (h : (dkeys info).Nodup) (z : (Str → List Str) → Str) (version : Option Str)
    (pv : Str) : (dkeys (updateInfo z version pv info)).Nodup := by
  unfold updateInfo headInfo
  refine nodup_dset (nodup_ddel (nodup_ddel (nodup_addAbout (nodup_dset (nodup_dsetDefault (nodup_dsetDefault
    (nodup_dset ?_ _ _) _ _) _ _) _ _)) _) _) _ _
  cases version with
  | none => exact h
  | some v =>
    simp only
    split
    · exact h
    · exact nodup_dset h _ _

/-- Metadata that bag-info.txt can hold. -/
def Spec.CleanInfo (info : Info) : Prop := ∀ k, ∀ v ∈ fields info k, CleanTag (k, v) ∧ k.head? ≠ some bom

/-- Reading back metadata that was saved. -/
theorem reopened_fields {cfg : ReadCfg} {t : Tree} {info : Info}
    (hread : t.read [py!"bag-info.txt"] = some (fieldsText (tagFields info))) (hn : (dkeys info).Nodup)
    (hc : CleanInfo info) {b : RBag} (hb : openBag cfg t = .ok b) (htag : b.tagFile = py!"bag-info.txt") (k : Str) :
    fields b.info k = fields info k := by
  have hct := clean_tagFields hc
  obtain ⟨_, _, _, t2, _⟩ := openBag_parts hb
  rw [htag] at t2
  have hex : t.exists [py!"bag-info.txt"] = true := by
    rw [exists_iff (by decide)]
    intro hn
    rw [Tree.read, hn] at hread; cases hread
  rw [if_pos hex] at t2
  have hload : loadTagFile false t [py!"bag-info.txt"] = .ok (loadTags (tagFields info)) := by
    unfold loadTagFile
    rw [hread]
    simp only [Bool.false_eq_true, if_false]
    rw [parseTags_fieldsText .universal _ (fun f hf => (hct f hf).1)]
    intro f hf
    exact (hct f (List.mem_of_mem_head? hf)).2
  rw [hload] at t2
  rw [← Except.ok.inj t2, fields_loadTags, valuesOf_tagFields hn]
  have : ∀ l : List Str, (∀ v ∈ l, oneLine v = v) → l.map oneLine = l := by
    intro l hl
    induction l with
    | nil => rfl
    | cons x l ih => rw [List.map_cons, hl x List.mem_cons_self, ih (fun v hv => hl v (List.mem_cons_of_mem _ hv))]
  exact this _ (fun v hv => oneLine_clean (hc k v hv).1.nobreak)

theorem clean_about : CleanTag (py!"Internal-Sender-Description", ABOUT_MBAG) ∧
    (py!"Internal-Sender-Description").head? ≠ some bom :=
  ⟨⟨⟨by decide, by decide, by decide, strip_eq_self_iff.1 (by decide +kernel)⟩, by decide +kernel,
    strip_eq_self_iff.1 (by decide +kernel)⟩, by decide⟩

/-- A one-line value without white space around it. -/
def Spec.OneLine (v : Str) : Prop := (∀ c ∈ v, isBreak c = false) ∧ Trimmed v

theorem clean_known {k v : Str} (hk : k ∈ [py!"Multibag-Head-Version", py!"Multibag-Version",
    py!"Multibag-Tag-Directory", py!"Multibag-Reference", py!"Multibag-Head-Deprecates", py!"Bag-Size"])
    (hv : OneLine v) : CleanTag (k, v) ∧ k.head? ≠ some bom := by
  have hlab : CleanLabel k ∧ k.head? ≠ some bom := by
    clear hv
    simp only [List.mem_cons, List.not_mem_nil, or_false] at hk
    rcases hk with rfl | rfl | rfl | rfl | rfl | rfl <;>
      exact ⟨⟨by decide, by decide, by decide, strip_eq_self_iff.1 (by decide +kernel)⟩, by decide⟩
  exact ⟨⟨hlab.1, hv.1, hv.2⟩, hlab.2⟩

theorem oneLine_of_check {v : Str} (h : (∀ c ∈ v, isBreak c = false) ∧ strip v = v) : OneLine v :=
  ⟨h.1, strip_eq_self_iff.1 h.2⟩

theorem clean_updateInfo {z : (Str → List Str) → Str} {version pv : Str} {info : Info} (h : CleanInfo info)
    (hz : ∀ f, OneLine (z f)) (hv : OneLine version) (hpv : OneLine pv) :
    CleanInfo (updateInfo z (some version) pv info) := by
  intro k v hkv
  obtain ⟨f1, f2, f3, f4, f5, f6, f7⟩ := C20_sets_fields z (some version) pv info
  have inner : ∀ k, (∀ v ∈ fields info k, CleanTag (k, v) ∧ k.head? ≠ some bom) := h
  by_cases hk : k ∈ touchedTags
  · simp only [touchedTags, List.mem_cons, List.not_mem_nil, or_false] at hk
    rcases hk with rfl | rfl | rfl | rfl | rfl | rfl | rfl
    · rw [f4] at hkv
      cases version with
      | nil =>
        simp only at hkv
        split at hkv
        · exact inner _ v hkv
        · rw [List.mem_singleton] at hkv
          subst hkv
          exact clean_known (by decide) (oneLine_of_check (by decide))
      | cons c cs =>
        simp only [List.mem_singleton] at hkv
        subst hkv
        exact clean_known (by decide) hv
    · rw [f1, List.mem_singleton] at hkv
      subst hkv
      exact clean_known (by decide) hpv
    · rw [f3] at hkv
      split at hkv
      · exact inner _ v hkv
      · rw [List.mem_singleton] at hkv
        subst hkv
        exact clean_known (by decide) (oneLine_of_check (by decide))
    · rw [f2, List.mem_singleton] at hkv
      subst hkv
      exact clean_known (by decide) (oneLine_of_check (by decide +kernel))
    · rw [C20_about_once] at hkv
      split at hkv
      · exact inner _ v hkv
      · rcases List.mem_append.1 hkv with hkv | hkv
        · exact inner _ v hkv
        · rw [List.mem_singleton] at hkv
          subst hkv
          exact clean_about
    · rw [f5] at hkv; cases hkv
    · have : fields (updateInfo z (some version) pv info) py!"Bag-Size" =
          [z (fields (headInfo (some version) pv info))] := by
        unfold updateInfo
        simp only [fields_dset, if_true]
        rfl
      rw [this, List.mem_singleton] at hkv
      subst hkv
      exact clean_known (by decide) (hz _)
  · rw [C20_preserves _ _ _ _ _ hk] at hkv
    exact h k v hkv

theorem infoItem_of_fields {i j : Info} (hi : Loaded i) (k : Str) (hj : ∀ l, dget j k = some (.many l) → l ≠ [])
    (h : fields i k = fields j k) : infoItem i k = infoItem j k := by
  unfold infoItem
  unfold fields at h
  have hl := hi k
  cases h1 : dget i k with
  | none =>
    rw [h1] at h
    cases h2 : dget j k with
    | none => rfl
    | some v =>
      rw [h2] at h
      cases v with
      | one s => cases h
      | many l => exact absurd h.symm (hj l h2)
  | some v =>
    rw [h1] at h
    have hv := hl v h1
    cases v with
    | one s =>
      cases h2 : dget j k with
      | none => rw [h2] at h; cases h
      | some w =>
        rw [h2] at h
        cases w with
        | one s' => simp only [InfoVal.values, List.cons.injEq, and_true] at h; rw [h]
        | many l => simp only [InfoVal.values] at h; rw [← h]; rfl
    | many l =>
      simp only at hv
      cases h2 : dget j k with
      | none => rw [h2] at h; simp only [InfoVal.values] at h; rw [h] at hv; simp at hv
      | some w =>
        rw [h2] at h
        cases w with
        | one s' => simp only [InfoVal.values] at h; rw [h] at hv; simp at hv
        | many l' => simp only [InfoVal.values] at h; rw [h]

theorem clean_initInfo {keep : Bool} {old : Amendee} {info : Info} (hc : CleanInfo info)
    (hold : ∀ v ∈ profileVersion old.info :: oldVersion old.info :: fields old.info py!"Multibag-Head-Deprecates", OneLine v)
    (hpk : keep = true → fields old.info py!"Multibag-Version" = [] ∨ ∃ v, fields old.info py!"Multibag-Version" = [v]) :
    CleanInfo (initInfo keep old.info info) := by
  intro k v hkv
  rw [fields_initInfo] at hkv
  split at hkv
  · rename_i hk
    subst hk
    refine clean_known (by decide) ?_
    rcases List.mem_append.1 hkv with hkv | hkv
    · exact hold _ (List.mem_cons_of_mem _ (List.mem_cons_of_mem _ hkv))
    · rw [List.mem_singleton] at hkv
      subst hkv
      exact hold _ (List.mem_cons_of_mem _ List.mem_cons_self)
  · split at hkv
    · rename_i hk
      subst hk
      refine clean_known (by decide) ?_
      unfold newProfile at hkv
      cases keep with
      | false =>
        simp only [Bool.false_eq_true, if_false, InfoVal.values, List.mem_singleton] at hkv
        subst hkv
        exact oneLine_of_check (by decide +kernel)
      | true =>
        simp only [if_true] at hkv
        have hp := hpk rfl
        have h1 := hold _ List.mem_cons_self
        unfold fields at hp
        unfold profileVersion infoItem at h1
        cases hg : dget old.info py!"Multibag-Version" with
        | none =>
          rw [hg] at hkv
          simp only [Option.getD_none, InfoVal.values, List.mem_singleton] at hkv
          subst hkv
          exact oneLine_of_check (by decide +kernel)
        | some w =>
          rw [hg] at hkv hp h1
          simp only [Option.getD_some] at hkv hp
          rcases hp with hp | ⟨v', hp⟩
          · rw [hp] at hkv; cases hkv
          · rw [hp, List.mem_singleton] at hkv
            subst hkv
            cases w with
            | one s =>
              simp only [InfoVal.values, List.cons.injEq, and_true] at hp
              subst hp
              exact h1
            | many l =>
              simp only [InfoVal.values] at hp
              subst hp
              exact h1
    · exact hc k v hkv

/-- The metadata of an amended bag, read again from its directory. -/
theorem amended_reopened {E : SaveEnv} {keep : Bool} {old : Amendee} {me : NewHead} {version : Str}
    {bags : List Amending} {tree : Tree} {info : Info} {oms : List MemberInfo} {oes : List (Str × Str)} {u : Tree}
    {s' : HeadBag} (a : Amended E keep old me version bags tree info oms oes u s') (o : Opened tree info)
    (hn : (dkeys info).Nodup) (hc : CleanInfo info)
    (hold : ∀ v ∈ profileVersion old.info :: oldVersion old.info :: fields old.info py!"Multibag-Head-Deprecates", OneLine v)
    (hver : OneLine version) (hsz : ∀ t, OneLine (E.size t))
    (hpk : keep = true → fields old.info py!"Multibag-Version" = [] ∨ ∃ v, fields old.info py!"Multibag-Version" = [v])
    {cfg : ReadCfg} {b : RBag} (hb : openBag cfg s'.tree = .ok b) (htag : b.tagFile = py!"bag-info.txt") :
    (∀ k, fields b.info k = fields s'.info k) ∧ profileVersion b.info = profileVersion s'.info ∧
    tagDir b.info = tagDir s'.info ∧ InfoOk b.info := by
  obtain ⟨t0, e⟩ := a.newInfo
  have hpv : OneLine (if keep then profileVersion old.info else CURRENT_VERSION) := by
    cases keep with
    | true => exact hold _ List.mem_cons_self
    | false => show OneLine CURRENT_VERSION; exact oneLine_of_check (by decide +kernel)
  have hci := clean_initInfo hc hold hpk
  have hcs : CleanInfo s'.info := by rw [e]; exact clean_updateInfo hci (fun _ => hsz t0) hver hpv
  have hns : (dkeys s'.info).Nodup := by
    rw [e]
    exact nodup_updateInfo (nodup_dset (nodup_dset hn _ _) _ _) _ _ _
  have hf := reopened_fields a.saved hns hcs hb htag
  have hlo := loaded_openBag hb
  have hv' : dget s'.info py!"Multibag-Version" = some (.one (if keep then profileVersion old.info else CURRENT_VERSION)) := by
    rw [e, dget_updateInfo_version]
  have hpver : profileVersion b.info = profileVersion s'.info := by
    unfold profileVersion
    rw [infoItem_of_fields hlo _ (by intro l hl; rw [hv'] at hl; cases hl) (hf _)]
  have htd : dget b.info py!"Multibag-Tag-Directory" = dget s'.info py!"Multibag-Tag-Directory" := by
    have h1 := hf py!"Multibag-Tag-Directory"
    have h2 : ∃ v, dget s'.info py!"Multibag-Tag-Directory" = some (.one v) := by
      rw [e, dget_updateInfo_tag, initInfo_dget keep old.info info (by decide) (by decide)]
      cases hg : dget info py!"Multibag-Tag-Directory" with
      | none => exact ⟨_, rfl⟩
      | some w =>
        cases w with
        | one v => exact ⟨v, rfl⟩
        | many l => exact absurd hg (o.tag l)
    obtain ⟨v, h2⟩ := h2
    rw [h2]
    unfold fields at h1
    rw [h2] at h1
    cases hg : dget b.info py!"Multibag-Tag-Directory" with
    | none => rw [hg] at h1; cases h1
    | some w =>
      rw [hg] at h1
      cases w with
      | one v' => simp only [InfoVal.values, List.cons.injEq, and_true] at h1; rw [h1]
      | many l =>
        simp only [InfoVal.values] at h1
        have := hlo _ _ hg
        rw [h1] at this
        simp at this
  have hdir := tagDir_congr htd
  have hbi : InfoOk b.info := by
    refine ⟨?_, by rw [hpver]; exact a.infoOk.ver⟩
    have := a.infoOk.tag
    unfold readerTagDir at this ⊢
    rw [htd, hdir]; exact this
  exact ⟨hf, hpver, hdir, hbi⟩

/-- C54–C56 hold of the bag directory as well: a program that opens the amended bag afterwards finds
the same metadata, and the same members, lookups and deletions. -/
theorem C56_on_disk (E : SaveEnv) (keep : Bool) (old : Amendee) (me : NewHead) (version : Str)
    (bags : List Amending) (tree : Tree) (info : Info) (s' : HeadBag) (o : Opened tree info)
    (hv : keep = true → verLt (profileVersion old.info) py!"0.3" = false)
    (h : amend E keep old me version bags (HeadBag.open tree info) = (.ok (), s'))
    (hn : (dkeys info).Nodup) (hc : CleanInfo info)
    (hold : ∀ v ∈ profileVersion old.info :: oldVersion old.info :: fields old.info py!"Multibag-Head-Deprecates", OneLine v)
    (hver : OneLine version) (hsz : ∀ t, OneLine (E.size t))
    (hpk : keep = true → fields old.info py!"Multibag-Version" = [] ∨ ∃ v, fields old.info py!"Multibag-Version" = [v])
    {cfg : ReadCfg} {b : RBag} (hb : openBag cfg s'.tree = .ok b) (htag : b.tagFile = py!"bag-info.txt") :
    (∀ k, fields b.info k = fields s'.info k) ∧
    ((HeadBag.open s'.tree b.info).memberBags).1 = ((HeadBag.open s'.tree s'.info).memberBags).1 ∧
    (∀ q, ((HeadBag.open s'.tree b.info).lookupFile q).1 = ((HeadBag.open s'.tree s'.info).lookupFile q).1) ∧
    ((HeadBag.open s'.tree b.info).deletedPaths).1 = ((HeadBag.open s'.tree s'.info).deletedPaths).1 := by
  obtain ⟨oms', oes, u, a⟩ := amended o hv h
  obtain ⟨hf, hpver, hdir, hbi⟩ := amended_reopened a o hn hc hold hver hsz hpk hb htag
  refine ⟨hf, ?_, ?_, ?_⟩
  · rw [memberBags_fst, memberBags_fst]
    simp only [membersView, HeadBag.open, iterMembers_03 hbi, iterMembers_03 a.infoOk, hdir]
  · intro q
    rw [(lookupFile_spec _ _).1, (lookupFile_spec _ _).1]
    simp only [lookupView, HeadBag.open, iterLookup_03 hbi, iterLookup_03 a.infoOk, hdir]
  · rw [(deletedPaths_spec _).1, (deletedPaths_spec _).1]
    simp only [deletedView, HeadBag.open, iterDeleted, deletedFile, hdir]

/-- A decidable form of `CleanInfo`. -/
def Sample.cleanInfoCheck (info : Info) : Bool :=
  info.all (fun e => decide (e.1 ≠ [] ∧ ':' ∉ e.1 ∧ (∀ c ∈ e.1, isBreak c = false) ∧ strip e.1 = e.1 ∧ e.1.head? ≠ some bom) &&
    e.2.values.all (fun v => decide ((∀ c ∈ v, isBreak c = false) ∧ strip v = v)))

theorem Sample.cleanInfo_of_check {info : Info} (h : Sample.cleanInfoCheck info = true) : CleanInfo info := by
  intro k v hv
  unfold fields at hv
  cases hg : dget info k with
  | none => rw [hg] at hv; cases hv
  | some w =>
    rw [hg] at hv
    have := List.all_eq_true.1 h _ (mem_of_dget hg)
    rw [Bool.and_eq_true, decide_eq_true_eq] at this
    have h2 := List.all_eq_true.1 this.2 v hv
    rw [decide_eq_true_eq] at h2
    obtain ⟨⟨a1, a2, a3, a4, a5⟩, _⟩ := this
    exact ⟨⟨⟨a1, a2, a3, strip_eq_self_iff.1 a4⟩, h2.1, strip_eq_self_iff.1 h2.2⟩, a5⟩

/-- The amended sample bag can be opened from disk and deprecates both versions. -/
example : ∃ b, openBag Sample.readCfg Sample.amendedBag.tree = .ok b ∧
    fields b.info py!"Multibag-Head-Deprecates" = [py!"1.0", py!"1.1"] := by
  obtain ⟨b, hb, ht⟩ := Sample.ok_of_check (r := openBag Sample.readCfg Sample.amendedBag.tree)
    (f := fun b => decide (b.tagFile = py!"bag-info.txt")) (by decide +kernel)
  rw [decide_eq_true_eq] at ht
  have key := C56_on_disk Sample.saveEnv false Sample.oldHead Sample.newHead py!"2.0" [Sample.extra] Sample.newTree
    Sample.newInfo Sample.amendedBag Sample.newOpened (by intro h; cases h) Sample.amend_runs (by decide)
    (Sample.cleanInfo_of_check (by decide +kernel)) (by
      intro v hv
      have : v ∈ [py!"0.4", py!"1.1", py!"1.0"] := hv
      simp only [List.mem_cons, List.not_mem_nil, or_false] at this
      rcases this with rfl | rfl | rfl <;> exact oneLine_of_check (by decide))
    (oneLine_of_check (by decide)) (fun _ => by show OneLine py!"1 kB"; exact oneLine_of_check (by decide))
    (by intro h; cases h) hb ht
  refine ⟨b, hb, ?_⟩
  rw [key.1]
  decide +kernel

/-! ## C57: deletions -/

/-- C57 is false of the code: what the old head declared deleted is not deleted any more after an
amendment, whatever the amending bags provide. -/
theorem C57_negation :
    py!"data/gone" ∈ (match ((HeadBag.open Sample.oldHead.tree Sample.oldHead.info).deletedPaths).1 with
      | .ok ps => ps | .error _ => []) ∧
    ¬ Payload Sample.newTree py!"data/gone" ∧ ¬ Payload Sample.extra.tree py!"data/gone" ∧
    ((HeadBag.open Sample.amendedBag.tree Sample.amendedBag.info).deletedPaths).1 = .ok [] := by
  have nopay : ∀ (t : Tree) (q : Str), (t.all (fun e => decide (joinPath e.1 ≠ q))) = true → ¬ Payload t q := by
    rintro t q hall ⟨p, hp, _, rfl⟩
    obtain ⟨c, hc⟩ := isfile_iff.1 hp
    have := List.all_eq_true.1 hall _ (mem_of_dget hc)
    simp at this
  exact ⟨by decide +kernel, nopay _ _ (by decide +kernel), nopay _ _ (by decide +kernel), by decide +kernel⟩

/-- C57, what holds: the deletions of the new head bag are those it had itself before the amendment.
Missing: those of the old head. -/
theorem C57_own_deletions_partial (E : SaveEnv) (keep : Bool) (old : Amendee) (me : NewHead) (version : Str)
    (bags : List Amending) (tree : Tree) (info : Info) (s' : HeadBag) (o : Opened tree info)
    (hv : keep = true → verLt (profileVersion old.info) py!"0.3" = false)
    (h : amend E keep old me version bags (HeadBag.open tree info) = (.ok (), s')) :
    ((HeadBag.open s'.tree s'.info).deletedPaths).1 = ((HeadBag.open tree info).deletedPaths).1 := by
  obtain ⟨oms', oes, u, a⟩ := amended o hv h
  have htd : tagDir s'.info = tagDir info := by
    obtain ⟨t0, e⟩ := a.newInfo
    rw [e, tagDir_updateInfo, tagDir_initInfo]
  have n := tagFile_ne_info (dir := tagDir info) comps_deleted (by decide) (by decide)
  rw [(deletedPaths_spec _).1, (deletedPaths_spec _).1]
  simp only [deletedView, HeadBag.open, iterDeleted, deletedFile, htd]
  rw [a.frame _ (tagFile_inj comps_deleted comps_members (by decide))
    (tagFile_inj comps_deleted comps_lookup (by decide)) (tagFile_ne_dir _ _ comps_deleted rfl) n.1 n.2]

example : ((HeadBag.open Sample.amendedBag.tree Sample.amendedBag.info).deletedPaths).1 =
    ((HeadBag.open Sample.newTree Sample.newInfo).deletedPaths).1 :=
  C57_own_deletions_partial Sample.saveEnv false Sample.oldHead Sample.newHead py!"2.0" [Sample.extra] Sample.newTree
    Sample.newInfo Sample.amendedBag Sample.newOpened (by intro h; cases h) Sample.amend_runs

/-! ## C59: keeping the profile version -/

namespace Sample

/-- A head bag of profile 0.2. -/
def oldTree02 : Tree :=
  [([py!"data"], .dir), ([py!"data", py!"a"], .file py!"A"),
   ([py!"multibag"], .dir),
   ([py!"multibag", py!"group-members.txt"], .file py!"m1\nb0\n"),
   ([py!"multibag", py!"group-directory.txt"], .file py!"data/a b0\ndata/b m1\n")]

/-- The bag to be amended, profile 0.2. -/
def oldHead02 : Amendee :=
  ⟨py!"b0", oldTree02, [(py!"Multibag-Version", .one py!"0.2"), (py!"Multibag-Head-Version", .one py!"1.0")], .codecs, false⟩

end Sample

/-- C59 is false of the code for profile versions before 0.3: the amendment succeeds, but the
amended head bag lists no members and finds no files. -/
theorem C59_negation_old_profile :
    iterMembers .codecs Sample.oldHead02.tree Sample.oldHead02.info =
      .ok [⟨py!"m1", none, none, []⟩, ⟨py!"b0", none, none, []⟩] ∧
    ∃ s', amend Sample.saveEnv true Sample.oldHead02 Sample.newHead py!"2.0" [] (HeadBag.open Sample.newTree Sample.newInfo)
        = (.ok (), s') ∧
      s'.tree.isfile [py!"multibag", py!"member-bags.tsv"] = true ∧
      ((HeadBag.open s'.tree s'.info).memberBags).1 = .ok [] ∧
      ((HeadBag.open s'.tree s'.info).lookupFile py!"data/d").1 = .ok none :=
  ⟨by decide +kernel,
   (amend Sample.saveEnv true Sample.oldHead02 Sample.newHead py!"2.0" [] (HeadBag.open Sample.newTree Sample.newInfo)).2,
   Prod.ext (by decide +kernel) rfl, by decide +kernel, by decide +kernel, by decide +kernel⟩

/-- C59, for profile versions 0.3 and later: an amendment that keeps the profile version gives a head
bag of that profile version whose members and lookups can be read back.  Missing: earlier versions, for
which it is false. -/
theorem C59_readable_partial (E : SaveEnv) (old : Amendee) (me : NewHead) (version : Str)
    (bags : List Amending) (tree : Tree) (info : Info) (s' : HeadBag) (o : Opened tree info)
    (hv : verLt (profileVersion old.info) py!"0.3" = false)
    (h : amend E true old me version bags (HeadBag.open tree info) = (.ok (), s'))
    (hO : Amendable bags me tree info)
    (hh : py!"Multibag-Head-Version" ∈ dkeys old.info) {oms : List MemberInfo} {oes : List (Str × Str)}
    (ho : iterMembers old.mode old.tree old.info = .ok oms) (hl : iterLookup old.mode old.tree old.info = .ok oes)
    (hw : Writable (oms ++ bags.map record ++ [headRecord me])) (hp : ∀ e ∈ oes, Plain e.1 ∧ Plain e.2) :
    profileVersion s'.info = profileVersion old.info ∧
    ((HeadBag.open s'.tree s'.info).memberBags).1 = .ok (keepLast (oms ++ bags.map record ++ [headRecord me])) ∧
    ∀ q, ∃ r, ((HeadBag.open s'.tree s'.info).lookupFile q).1 = .ok r ∧
      ((∀ b ∈ withTrees bags me tree, ¬ Payload b.2 q) → (lastFor oes q).all (· ∉ (withTrees bags me tree).map Prod.fst) = true →
        r = lastFor oes q) := by
  refine ⟨?_, C54_members_of_head E true old me version bags tree info s' o (fun _ => hv) h hh ho hw, ?_⟩
  · obtain ⟨oms', oes', u, a⟩ := amended o (fun _ => hv) h
    obtain ⟨t0, e⟩ := a.newInfo
    rw [e]
    unfold profileVersion infoItem
    rw [dget_updateInfo_version]
    rfl
  · intro q
    have key := (C55_lookup_of_head E true old me version bags tree info s' o (fun _ => hv) h hO hh hl hp q).2
    obtain ⟨oms', oes', u, a⟩ := amended o (fun _ => hv) h
    have eo := a.oldLookup
    unfold Amendee.lookup isHeadInfo at eo
    rw [if_pos (dmem_iff.2 hh), hl] at eo
    injection eo with eo
    subst eo
    have hv2 : ∃ r, ((HeadBag.open s'.tree s'.info).lookupFile q).1 = .ok r := by
      by_cases hx : ∃ d, lookupView (HeadBag.open s'.tree s'.info) = .ok d
      · obtain ⟨d, hd⟩ := hx
        rw [(lookupFile_spec _ _).1, hd]
        exact ⟨_, rfl⟩
      · exact absurd (lookup_readable a hO hp) hx
    obtain ⟨r, hr⟩ := hv2
    refine ⟨r, hr, fun hn hall => ?_⟩
    have := key hn
    rw [hr] at this
    injection this with this
    rw [this]
    cases hlf : lastFor oes q with
    | none => rfl
    | some n =>
      rw [hlf] at hall
      simp only
      rw [if_neg]
      simpa using hall

/-- A head bag of profile 0.3, amended keeping its profile version. -/
example : ∃ s', amend Sample.saveEnv true
      { Sample.oldHead with info := [(py!"Multibag-Version", .one py!"0.3"), (py!"Multibag-Head-Version", .one py!"1")] }
      Sample.newHead py!"2.0" [Sample.extra] (HeadBag.open Sample.newTree Sample.newInfo) = (.ok (), s') ∧
    profileVersion s'.info = py!"0.3" ∧ ((HeadBag.open s'.tree s'.info).memberBags).1 =
      .ok [⟨py!"m1", some py!"ark:/1", none, []⟩, ⟨py!"b0", none, none, []⟩,
        ⟨py!"x1", some py!"ark:/2", none, []⟩, ⟨py!"n0", none, none, []⟩] := by
  have hrun : ∀ (A : Res Unit), A.1 = .ok () → A = (.ok (), A.2) := fun A h => Prod.ext h rfl
  have hr := hrun (amend Sample.saveEnv true
      { Sample.oldHead with info := [(py!"Multibag-Version", .one py!"0.3"), (py!"Multibag-Head-Version", .one py!"1")] }
      Sample.newHead py!"2.0" [Sample.extra] (HeadBag.open Sample.newTree Sample.newInfo)) (by decide +kernel)
  have key := C59_readable_partial Sample.saveEnv _ Sample.newHead py!"2.0" [Sample.extra] Sample.newTree
    Sample.newInfo _ Sample.newOpened (by decide +kernel) hr Sample.ordinary (by decide)
    (oms := [⟨py!"m1", some py!"ark:/1", none, []⟩, ⟨py!"b0", none, none, []⟩])
    (oes := [(py!"data/a", py!"b0"), (py!"data/b", py!"m1"), (py!"data/c", py!"m1")])
    (by decide +kernel) (by decide +kernel) (Sample.writable_of_check (by decide +kernel)) (by
      intro e he
      simp only [List.mem_cons, List.not_mem_nil, or_false] at he
      rcases he with rfl | rfl | rfl <;>
        exact ⟨Sample.plain_of_check (by decide +kernel), Sample.plain_of_check (by decide +kernel)⟩)
  exact ⟨_, hr, key.1, key.2.1⟩

/-! ## C78: what an amendment touches -/

/-- C78: an amendment changes nothing in the new head bag besides its member list, its lookup file, the
directory holding them, bag-info.txt and the tag manifests. -/
theorem C78_amend_touches (E : SaveEnv) (keep : Bool) (old : Amendee) (me : NewHead) (version : Str)
    (bags : List Amending) (tree : Tree) (info : Info) (s' : HeadBag) (o : Opened tree info)
    (hv : keep = true → verLt (profileVersion old.info) py!"0.3" = false)
    (h : amend E keep old me version bags (HeadBag.open tree info) = (.ok (), s')) (p : Path)
    (h1 : p ≠ comps (tagDir info)) (h2 : p ≠ comps (tagDir info) ++ [py!"member-bags.tsv"])
    (h3 : p ≠ comps (tagDir info) ++ [py!"file-lookup.tsv"]) (h4 : p ≠ [py!"bag-info.txt"])
    (h5 : ∀ a, p ≠ [py!"tagmanifest-" ++ a ++ py!".txt"]) : dget s'.tree p = dget tree p := by
  obtain ⟨oms', oes, u, a⟩ := amended o hv h
  refine a.frame p ?_ ?_ h1 h4 ?_
  · rw [tagFile_eq _ comps_members]; exact h2
  · rw [tagFile_eq _ comps_lookup]; exact h3
  · intro a
    have := h5 a
    unfold manPath
    simpa using this

example : Sample.amendedBag.tree.read [py!"data", py!"a"] = some py!"a3" := by
  have := C78_amend_touches Sample.saveEnv false Sample.oldHead Sample.newHead py!"2.0" [Sample.extra] Sample.newTree
    Sample.newInfo Sample.amendedBag Sample.newOpened (by intro h; cases h) Sample.amend_runs [py!"data", py!"a"]
    (by decide +kernel) (by decide +kernel) (by decide +kernel) (by decide) (by intro a h; simp at h)
  rw [read_eq, this]
  rfl

end Verif
