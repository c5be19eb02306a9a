import Verif.Lemmas.SaveTogether
import Verif.Props.Sessions
/-!
# C133: several processes save lists of one head bag at the same time
-/

namespace Verif
open Spec

section
variable {ι : Type} [DecidableEq ι]

theorem tagFile_read {t : Tree} {p : Path} {x : Str} (h : dget t p = some (.file x)) : t.read p = some x := by
  rw [read_eq, h]

theorem savers_members_read {info : Info} (o : Metadata info) {t : Tree} {ms : List MemberInfo}
    (hc : ∀ m ∈ ms, CleanMember m) (hb : ∀ m ∈ ms.head?, m.name.head? ≠ some bom)
    (h : dget t (tagFile (tagDir info) py!"member-bags.tsv") = some (.file (HeadBag.membersWritten ms).1)) :
    ((HeadBag.open t info).memberBags).1 = .ok ms := by
  obtain ⟨x, h1, _⟩ := C06_members_roundtrip .codecs ms hc hb
  rw [membersWritten_text h1] at h
  rw [memberBags_fst]
  exact open_members_eq (s := HeadBag.open t info) (infoOk_of_metadata o) (tagFile_read h) h1 hc hb

theorem savers_lookup_read {info : Info} (o : Metadata info) {t : Tree} {d : List (Str × Str)} (hn : (dkeys d).Nodup)
    (hc : ∀ p ∈ d, Clean p.1 ∧ Clean p.2) (hb : ∀ p ∈ d.head?, p.1.head? ≠ some bom)
    (h : dget t (tagFile (tagDir info) py!"file-lookup.tsv") = some (.file (lookupText d))) (p : Str) :
    ((HeadBag.open t info).lookupFile p).1 = .ok (dget d p) := by
  have e : lookupView (HeadBag.open t info) = .ok d :=
    open_lookup_eq (s := HeadBag.open t info) (infoOk_of_metadata o) (tagFile_read h) hn hc hb
  rw [(lookupFile_spec _ _).1, e]
  rfl

theorem savers_deleted_read {info : Info} {t : Tree} {ps : List Str} (hn : ps.Nodup)
    (hc : ∀ p ∈ ps, Clean p) (hb : ∀ p ∈ ps.head?, p.head? ≠ some bom)
    (h : dget t (tagFile (tagDir info) py!"deleted.txt") = some (.file (deletedText ps)) ∨
      ps = [] ∧ dget t (tagFile (tagDir info) py!"deleted.txt") = none) :
    ((HeadBag.open t info).deletedPaths).1 = .ok ps := by
  have e : ((HeadBag.open t info).deletedPaths).1 = deletedView (HeadBag.open t info) := by
    simp only [HeadBag.deletedPaths, HeadBag.open, deletedView, Option.isNone, Bool.or_true, if_true]
    cases iterDeleted .codecs t info <;> rfl
  rw [e]
  rcases h with h | ⟨rfl, h⟩
  · exact open_deleted_eq (s := HeadBag.open t info) (tagFile_read h) hn hc hb
  · have h : dget t (deletedFile info) = none := h
    simp [deletedView, HeadBag.open, iterDeleted, h, pySet_of_nodup]

theorem deleted_removes {ps : List Str} (h : (ListText.deleted ps).removes = true) : ps = [] := by
  cases ps with
  | nil => rfl
  | cons p ps => cases h

theorem emptying_run {info : Info} {c : ι → ListText} : ∀ (l : List (ι × Nat)) {w : Savers ι},
    (∀ j, w.pc j = .emptying → (c j).removes = true) → ∀ j, (w.run info c l).pc j = .emptying → (c j).removes = true
  | [], _, v => v
  | x :: l, w, v => by
    rw [run_cons]
    exact emptying_run l (fun j h => (step_emptying h).elim (v j) id)

theorem sameText_start (tree : Tree) (info : Info) (c : ι → ListText) (a : ListText) (t : Str) (S : ι → Prop) :
    SameText info c a t S (Savers.start tree) :=
  ⟨fun i k _ e => by (cases e), fun i _ e => by (cases e), .inl (fun i _ ⟨k, e⟩ => by (rcases e with e | e <;> cases e))⟩

theorem sameText_begin (info : Info) (c : ι → ListText) (a : ListText) (t : Str) (tree : Tree) (l : List (ι × Nat)) (i : ι)
    (hno : ¬ Underway ((Savers.start tree).run info c l) i) :
    SameText info c a t (fun j => j = i) ((Savers.start tree).run info c l) :=
  ⟨fun j k hj e => absurd ⟨k, .inl (hj ▸ e)⟩ hno, fun j _ e => emptying_run l (w := Savers.start tree) (fun j e => by cases e) j e,
    .inl (fun j hj h => hno (hj ▸ h))⟩

/-! ## Equal lists -/

/-- C133: any number of processes save the same member list at the same time, and others may save other lists.  When those
that have begun to write are done, and there is at least one, a newly opened bag has this member list. -/
theorem C133_same_members (tree : Tree) (info : Info) (o : Metadata info) (c : ι → ListText) (l : List (ι × Nat))
    (ms : List MemberInfo) (hc : ∀ m ∈ ms, CleanMember m) (hb : ∀ m ∈ ms.head?, m.name.head? ≠ some bom)
    (hsame : ∀ i ms', c i = .members ms' → ms' = ms)
    (hend : ∀ i, c i = .members ms → Underway ((Savers.start tree).run info c l) i →
      AllWritten c ((Savers.start tree).run info c l) i)
    (hone : ∃ i, c i = .members ms ∧ AllWritten c ((Savers.start tree).run info c l) i) :
    ((HeadBag.open ((Savers.start tree).run info c l).tree info).memberBags).1 = .ok ms := by
  have hS : ∀ j, c j = .members ms → (c j).name = (ListText.members ms).name ∧ (c j).text = (ListText.members ms).text :=
    fun j hj => by rw [hj]; exact ⟨rfl, rfl⟩
  refine savers_members_read o hc hb ((sameText_end (S := fun j => c j = .members ms) hS
    (sameText_run hS l (fun x _ => ?_) (sameText_start ..)) hend hone).resolve_right
    (fun ⟨⟨j, j1, j2⟩, _⟩ => by rw [j1] at j2; cases j2))
  cases h : c x.1 with
  | members ms' => exact .inl (by rw [hsame _ _ h])
  | lookup d => exact .inr (by show py!"file-lookup.tsv" ≠ py!"member-bags.tsv"; decide)
  | deleted ps => exact .inr (by show py!"deleted.txt" ≠ py!"member-bags.tsv"; decide)

/-- C133: the same for the lookups. -/
theorem C133_same_lookup (tree : Tree) (info : Info) (o : Metadata info) (c : ι → ListText) (l : List (ι × Nat))
    (d : List (Str × Str)) (hn : (dkeys d).Nodup) (hc : ∀ p ∈ d, Clean p.1 ∧ Clean p.2)
    (hb : ∀ p ∈ d.head?, p.1.head? ≠ some bom)
    (hsame : ∀ i d', c i = .lookup d' → d' = d)
    (hend : ∀ i, c i = .lookup d → Underway ((Savers.start tree).run info c l) i →
      AllWritten c ((Savers.start tree).run info c l) i)
    (hone : ∃ i, c i = .lookup d ∧ AllWritten c ((Savers.start tree).run info c l) i) (p : Str) :
    ((HeadBag.open ((Savers.start tree).run info c l).tree info).lookupFile p).1 = .ok (dget d p) := by
  have hS : ∀ j, c j = .lookup d → (c j).name = (ListText.lookup d).name ∧ (c j).text = (ListText.lookup d).text :=
    fun j hj => by rw [hj]; exact ⟨rfl, rfl⟩
  refine savers_lookup_read o hn hc hb ((sameText_end (S := fun j => c j = .lookup d) hS
    (sameText_run hS l (fun x _ => ?_) (sameText_start ..)) hend hone).resolve_right
    (fun ⟨⟨j, j1, j2⟩, _⟩ => by rw [j1] at j2; cases j2)) p
  cases h : c x.1 with
  | lookup d' => exact .inl (by rw [hsame _ _ h])
  | members ms => exact .inr (by show py!"member-bags.tsv" ≠ py!"file-lookup.tsv"; decide)
  | deleted ps => exact .inr (by show py!"deleted.txt" ≠ py!"file-lookup.tsv"; decide)

/-- C133 (partial): the same for the deleted paths, also if there are none and the file is removed by some while others
write.  Missing: processes that go through the set in different orders, for which this is not ensured
(`C133_negation_order`). -/
theorem C133_same_deleted_partial (tree : Tree) (info : Info) (c : ι → ListText) (l : List (ι × Nat))
    (ps : List Str) (hn : ps.Nodup) (hc : ∀ p ∈ ps, Clean p) (hb : ∀ p ∈ ps.head?, p.head? ≠ some bom)
    (hsame : ∀ i ps', c i = .deleted ps' → ps' = ps)
    (hend : ∀ i, c i = .deleted ps → Underway ((Savers.start tree).run info c l) i →
      AllWritten c ((Savers.start tree).run info c l) i)
    (hone : ∃ i, c i = .deleted ps ∧ AllWritten c ((Savers.start tree).run info c l) i) :
    ((HeadBag.open ((Savers.start tree).run info c l).tree info).deletedPaths).1 = .ok ps := by
  have hS : ∀ j, c j = .deleted ps → (c j).name = (ListText.deleted ps).name ∧ (c j).text = (ListText.deleted ps).text :=
    fun j hj => by rw [hj]; exact ⟨rfl, rfl⟩
  refine savers_deleted_read hn hc hb ((sameText_end (S := fun j => c j = .deleted ps) hS
    (sameText_run hS l (fun x _ => ?_) (sameText_start ..)) hend hone).imp id
    (fun ⟨⟨j, j1, j2⟩, h⟩ => ⟨deleted_removes (j1 ▸ j2), h⟩))
  cases h : c x.1 with
  | members ms => exact .inr (by show py!"member-bags.tsv" ≠ py!"deleted.txt"; decide)
  | lookup d => exact .inr (by show py!"file-lookup.tsv" ≠ py!"deleted.txt"; decide)
  | deleted ps' => exact .inl (by rw [hsame _ _ h])

/-! ## One after the other -/

/-- C133: a process that opens the file after everybody else has stopped writing member lists, whatever they have done to
it and to the directory: when it is done, its list is the member list. -/
theorem C133_later_members (tree : Tree) (info : Info) (o : Metadata info) (c : ι → ListText) (before l : List (ι × Nat)) (i : ι)
    (ms : List MemberInfo) (hi : c i = .members ms) (hc : ∀ m ∈ ms, CleanMember m)
    (hb : ∀ m ∈ ms.head?, m.name.head? ≠ some bom) (hno : ¬ Underway ((Savers.start tree).run info c before) i)
    (hl : ∀ x ∈ l, x.1 = i ∨ (c x.1).name ≠ (c i).name)
    (hend : AllWritten c (((Savers.start tree).run info c before).run info c l) i) :
    ((HeadBag.open (((Savers.start tree).run info c before).run info c l).tree info).memberBags).1 = .ok ms := by
  have hS : ∀ j, j = i → (c j).name = (ListText.members ms).name ∧ (c j).text = (ListText.members ms).text :=
    fun j hj => by rw [hj, hi]; exact ⟨rfl, rfl⟩
  rw [hi] at hl
  exact savers_members_read o hc hb ((sameText_end (S := fun j => j = i) hS (sameText_run hS l hl
    (sameText_begin _ _ _ _ _ _ i hno)) (fun j hj _ => hj ▸ hend) ⟨i, rfl, hend⟩).resolve_right
    (fun ⟨⟨j, j1, j2⟩, _⟩ => by rw [j1, hi] at j2; cases j2))

/-- C133: the same for the lookups. -/
theorem C133_later_lookup (tree : Tree) (info : Info) (o : Metadata info) (c : ι → ListText) (before l : List (ι × Nat)) (i : ι)
    (d : List (Str × Str)) (hi : c i = .lookup d) (hn : (dkeys d).Nodup) (hc : ∀ p ∈ d, Clean p.1 ∧ Clean p.2)
    (hb : ∀ p ∈ d.head?, p.1.head? ≠ some bom) (hno : ¬ Underway ((Savers.start tree).run info c before) i)
    (hl : ∀ x ∈ l, x.1 = i ∨ (c x.1).name ≠ (c i).name)
    (hend : AllWritten c (((Savers.start tree).run info c before).run info c l) i) (p : Str) :
    ((HeadBag.open (((Savers.start tree).run info c before).run info c l).tree info).lookupFile p).1 = .ok (dget d p) := by
  have hS : ∀ j, j = i → (c j).name = (ListText.lookup d).name ∧ (c j).text = (ListText.lookup d).text :=
    fun j hj => by rw [hj, hi]; exact ⟨rfl, rfl⟩
  rw [hi] at hl
  exact savers_lookup_read o hn hc hb ((sameText_end (S := fun j => j = i) hS (sameText_run hS l hl
    (sameText_begin _ _ _ _ _ _ i hno)) (fun j hj _ => hj ▸ hend) ⟨i, rfl, hend⟩).resolve_right
    (fun ⟨⟨j, j1, j2⟩, _⟩ => by rw [j1, hi] at j2; cases j2)) p

/-- C133: the same for the deleted paths. -/
theorem C133_later_deleted (tree : Tree) (info : Info) (c : ι → ListText) (before l : List (ι × Nat)) (i : ι)
    (ps : List Str) (hi : c i = .deleted ps) (hn : ps.Nodup) (hc : ∀ p ∈ ps, Clean p) (hb : ∀ p ∈ ps.head?, p.head? ≠ some bom)
    (hno : ¬ Underway ((Savers.start tree).run info c before) i)
    (hl : ∀ x ∈ l, x.1 = i ∨ (c x.1).name ≠ (c i).name)
    (hend : AllWritten c (((Savers.start tree).run info c before).run info c l) i) :
    ((HeadBag.open (((Savers.start tree).run info c before).run info c l).tree info).deletedPaths).1 = .ok ps := by
  have hS : ∀ j, j = i → (c j).name = (ListText.deleted ps).name ∧ (c j).text = (ListText.deleted ps).text :=
    fun j hj => by rw [hj, hi]; exact ⟨rfl, rfl⟩
  rw [hi] at hl
  exact savers_deleted_read hn hc hb ((sameText_end (S := fun j => j = i) hS (sameText_run hS l hl
    (sameText_begin _ _ _ _ _ _ i hno)) (fun j hj _ => hj ▸ hend) ⟨i, rfl, hend⟩).imp id
    (fun ⟨⟨j, j1, j2⟩, h⟩ => ⟨by rw [j1, hi] at j2; exact deleted_removes j2, h⟩))

/-! ## A process alone does what the call does -/

/-- C133: when only one process acts, in any number of pieces, the directory ends as the call `save_member_bags` leaves it,
and an exception is the one of the call. -/
theorem C133_alone_members (s : HeadBag) (ms : List MemberInfo) (hm : s.members = some ms)
    (hf : (HeadBag.membersWritten ms).2 = .ok ()) (c : ι → ListText) (i : ι) (hi : c i = .members ms)
    (l : List (ι × Nat)) (hl : ∀ x ∈ l, x.1 = i) :
    (AllWritten c ((Savers.start s.tree).run s.info c l) i →
      s.saveMemberBags = (.ok (), { s with tree := ((Savers.start s.tree).run s.info c l).tree })) ∧
    ∀ e, ((Savers.start s.tree).run s.info c l).pc i = .failed e →
      s.saveMemberBags = (.error e, { s with tree := ((Savers.start s.tree).run s.info c l).tree }) := by
  have v := savedAlone_run (s := s) (c := c) (i := i) l (w := Savers.start s.tree) hl rfl
  rw [hi] at v
  rcases hw : HeadBag.membersWritten ms with ⟨x, r⟩
  rw [hw] at hf
  have hf : r = .ok () := hf
  subst hf
  constructor
  · intro h
    rcases h with h | h
    case inr => rw [h] at v; exact v.elim
    rw [h, hi] at v
    obtain ⟨t0, t, v0, v1, v2, v3⟩ := v
    have v0 : s.tree = t0 := Except.ok.inj v0
    subst v0
    have v1 : s.ensureTagdir = _ := v1
    rw [List.take_length] at v3
    have e : (ListText.members ms).text = x := by show (HeadBag.membersWritten ms).1 = x; rw [hw]
    rw [e] at v3
    have v3 : t.write (tagFile (tagDir s.info) py!"member-bags.tsv") x = _ := v3
    simp only [HeadBag.saveMemberBags, hm, v1, hw, v3]
  · intro e h
    rw [h] at v
    rcases v with ⟨v1, _⟩ | ⟨v1, v2⟩ | ⟨t0, v0, v1, v2⟩
    · cases v1
    · have v1 : s.tree = _ := Except.ok.inj v1
      rw [← v1] at v2 ⊢
      have v2 : s.ensureTagdir = (.error e, s) := v2
      show s.saveMemberBags = (.error e, s)
      simp only [HeadBag.saveMemberBags, hm, v2]
    · have v0 : s.tree = t0 := Except.ok.inj v0
      subst v0
      have v1 : s.ensureTagdir = _ := v1
      have v2 := v2 x
      have v2 : Tree.write _ (tagFile (tagDir s.info) py!"member-bags.tsv") x = _ := v2
      simp only [HeadBag.saveMemberBags, hm, v1, hw, v2]

/-- C133: the same for `save_file_lookup`. -/
theorem C133_alone_lookup (s : HeadBag) (d : List (Str × Str)) (hm : s.lookup = some d) (c : ι → ListText) (i : ι)
    (hi : c i = .lookup d) (l : List (ι × Nat)) (hl : ∀ x ∈ l, x.1 = i) :
    (AllWritten c ((Savers.start s.tree).run s.info c l) i →
      s.saveFileLookup = (.ok (), { s with tree := ((Savers.start s.tree).run s.info c l).tree })) ∧
    ∀ e, ((Savers.start s.tree).run s.info c l).pc i = .failed e →
      s.saveFileLookup = (.error e, { s with tree := ((Savers.start s.tree).run s.info c l).tree }) := by
  have v := savedAlone_run (s := s) (c := c) (i := i) l (w := Savers.start s.tree) hl rfl
  rw [hi] at v
  constructor
  · intro h
    rcases h with h | h
    case inr => rw [h] at v; exact v.elim
    rw [h, hi] at v
    obtain ⟨t0, t, v0, v1, v2, v3⟩ := v
    have v0 : s.tree = t0 := Except.ok.inj v0
    subst v0
    have v1 : s.ensureTagdir = _ := v1
    rw [List.take_length] at v3
    have v3 : t.write (tagFile (tagDir s.info) py!"file-lookup.tsv") (lookupText d) = _ := v3
    simp only [HeadBag.saveFileLookup, hm, v1, v3]
  · intro e h
    rw [h] at v
    rcases v with ⟨v1, _⟩ | ⟨v1, v2⟩ | ⟨t0, v0, v1, v2⟩
    · cases v1
    · have v1 : s.tree = _ := Except.ok.inj v1
      rw [← v1] at v2 ⊢
      have v2 : s.ensureTagdir = (.error e, s) := v2
      show s.saveFileLookup = (.error e, s)
      simp only [HeadBag.saveFileLookup, hm, v2]
    · have v0 : s.tree = t0 := Except.ok.inj v0
      subst v0
      have v1 : s.ensureTagdir = _ := v1
      have v2 : Tree.write _ (tagFile (tagDir s.info) py!"file-lookup.tsv") (lookupText d) = _ := v2 (lookupText d)
      simp only [HeadBag.saveFileLookup, hm, v1, v2]

/-- What is done first when there are no deleted paths. -/
theorem saveDeleted_emptied (s : HeadBag) (ps : List Str) (hm : s.deleted = some ps) (enum : List Str → List Str)
    (he : (enum ps).Perm ps) : s.saveDeleted enum = match emptiedBy s (.deleted (enum ps)) with
      | .error e => (.error e, s)
      | .ok t0 => match ({ s with tree := t0 } : HeadBag).ensureTagdir with
        | (.error e, s') => (.error e, s')
        | (.ok _, s') => match s'.tree.write (deletedFile s.info) (deletedText (enum ps)) with
          | .error e => (.error e, s')
          | .ok t => (.ok (), { s' with tree := t }) := by
  have hr : (ListText.deleted (enum ps)).removes = decide (ps = []) := by
    cases ps with
    | nil => rw [List.perm_nil.1 he]; rfl
    | cons p ps =>
      cases hq : enum (p :: ps) with
      | nil => rw [hq] at he; exact absurd he.symm (by simp)
      | cons q qs => rfl
  obtain ⟨tree, info, members, lookup, deleted⟩ := s
  have hm : deleted = some ps := hm
  subst hm
  have hw : tagFile (tagDir info) (ListText.deleted (enum ps)).name = deletedFile info := rfl
  simp only [HeadBag.saveDeleted, emptiedBy, hr, hw, Bool.and_eq_true, decide_eq_true_eq]
  by_cases hc : ps = [] ∧ tree.exists (deletedFile info) = true
  · simp only [if_pos hc]
    cases tree.remove (deletedFile info) <;> rfl
  · simp only [if_neg hc]
    rfl

/-- C133: the same for `save_deleted`, in whatever order it goes through the set. -/
theorem C133_alone_deleted (s : HeadBag) (ps : List Str) (hm : s.deleted = some ps) (enum : List Str → List Str)
    (he : (enum ps).Perm ps) (c : ι → ListText) (i : ι)
    (hi : c i = .deleted (enum ps)) (l : List (ι × Nat)) (hl : ∀ x ∈ l, x.1 = i) :
    (AllWritten c ((Savers.start s.tree).run s.info c l) i →
      s.saveDeleted enum = (.ok (), { s with tree := ((Savers.start s.tree).run s.info c l).tree })) ∧
    ∀ e, ((Savers.start s.tree).run s.info c l).pc i = .failed e →
      s.saveDeleted enum = (.error e, { s with tree := ((Savers.start s.tree).run s.info c l).tree }) := by
  have v := savedAlone_run (s := s) (c := c) (i := i) l (w := Savers.start s.tree) hl rfl
  rw [hi] at v
  rw [saveDeleted_emptied s ps hm enum he]
  constructor
  · intro h
    rcases h with h | h
    case inr => rw [h] at v; exact v.elim
    rw [h, hi] at v
    obtain ⟨t0, t, v0, v1, v2, v3⟩ := v
    rw [List.take_length] at v3
    have v3 : t.write (deletedFile s.info) (deletedText (enum ps)) = _ := v3
    simp only [v0, v1, v3]
  · intro e h
    rw [h] at v
    rcases v with ⟨v1, v2⟩ | ⟨v1, v2⟩ | ⟨t0, v0, v1, v2⟩
    · rw [v2]; simp only [v1]
    · simp only [v1, v2]
    · have v2 : Tree.write _ (deletedFile s.info) (deletedText (enum ps)) = _ := v2 (deletedText (enum ps))
      simp only [v0, v1, v2]

/-! ## Any lists -/

/-- C133: whatever is saved and in whatever order, nothing changes but the files of the lists that are saved, and the tag
directory, which stays as it is if it is there. -/
theorem C133_elsewhere (tree : Tree) (info : Info) (c : ι → ListText) (l : List (ι × Nat)) (p : Path)
    (h : ∀ x ∈ l, p ≠ tagFile (tagDir info) (c x.1).name)
    (hd : p = comps (tagDir info) → dget tree p ≠ none) :
    dget ((Savers.start tree).run info c l).tree p = dget tree p := by
  suffices key : ∀ (w : Savers ι), dget w.tree p = dget tree p → dget (w.run info c l).tree p = dget tree p from
    key _ rfl
  induction l with
  | nil => exact fun w hw => hw
  | cons x l ih =>
    intro w hw
    rw [run_cons]
    refine ih (fun y hy => h y (List.mem_cons_of_mem _ hy)) _ ?_
    have hx := h x (List.mem_cons_self ..)
    by_cases hp : p = comps (tagDir info)
    · cases step_does info c w x.1 x.2 with
      | rest h => rw [h]; exact hw
      | dir h h0 => rw [← hp, hw] at h0; exact absurd h0 (hd hp)
      | opened h => rw [h, dget_dset, if_neg (fun e => hx e.symm)]; exact hw
      | removed h => rw [h, dget_ddel, if_neg (fun e => hx e.symm)]; exact hw
      | wrote k f _ _ h => rw [h, dget_dset, if_neg (fun e => hx e.symm)]; exact hw
    · rw [step_same_at info c w x.1 x.2 hx hp]; exact hw

/-- C133 (partial): at every moment, the file of a list is as before, or is not there, or every character in it is at its place in one of
the lists that are being saved, or is a NUL character that fills a gap.  Missing: that the file is one of the lists in
the end, which is not ensured (`C133_negation_mixed`). -/
theorem C133_characters_partial (tree : Tree) (info : Info) (c : ι → ListText) (l : List (ι × Nat)) (a : ListText) :
    dget ((Savers.start tree).run info c l).tree (tagFile (tagDir info) a.name) = dget tree (tagFile (tagDir info) a.name) ∨
    dget ((Savers.start tree).run info c l).tree (tagFile (tagDir info) a.name) = none ∨
    ∃ f, dget ((Savers.start tree).run info c l).tree (tagFile (tagDir info) a.name) = some (.file f) ∧
      ∀ (j : Nat) (ch : Char), f[j]? = some ch → ch = '\x00' ∨
        ∃ i, (c i).name = a.name ∧ Underway ((Savers.start tree).run info c l) i ∧ (c i).text[j]? = some ch := by
  have v := fromSome_run (info := info) (c := c) (a := a) (t0 := tree) l (w := Savers.start tree)
    ⟨.inl ⟨rfl, fun i _ ⟨k, e⟩ => by (rcases e with e | e <;> cases e)⟩⟩
  exact v.src.imp And.left id

/-- C133 (partial): nobody gets an exception when the tag directory is there already and nobody saves an empty set of
deleted paths.  Missing: bags without a tag directory, for which this is not ensured (`C133_negation_race`), and empty
sets of deleted paths, neither (`C133_negation_removed_twice`). -/
theorem C133_no_failure_partial (tree : Tree) (info : Info) (c : ι → ListText) (l : List (ι × Nat))
    (hd : tree.isdir (comps (tagDir info)) = true) (hne : ∀ i, c i ≠ .deleted [])
    (hf : ∀ i, tree.isdir (tagFile (tagDir info) (c i).name) = false) (i : ι) (e : PyErr) :
    ((Savers.start tree).run info c l).pc i ≠ .failed e :=
by
  refine ((allWell_run l (w := Savers.start tree) ⟨hd, hf, fun i => ?_,
    fun i => ⟨fun z => by (cases z), fun z => by (cases z), fun e z => by (cases z)⟩⟩).pc i).2.2 e
  cases h : c i with
  | members ms => rfl
  | lookup d => rfl
  | deleted ps =>
    cases ps with
    | nil => exact absurd h (hne i)
    | cons p ps => rfl

end

/-! ## Concrete cases -/

namespace Sample

/-- A list with two bags. -/
def listA : List MemberInfo := [⟨py!"abcd", none, none, []⟩, ⟨py!"ef", none, none, []⟩]

/-- A list with one bag. -/
def listB : List MemberInfo := [⟨py!"xy", none, none, []⟩]

/-- The processes 0 and 1 save the first list, 2 saves a lookup. -/
def three : Fin 3 → ListText
  | 0 => .members listA
  | 1 => .members listA
  | 2 => .lookup [(py!"data/x", py!"ef")]

/-- 0 has written three characters when 1 empties the file, which leaves a gap when 0 goes on; 2 gets in between. -/
def turns : List (Fin 3 × Nat) :=
  [(0, 0), (0, 0), (0, 0), (0, 3), (1, 0), (2, 0), (2, 0), (1, 0), (1, 0), (0, 2), (2, 0), (1, 4), (2, 100), (0, 100), (1, 100)]

/-- One saves the first list and the other one the second. -/
def twoLists : Bool → ListText
  | true => .members listA
  | false => .members listB

/-- Two processes that save the same deleted paths, in different orders. -/
def twoOrders : Bool → ListText
  | true => .deleted [py!"data/a", py!"data/bcd"]
  | false => .deleted [py!"data/bcd", py!"data/a"]

/-- Two processes that save the same deleted paths in the same order. -/
def oneOrder : Bool → ListText := fun _ => .deleted [py!"data/a", py!"data/bcd"]

/-- Two processes that save an empty set of deleted paths. -/
def noneDeleted : Bool → ListText := fun _ => .deleted []

theorem oneOrder_clean : ∀ p ∈ [py!"data/a", py!"data/bcd"], Clean p := by
  intro p h
  simp only [List.mem_cons, List.not_mem_nil, or_false] at h
  rcases h with rfl | rfl
  all_goals exact clean_of_check (by decide)

theorem listA_clean : ∀ m ∈ listA, CleanMember m ∧ m.name.head? ≠ some bom := by
  intro m h
  simp only [listA, List.mem_cons, List.not_mem_nil, or_false] at h
  rcases h with rfl | rfl
  all_goals exact clean_member (by decide) (by decide)

theorem listB_clean : ∀ m ∈ listB, CleanMember m ∧ m.name.head? ≠ some bom := by
  intro m h
  simp only [listB, List.mem_cons, List.not_mem_nil, or_false] at h
  rw [h]
  exact clean_member (by decide) (by decide)

end Sample

/-- C133: two processes save different lists, none of them gets an exception, and in the end the member list begins as
one of them and goes on as the other one, with a bag in it that is in neither. -/
theorem C133_negation_mixed :
    ∃ (l : List (Bool × Nat)), let w := (Savers.start Sample.tree).run Sample.info Sample.twoLists l
      AllWritten Sample.twoLists w true ∧ AllWritten Sample.twoLists w false ∧
      ((HeadBag.open w.tree Sample.info).memberBags).1 =
        .ok [⟨py!"xy", none, none, []⟩, ⟨py!"d", none, none, []⟩, ⟨py!"ef", none, none, []⟩] :=
  ⟨[(true, 0), (false, 0), (true, 0), (false, 0), (true, 0), (false, 0), (true, 100), (false, 100)], by decide +kernel, by decide +kernel, by decide +kernel⟩

/-- C133: a bag without a tag directory.  Each of two processes could save its list.  Both find the directory missing,
and the one that comes second to create it gets an exception. -/
theorem C133_negation_race :
    (HeadBag.saveMemberBags { HeadBag.open [] Sample.info with members := some Sample.listA }).1 = .ok () ∧
    (HeadBag.saveMemberBags { HeadBag.open [] Sample.info with members := some Sample.listB }).1 = .ok () ∧
    ∃ (l : List (Bool × Nat)), ((Savers.start []).run Sample.info Sample.twoLists l).pc false = .failed .osError :=
  ⟨by decide +kernel, by decide +kernel, [(true, 0), (false, 0), (true, 0), (false, 0), (true, 0), (false, 0)], by decide +kernel⟩

/-- C133: two processes save the same set of deleted paths and go through it in different orders, none of them gets an
exception, and in the end a path of the set is missing and one is there that nobody deleted. -/
theorem C133_negation_order :
    (∀ i, ∃ ps, Sample.twoOrders i = .deleted ps ∧ ps.Perm [py!"data/a", py!"data/bcd"]) ∧
    ∃ (l : List (Bool × Nat)), let w := (Savers.start Sample.tree).run Sample.info Sample.twoOrders l
      AllWritten Sample.twoOrders w true ∧ AllWritten Sample.twoOrders w false ∧
      ((HeadBag.open w.tree Sample.info).deletedPaths).1 = .ok [py!"data/a", py!"d"] :=
  ⟨fun i => by
    match i with
    | true => exact ⟨_, rfl, .refl _⟩
    | false => exact ⟨_, rfl, .swap ..⟩,
   [(true, 0), (false, 0), (true, 0), (false, 0), (true, 0), (false, 0), (false, 7), (true, 100), (false, 100)],
   by decide +kernel, by decide +kernel, by decide +kernel⟩

/-- C133: each of two processes could save its empty set of deleted paths.  Both find the file there, and the one that
comes second to remove it gets an exception. -/
theorem C133_negation_removed_twice :
    (HeadBag.saveDeleted { HeadBag.open Sample.tree Sample.info with deleted := some [] }).1 = .ok () ∧
    ∃ (l : List (Bool × Nat)), ((Savers.start Sample.tree).run Sample.info Sample.noneDeleted l).pc false = .failed .osError :=
  ⟨by decide +kernel, [(true, 0), (false, 0), (true, 0), (false, 0)], by decide +kernel⟩

/-- `C133_same_deleted_partial`. -/
example : ((HeadBag.open ((Savers.start Sample.tree).run Sample.info Sample.oneOrder
    [(true, 0), (false, 0), (true, 0), (false, 0), (true, 0), (false, 0), (false, 7), (true, 100), (false, 100)]).tree
    Sample.info).deletedPaths).1 = .ok [py!"data/a", py!"data/bcd"] :=
  C133_same_deleted_partial Sample.tree Sample.info Sample.oneOrder _ [py!"data/a", py!"data/bcd"] (by decide)
    Sample.oneOrder_clean (fun p h => by
      have e : py!"data/a" = p := Option.some.inj h
      rw [← e]
      decide)
    (fun i ps h => by injection h with h; exact h.symm)
    (fun i _ _ => by
      match i with
      | true => decide +kernel
      | false => decide +kernel)
    ⟨true, rfl, by decide +kernel⟩

/-- `C133_same_deleted_partial`: one has found the old file, and then removes the one that the other process has
created in the meantime and has open. -/
example : ((HeadBag.open ((Savers.start Sample.tree).run Sample.info Sample.noneDeleted
    [(true, 0), (false, 0), (true, 0), (true, 0), (true, 0), (false, 0)]).tree
    Sample.info).deletedPaths).1 = .ok [] :=
  C133_same_deleted_partial Sample.tree Sample.info Sample.noneDeleted _ [] (by decide)
    (fun p h => by cases h) (fun p h => by cases h)
    (fun i ps h => by injection h with h; exact h.symm)
    (fun i _ h => by
      match i with
      | true => decide +kernel
      | false =>
        obtain ⟨k, e | e⟩ := h
        · cases e
        · cases e)
    ⟨true, rfl, by decide +kernel⟩

/-- `C133_later_deleted`: no path is deleted, after another list. -/
example : ((HeadBag.open (((Savers.start Sample.tree).run Sample.info (fun i : Bool => if i then .deleted [py!"data/a"] else .deleted [])
    [(true, 0), (true, 0), (true, 0), (true, 3)]).run Sample.info (fun i : Bool => if i then .deleted [py!"data/a"] else .deleted [])
    [(false, 0), (false, 0), (false, 0), (false, 0)]).tree Sample.info).deletedPaths).1 = .ok [] :=
  C133_later_deleted Sample.tree Sample.info (fun i : Bool => if i then .deleted [py!"data/a"] else .deleted []) _ _ false [] rfl
    (by decide) (fun p h => by cases h) (fun p h => by cases h)
    (fun ⟨k, e⟩ => by (rcases e with e | e <;> cases e))
    (fun x hx => by
      simp only [List.mem_cons, List.not_mem_nil, or_false] at hx
      rcases hx with rfl | rfl | rfl | rfl <;> exact .inl rfl)
    (by decide +kernel)

/-- `C133_alone_deleted`, with an empty set and a file. -/
example : HeadBag.saveDeleted { HeadBag.open Sample.tree Sample.info with deleted := some [] } = (.ok (),
    { HeadBag.open Sample.tree Sample.info with deleted := some [], tree := ((Savers.start Sample.tree).run Sample.info Sample.noneDeleted
      [(true, 0), (true, 0), (true, 0), (true, 0)]).tree }) :=
  (C133_alone_deleted { HeadBag.open Sample.tree Sample.info with deleted := some [] } [] rfl id (.refl _) Sample.noneDeleted true rfl
    [(true, 0), (true, 0), (true, 0), (true, 0)] (fun x hx => by
      simp only [List.mem_cons, List.not_mem_nil, or_false] at hx
      rcases hx with rfl | rfl | rfl | rfl <;> rfl)).1 (by decide +kernel)

/-- The gap of the first is filled in the meantime. -/
example : dget ((Savers.start Sample.tree).run Sample.info Sample.three (Sample.turns.take 10)).tree
    [py!"multibag", py!"member-bags.tsv"] = some (.file py!"\x00\x00\x00d\n") := by decide +kernel

/-- `C133_same_members`. -/
example : ((HeadBag.open ((Savers.start Sample.tree).run Sample.info Sample.three Sample.turns).tree Sample.info).memberBags).1 =
    .ok Sample.listA :=
  C133_same_members Sample.tree Sample.info Sample.metadata Sample.three Sample.turns Sample.listA
    (fun m h => (Sample.listA_clean m h).1) (fun m h => (Sample.listA_clean m (mem_of_mem_head? h)).2)
    (fun i ms h => by
      match i with
      | 0 => injection h with h; exact h.symm
      | 1 => injection h with h; exact h.symm
      | 2 => cases h)
    (fun i h _ => by
      match i with
      | 0 => decide +kernel
      | 1 => decide +kernel
      | 2 => cases h)
    ⟨0, rfl, by decide +kernel⟩

/-- `C133_same_lookup`, at the same time. -/
example (p : Str) : ((HeadBag.open ((Savers.start Sample.tree).run Sample.info Sample.three Sample.turns).tree Sample.info).lookupFile p).1 =
    .ok (dget [(py!"data/x", py!"ef")] p) :=
  C133_same_lookup Sample.tree Sample.info Sample.metadata Sample.three Sample.turns [(py!"data/x", py!"ef")] (by decide)
    (fun q h => by rw [List.mem_singleton.1 h]; exact ⟨clean_of_check (by decide), clean_of_check (by decide)⟩)
    (fun q h => by
      have e : (py!"data/x", py!"ef") = q := Option.some.inj h
      rw [← e]
      decide)
    (fun i d h => by
      match i with
      | 0 => cases h
      | 1 => cases h
      | 2 => injection h with h; exact h.symm)
    (fun i h _ => by
      match i with
      | 0 => cases h
      | 1 => cases h
      | 2 => decide +kernel)
    ⟨2, rfl, by decide +kernel⟩ p

/-- `C133_later_members`: the first is stopped for good in the middle of its list. -/
example : ((HeadBag.open (((Savers.start Sample.tree).run Sample.info Sample.twoLists [(true, 0), (true, 0), (true, 0), (true, 3)]).run Sample.info Sample.twoLists
    [(false, 0), (false, 0), (false, 0), (false, 2), (false, 2)]).tree Sample.info).memberBags).1 = .ok Sample.listB :=
  C133_later_members Sample.tree Sample.info Sample.metadata Sample.twoLists _ _ false Sample.listB rfl
    (fun m h => (Sample.listB_clean m h).1) (fun m h => (Sample.listB_clean m (mem_of_mem_head? h)).2)
    (fun ⟨k, e⟩ => by (rcases e with e | e <;> cases e))
    (fun x hx => by
      simp only [List.mem_cons, List.not_mem_nil, or_false] at hx
      rcases hx with rfl | rfl | rfl | rfl | rfl <;> exact .inl rfl)
    (by decide +kernel)

/-- `C133_later_lookup`: 2 begins after the others. -/
example (p : Str) : ((HeadBag.open (((Savers.start Sample.tree).run Sample.info Sample.three [(0, 0), (0, 0), (0, 0), (0, 3)]).run Sample.info Sample.three
    [(2, 0), (2, 0), (1, 0), (2, 0), (2, 7), (2, 7)]).tree Sample.info).lookupFile p).1 = .ok (dget [(py!"data/x", py!"ef")] p) :=
  C133_later_lookup Sample.tree Sample.info Sample.metadata Sample.three _ _ 2 [(py!"data/x", py!"ef")] rfl (by decide)
    (fun q h => by rw [List.mem_singleton.1 h]; exact ⟨clean_of_check (by decide), clean_of_check (by decide)⟩)
    (fun q h => by
      have e : (py!"data/x", py!"ef") = q := Option.some.inj h
      rw [← e]
      decide)
    (fun ⟨k, e⟩ => by (rcases e with e | e <;> cases e))
    (fun x hx => by
      simp only [List.mem_cons, List.not_mem_nil, or_false] at hx
      rcases hx with rfl | rfl | rfl | rfl | rfl | rfl
      · exact .inl rfl
      · exact .inl rfl
      · exact .inr (by decide)
      · exact .inl rfl
      · exact .inl rfl
      · exact .inl rfl)
    (by decide +kernel) p

/-- `C133_alone_members`, on a bag without a tag directory. -/
example : HeadBag.saveMemberBags { HeadBag.open [] Sample.info with members := some Sample.listA } = (.ok (),
    { HeadBag.open [] Sample.info with members := some Sample.listA, tree := ((Savers.start []).run Sample.info Sample.twoLists
      [(true, 0), (true, 0), (true, 0), (true, 0), (true, 3), (true, 5)]).tree }) :=
  (C133_alone_members { HeadBag.open [] Sample.info with members := some Sample.listA } Sample.listA rfl rfl Sample.twoLists true rfl
    [(true, 0), (true, 0), (true, 0), (true, 0), (true, 3), (true, 5)] (fun x hx => by
      simp only [List.mem_cons, List.not_mem_nil, or_false] at hx
      rcases hx with rfl | rfl | rfl | rfl | rfl | rfl <;> rfl)).1 (by decide +kernel)

/-- `C133_alone_lookup`. -/
example : HeadBag.saveFileLookup { HeadBag.open [] Sample.info with lookup := some [(py!"data/x", py!"ef")] } = (.ok (),
    { HeadBag.open [] Sample.info with lookup := some [(py!"data/x", py!"ef")], tree := ((Savers.start []).run Sample.info Sample.three
      [(2, 0), (2, 0), (2, 0), (2, 0), (2, 3), (2, 50)]).tree }) :=
  (C133_alone_lookup { HeadBag.open [] Sample.info with lookup := some [(py!"data/x", py!"ef")] } _ rfl Sample.three 2 rfl
    [(2, 0), (2, 0), (2, 0), (2, 0), (2, 3), (2, 50)] (fun x hx => by
      simp only [List.mem_cons, List.not_mem_nil, or_false] at hx
      rcases hx with rfl | rfl | rfl | rfl | rfl | rfl <;> rfl)).1 (by decide +kernel)

/-- `C133_elsewhere`: the deleted paths. -/
example : dget ((Savers.start Sample.tree).run Sample.info Sample.three Sample.turns).tree [py!"multibag", py!"deleted.txt"] =
    some (.file py!"data/old\n") :=
  C133_elsewhere Sample.tree Sample.info Sample.three Sample.turns _ (fun x _ => by
    have h : ∀ i, [py!"multibag", py!"deleted.txt"] ≠ tagFile (tagDir Sample.info) (Sample.three i).name := by decide
    exact h x.1) (fun e => absurd e (by decide))

/-- `C133_no_failure_partial`. -/
example (l : List (Fin 3 × Nat)) (i : Fin 3) (e : PyErr) : ((Savers.start Sample.tree).run Sample.info Sample.three l).pc i ≠ .failed e :=
  C133_no_failure_partial Sample.tree Sample.info Sample.three l (by decide) (fun i => by
    match i with
    | 0 => exact fun h => by cases h
    | 1 => exact fun h => by cases h
    | 2 => exact fun h => by cases h) (fun i => by
    match i with
    | 0 => decide
    | 1 => decide
    | 2 => decide) i e

end Verif
