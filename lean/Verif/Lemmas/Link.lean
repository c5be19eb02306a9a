import Verif.Lemmas.Apply
/-!
# Linking has the effect of copying

as long as no linked file is written to.
-/

namespace Verif
open Verif.Spec

theorem view_append (data : Nat → Str) (a b : LTree) :
    LTree.view data (a ++ b) = LTree.view data a ++ LTree.view data b := by simp [LTree.view]

theorem dget_view (data : Nat → Str) (t : LTree) (p : Path) :
    dget (LTree.view data t) p = (dget t p).map (LNode.view data) := by
  induction t with
  | nil => rfl
  | cons e t ih =>
    obtain ⟨q, n⟩ := e
    show dget ((q, n.view data) :: LTree.view data t) p = _
    simp only [dget]
    split
    · rfl
    · exact ih

theorem dkeys_view (data : Nat → Str) (t : LTree) : dkeys (LTree.view data t) = dkeys t := by
  simp [LTree.view, dkeys]

theorem view_dset (data : Nat → Str) (t : LTree) (p : Path) (n : LNode) :
    LTree.view data (dset t p n) = dset (LTree.view data t) p (n.view data) := by
  induction t with
  | nil => rfl
  | cons e t ih =>
    obtain ⟨q, m⟩ := e
    show LTree.view data (dset ((q, m) :: t) p n) = dset ((q, m.view data) :: LTree.view data t) p (n.view data)
    simp only [dset]
    split
    · rfl
    · show (q, m.view data) :: LTree.view data (dset t p n) = _
      rw [ih]

theorem view_congr {data data' : Nat → Str} {t : LTree}
    (h : ∀ p i, (p, LNode.file i) ∈ t → data' i = data i) : LTree.view data' t = LTree.view data t := by
  apply List.map_congr_left
  intro e he
  obtain ⟨q, n⟩ := e
  cases n with
  | dir => rfl
  | file i => simp only [LNode.view, h q i he]

/-- Writing to an inode that has one name only. -/
theorem view_setData {data : Nat → Str} {t : LTree} {p : Path} {i : Nat} {c : Str} (hn : (dkeys t).Nodup)
    (hp : (p, LNode.file i) ∈ t) (hu : ∀ q j, (q, LNode.file j) ∈ t → j = i → q = p) :
    LTree.view (fun j => if j = i then c else data j) t = dset (LTree.view data t) p (.file c) := by
  induction t with
  | nil => cases hp
  | cons e t ih =>
    obtain ⟨q, n⟩ := e
    rw [dkeys, List.map_cons, List.nodup_cons] at hn
    show (q, n.view _) :: LTree.view _ t = dset ((q, n.view data) :: LTree.view data t) p (.file c)
    simp only [dset]
    rcases List.mem_cons.1 hp with h | h
    · cases h
      rw [if_pos rfl]
      simp only [LNode.view, if_true, List.cons.injEq, true_and]
      apply view_congr
      intro q j hq
      rw [if_neg]
      intro e
      have := hu q j (List.mem_cons_of_mem _ hq) e
      subst this
      exact hn.1 (List.mem_map.2 ⟨_, hq, rfl⟩)
    · have hqp : q ≠ p := by
        rintro rfl; exact hn.1 (List.mem_map.2 ⟨_, h, rfl⟩)
      rw [if_neg hqp]
      rw [ih hn.2 h (fun q j hq => hu q j (List.mem_cons_of_mem _ hq))]
      congr 2
      cases n with
      | dir => rfl
      | file j =>
        simp only [LNode.view]
        rw [if_neg]
        intro e; exact hqp (hu q j (List.mem_cons_self ..) e)

/-- The inode `i` is used in `t`. -/
def UsedIn (t : LTree) (i : Nat) : Prop := ∃ p, (p, LNode.file i) ∈ t

/-- A disk with links looks like one with copies.  In the current output bag, the
paths in `L` may be links to the source's files (if links can be made); all other
files there have inodes of their own. -/
structure Sim (L : Path → Prop) (c : CopyDisk) (l : LinkDisk) : Prop where
  src : LTree.view l.data l.src = c.src
  out : LTree.view l.data l.out = c.out
  done : l.done.map (fun e => (e.1, LTree.view l.data e.2)) = c.done
  taken : l.taken = c.taken
  nodup : (dkeys l.out).Nodup
  freshSrc : ∀ i, UsedIn l.src i → i < l.next
  freshOut : ∀ i, UsedIn l.out i → i < l.next
  freshDone : ∀ e ∈ l.done, ∀ i, UsedIn e.2 i → i < l.next
  own : ∀ p i, (p, LNode.file i) ∈ l.out → ¬ (l.canLink = true ∧ L p) →
    ¬ UsedIn l.src i ∧ (∀ e ∈ l.done, ¬ UsedIn e.2 i) ∧ ∀ q, (q, LNode.file i) ∈ l.out → q = p
  link : l.canLink = true → ∀ p i, (p, LNode.file i) ∈ l.out → L p → dget l.src p = some (.file i)

namespace Sim

variable {L : Path → Prop} {c c' : CopyDisk} {l : LinkDisk}

theorem node (s : Sim L c l) (p : Path) : dget c.out p = (dget l.out p).map (LNode.view l.data) := by
  rw [← s.out, dget_view]

theorem isDir (s : Sim L c l) (p : Path) : dget l.out p = some .dir ↔ dget c.out p = some .dir := by
  rw [s.node]
  cases dget l.out p with
  | none => simp
  | some n => cases n <;> simp [LNode.view]

theorem exists_eq (s : Sim L c l) (p : Path) : linkFS.exists_ l p = copyFS.exists_ c p := by
  simp only [linkFS, copyFS, Tree.exists, s.node, Option.isSome_map]

theorem isdir_eq (s : Sim L c l) (p : Path) : linkFS.isdir l p = copyFS.isdir c p := by
  simp only [linkFS, copyFS, Tree.isdir, s.isDir]

theorem read_eq (s : Sim L c l) (p : Path) : linkFS.read l p = copyFS.read c p := by
  simp only [linkFS, copyFS, Tree.read, s.node, LinkDisk.read]
  cases dget l.out p with
  | none => rfl
  | some n => cases n <;> rfl

theorem isfile_eq (s : Sim L c l) (p : Path) : linkFS.isfile l p = copyFS.isfile c p := by
  have := s.read_eq p
  show (l.read p).isSome = c.out.isfile p
  rw [isfile_read]
  exact congrArg Option.isSome this

theorem srcRead_eq (s : Sim L c l) (p : Path) : linkFS.srcRead l p = copyFS.srcRead c p := by
  simp only [linkFS, copyFS, Tree.read, ← s.src, dget_view]
  cases dget l.src p with
  | none => rfl
  | some n => cases n <;> rfl

/-- Adding a directory. -/
theorem addDir (s : Sim L c l) (p : Path) :
    Sim L { c with out := dset c.out p .dir } { l with out := dset l.out p .dir } := by
  have hm : ∀ q i, (q, LNode.file i) ∈ dset l.out p .dir → (q, LNode.file i) ∈ l.out := by
    intro q i h
    have h1 := dget_of_mem (nodup_dset s.nodup p _) h
    rw [dget_dset] at h1
    split at h1
    · cases h1
    · exact mem_of_dget h1
  refine ⟨s.src, ?_, s.done, s.taken, nodup_dset s.nodup _ _, s.freshSrc, ?_, s.freshDone, ?_, ?_⟩
  · simp only [view_dset, s.out]; rfl
  · rintro i ⟨q, h⟩; exact s.freshOut i ⟨q, hm q i h⟩
  · intro q i h hl
    obtain ⟨h1, h2, h3⟩ := s.own q i (hm q i h) hl
    exact ⟨h1, h2, fun q' h' => h3 q' (hm q' i h')⟩
  · intro hc q i h hl; exact s.link hc q i (hm q i h) hl

theorem mkdir_tree (s : Sim L c l) {p : Path} {t : Tree} (h : c.out.mkdir p = .ok t) :
    ∃ u, l.out.mkdir p = .ok u ∧ Sim L { c with out := t } { l with out := u } := by
  obtain ⟨rfl, he, hd⟩ := Tree.mkdir_ok h
  simp only [Tree.exists, Bool.or_eq_false_iff, decide_eq_false_iff_not, s.node, Option.isSome_map] at he
  have hnone : dget l.out p = none := by
    cases hx : dget l.out p with
    | none => rfl
    | some n => rw [hx] at he; cases he.2
  refine ⟨dset l.out p .dir, ?_, s.addDir p⟩
  unfold LTree.mkdir
  rw [if_neg]
  rw [isdir_iff, ← s.isDir] at hd
  simp only [he.1, hnone, decide_false, Option.isSome_none, Bool.or_self, Bool.false_or,
    Bool.not_eq_true', Bool.or_eq_false_iff, decide_eq_false_iff_not]
  intro h'
  rcases hd with hd | hd
  · exact h'.1 hd
  · exact h'.2 hd

theorem mkdir (s : Sim L c l) {p : Path} (h : copyFS.mkdir c p = .ok c') :
    ∃ l', linkFS.mkdir l p = .ok l' ∧ Sim L c' l' := by
  obtain ⟨e, h1⟩ := lift_ok h
  obtain ⟨u, h2, h3⟩ := s.mkdir_tree h1
  refine ⟨{ l with out := u }, ?_, ?_⟩
  · show l.lift (l.out.mkdir p) = _; rw [h2]; rfl
  · unfold SameBut at e; rw [e]; exact h3

theorem makedirs_tree (s : Sim L c l) {pre rest : Path} {t : Tree} (h : c.out.makedirsFrom pre rest = .ok t) :
    ∃ u, l.out.makedirsFrom pre rest = .ok u ∧ Sim L { c with out := t } { l with out := u } := by
  induction rest generalizing c l pre with
  | nil =>
    simp only [Tree.makedirsFrom, Except.ok.injEq] at h
    subst h
    exact ⟨l.out, rfl, s⟩
  | cons x rest ih =>
    unfold Tree.makedirsFrom at h
    unfold LTree.makedirsFrom
    split at h
    · rename_i hd
      rw [isdir_iff, ← s.isDir] at hd
      rw [if_pos (hd.resolve_left (by simp))]
      exact ih s h
    · rename_i hd
      rw [isdir_iff, ← s.isDir] at hd
      rw [if_neg (fun h => hd (.inr h))]
      split at h
      · cases h
      · rename_i t1 h1
        obtain ⟨u, h2, h3⟩ := s.mkdir_tree h1
        rw [h2]
        exact ih h3 h

theorem makedirs (s : Sim L c l) {p : Path} (h : copyFS.makedirs c p = .ok c') :
    ∃ l', linkFS.makedirs l p = .ok l' ∧ Sim L c' l' := by
  obtain ⟨e, h1⟩ := lift_ok h
  obtain ⟨u, h2, h3⟩ := s.makedirs_tree h1
  refine ⟨{ l with out := u }, ?_, ?_⟩
  · show l.lift (l.out.makedirsFrom [] p) = _; rw [h2]; rfl
  · unfold SameBut at e; rw [e]; exact h3

/-- Writing to a file that is not a link. -/
theorem write_tree (s : Sim L c l) {p : Path} {x : Str} {t : Tree} (hL : ¬ (l.canLink = true ∧ L p))
    (h : c.out.write p x = .ok t) :
    ∃ l', l.write p x = .ok l' ∧ Sim L { c with out := t } l' ∧ l'.canLink = l.canLink := by
  obtain ⟨rfl, he, hd⟩ := Tree.write_ok h
  have hpne : p ≠ [] := by rintro rfl; simp [Tree.isdir] at he
  have hnd : dget l.out p ≠ some .dir := by
    rw [Ne, s.isDir]
    intro h'
    rw [isdir_iff.2 (.inr h')] at he; cases he
  have hpar : p.dropLast = [] ∨ dget l.out p.dropLast = some .dir := by
    rw [isdir_iff, ← s.isDir] at hd; exact hd
  unfold LinkDisk.write
  rw [if_neg (by simp [hpne, hnd]; exact fun h => hpar.resolve_left h)]
  cases hx : dget l.out p with
  | none =>
    simp only
    refine ⟨_, rfl, ?_, rfl⟩
    have hm : ∀ q i, (q, LNode.file i) ∈ dset l.out p (.file l.next) → (q = p ∧ i = l.next) ∨ (q, LNode.file i) ∈ l.out := by
      intro q i h
      have h1 := dget_of_mem (nodup_dset s.nodup p _) h
      rw [dget_dset] at h1
      split at h1
      · rename_i e; cases h1; exact .inl ⟨e.symm, rfl⟩
      · exact .inr (mem_of_dget h1)
    have hsame : ∀ t : LTree, (∀ i, UsedIn t i → i < l.next) →
        LTree.view (fun j => if j = l.next then x else l.data j) t = LTree.view l.data t := by
      intro t ht
      apply view_congr
      intro q i hq
      rw [if_neg]
      have := ht i ⟨q, hq⟩
      omega
    refine ⟨?_, ?_, ?_, s.taken, nodup_dset s.nodup _ _, ?_, ?_, ?_, ?_, ?_⟩
    · exact (hsame _ s.freshSrc).trans s.src
    · show LTree.view (fun j => if j = l.next then x else l.data j) (dset l.out p (.file l.next)) = dset c.out p (.file x)
      rw [view_dset, hsame _ s.freshOut, s.out]
      simp [LNode.view]
    · show l.done.map (fun e => (e.1, LTree.view (fun j => if j = l.next then x else l.data j) e.2)) = c.done
      rw [← s.done]
      apply List.map_congr_left
      intro e he
      rw [hsame _ (s.freshDone e he)]
    · intro i hi; exact Nat.lt_succ_of_lt (s.freshSrc i hi)
    · rintro i ⟨q, hq⟩
      rcases hm q i hq with ⟨_, rfl⟩ | h
      · exact Nat.lt_succ_self _
      · exact Nat.lt_succ_of_lt (s.freshOut i ⟨q, h⟩)
    · intro e he i hi; exact Nat.lt_succ_of_lt (s.freshDone e he i hi)
    · intro q i hq hl
      rcases hm q i hq with ⟨rfl, rfl⟩ | h
      · refine ⟨fun hu => Nat.lt_irrefl _ (s.freshSrc _ hu), fun e he hu => Nat.lt_irrefl _ (s.freshDone e he _ hu), ?_⟩
        intro q' hq'
        rcases hm q' _ hq' with ⟨e, _⟩ | h'
        · exact e
        · exact absurd (s.freshOut _ ⟨q', h'⟩) (Nat.lt_irrefl _)
      · obtain ⟨h1, h2, h3⟩ := s.own q i h hl
        refine ⟨h1, h2, ?_⟩
        intro q' hq'
        rcases hm q' _ hq' with ⟨e, e'⟩ | h'
        · subst e'; exact absurd (s.freshOut _ ⟨q, h⟩) (Nat.lt_irrefl _)
        · exact h3 q' h'
    · intro hc q i hq hl
      rcases hm q i hq with ⟨rfl, rfl⟩ | h
      · exact absurd ⟨hc, hl⟩ hL
      · exact s.link hc q i h hl
  | some n =>
    cases n with
    | dir => exact absurd hx hnd
    | file i =>
      simp only
      refine ⟨_, rfl, ?_, rfl⟩
      have hmem := mem_of_dget hx
      obtain ⟨h1, h2, h3⟩ := s.own p i hmem hL
      have hsame : ∀ t : LTree, ¬ UsedIn t i →
          LTree.view (fun j => if j = i then x else l.data j) t = LTree.view l.data t := by
        intro t ht
        apply view_congr
        intro q j hq
        rw [if_neg]
        rintro rfl; exact ht ⟨q, hq⟩
      refine ⟨?_, ?_, ?_, s.taken, s.nodup, s.freshSrc, s.freshOut, s.freshDone, s.own, s.link⟩
      · exact (hsame _ h1).trans s.src
      · show LTree.view (fun j => if j = i then x else l.data j) l.out = dset c.out p (.file x)
        rw [view_setData s.nodup hmem (by rintro q j hq rfl; exact h3 q hq), s.out]
      · show l.done.map (fun e => (e.1, LTree.view (fun j => if j = i then x else l.data j) e.2)) = c.done
        rw [← s.done]
        apply List.map_congr_left
        intro e he
        rw [hsame _ (h2 e he)]

theorem write (s : Sim L c l) {p : Path} {x : Str} (hL : ¬ (l.canLink = true ∧ L p))
    (h : copyFS.write c p x = .ok c') :
    ∃ l', linkFS.write l p x = .ok l' ∧ Sim L c' l' ∧ l'.canLink = l.canLink := by
  obtain ⟨e, h1⟩ := lift_ok h
  obtain ⟨l', h2, h3, h4⟩ := s.write_tree hL h1
  refine ⟨l', h2, ?_, h4⟩
  unfold SameBut at e; rw [e]; exact h3

theorem append (s : Sim L c l) {p : Path} {x : Str} (hL : ¬ (l.canLink = true ∧ L p))
    (h : copyFS.append c p x = .ok c') :
    ∃ l', linkFS.append l p x = .ok l' ∧ Sim L c' l' ∧ l'.canLink = l.canLink := by
  have hr := s.read_eq p
  have h' : copyFS.write c p ((c.out.read p).getD [] ++ x) = .ok c' := h
  have : (l.read p) = c.out.read p := hr
  rw [← this] at h'
  exact s.write hL h'

theorem dset_self {t : Tree} {p : Path} {n : Node} (h : dget t p = some n) : dset t p n = t := by
  induction t with
  | nil => cases h
  | cons e t ih =>
    obtain ⟨q, m⟩ := e
    simp only [dget] at h
    simp only [dset]
    split at h
    · rename_i e; cases h; rw [if_pos e]
    · rename_i e; rw [if_neg e, ih h]

theorem replicate (s : Sim L c l) {p : Path} (hL : L p) (h : copyFS.replicate c p = .ok c') :
    ∃ l', linkFS.replicate l p = .ok l' ∧ Sim L c' l' ∧ l'.canLink = l.canLink := by
  simp only [copyFS] at h
  split at h
  · cases h
  · rename_i x hx
    obtain ⟨e, h1⟩ := lift_ok h
    have hsx := s.srcRead_eq p
    simp only [linkFS, copyFS, hx] at hsx
    obtain ⟨i, hi, hdi⟩ : ∃ i, dget l.src p = some (.file i) ∧ l.data i = x := by
      cases hg : dget l.src p with
      | none => rw [hg] at hsx; cases hsx
      | some n =>
        cases n with
        | dir => rw [hg] at hsx; cases hsx
        | file i => rw [hg] at hsx; exact ⟨i, rfl, by simpa using hsx⟩
    show ∃ l', l.replicate p = .ok l' ∧ _
    unfold LinkDisk.replicate
    rw [hi]
    simp only
    have hw := Tree.write_ok h1
    have hpne : p ≠ [] := by rintro rfl; simp [Tree.isdir] at hw
    have hpar : p.dropLast = [] ∨ dget l.out p.dropLast = some .dir := by
      have := hw.2.2; rw [isdir_iff, ← s.isDir] at this; exact this
    by_cases hlink : l.canLink = true
    · cases hg : dget l.out p with
      | none =>
        rw [if_pos (by simp [hlink, hpne]; exact hpar)]
        refine ⟨_, rfl, ?_, rfl⟩
        have hm : ∀ q j, (q, LNode.file j) ∈ dset l.out p (.file i) → (q = p ∧ j = i) ∨ (q, LNode.file j) ∈ l.out := by
          intro q j h
          have h1 := dget_of_mem (nodup_dset s.nodup p _) h
          rw [dget_dset] at h1
          split at h1
          · rename_i e; cases h1; exact .inl ⟨e.symm, rfl⟩
          · exact .inr (mem_of_dget h1)
        have husrc : UsedIn l.src i := ⟨p, mem_of_dget hi⟩
        unfold SameBut at e
        rw [e, hw.1]
        refine ⟨s.src, ?_, s.done, s.taken, nodup_dset s.nodup _ _, s.freshSrc, ?_, s.freshDone, ?_, ?_⟩
        · show LTree.view l.data (dset l.out p (.file i)) = dset c.out p (.file x)
          rw [view_dset, s.out]; simp [LNode.view, hdi]
        · rintro j ⟨q, hq⟩
          rcases hm q j hq with ⟨_, rfl⟩ | h
          · exact s.freshSrc _ husrc
          · exact s.freshOut _ ⟨q, h⟩
        · intro q j hq hl
          rcases hm q j hq with ⟨rfl, rfl⟩ | h
          · exact absurd ⟨hlink, hL⟩ hl
          · obtain ⟨h1, h2, h3⟩ := s.own q j h hl
            refine ⟨h1, h2, ?_⟩
            intro q' hq'
            rcases hm q' j hq' with ⟨_, rfl⟩ | h'
            · exact absurd husrc h1
            · exact h3 q' h'
        · intro hc q j hq hl
          rcases hm q j hq with ⟨rfl, rfl⟩ | h
          · exact hi
          · exact s.link hc q j h hl
      | some n =>
        rw [if_neg (by simp)]
        cases n with
        | dir =>
          exfalso
          have h2 := hw.2.1
          rw [isdir_iff.2 (.inr ((s.isDir p).1 hg))] at h2; cases h2
        | file j =>
          have := s.link hlink p j (mem_of_dget hg) hL
          rw [hi] at this
          cases this
          rw [if_pos rfl]
          refine ⟨l, rfl, ?_, rfl⟩
          unfold SameBut at e
          rw [e, hw.1, dset_self]
          · exact s
          · rw [s.node, hg]; simp [LNode.view, hdi]
    · rw [if_neg (by simp [hlink])]
      have hne : dget l.out p ≠ some (.file i) := by
        intro hg
        exact (s.own p i (mem_of_dget hg) (fun h => hlink h.1)).1 ⟨p, mem_of_dget hi⟩
      rw [if_neg hne]
      rw [hdi]
      obtain ⟨l', h2, h3, h4⟩ := s.write_tree (fun h => hlink h.1) h1
      rw [h2]
      refine ⟨l', rfl, ?_, h4⟩
      unfold SameBut at e; rw [e]; exact h3

/-- A new, empty output bag; the set of links starts afresh. -/
theorem newBag (s : Sim L c l) (L' : Path → Prop) {n : Str} (h : copyFS.newBag c n = .ok c') :
    ∃ l', linkFS.newBag l n = .ok l' ∧ Sim L' c' l' ∧ l'.canLink = l.canLink := by
  simp only [copyFS] at h
  split at h
  · cases h
  · rename_i hn
    cases h
    refine ⟨{ l with taken := n :: l.taken, out := [] }, by simp [linkFS, s.taken, hn], ?_, rfl⟩
    exact ⟨s.src, rfl, s.done, by simp [s.taken], by simp [dkeys], s.freshSrc, (by rintro i ⟨p, hp⟩; cases hp),
      s.freshDone, (by intro p i hp; cases hp), (by intro _ p i hp; cases hp)⟩

theorem finish (s : Sim L c l) (n : Str) : Sim L (copyFS.finish c n) (linkFS.finish l n) := by
  refine ⟨s.src, rfl, ?_, s.taken, by simp [linkFS, dkeys], s.freshSrc, (by rintro i ⟨p, hp⟩; cases hp), ?_,
    (by intro p i hp; cases hp), (by intro _ p i hp; cases hp)⟩
  · show (l.done ++ [(n, l.out)]).map (fun e => (e.1, LTree.view l.data e.2)) = c.done ++ [(n, c.out)]
    rw [List.map_append, s.done, List.map_singleton, ← s.out]
  · intro e he i hi
    rcases List.mem_append.1 he with he | he
    · exact s.freshDone e he i hi
    · rw [List.mem_singleton] at he; subst he; exact s.freshOut i hi

end Sim

theorem link_makedirs_can {p : Path} {l' : LinkDisk} (h : linkFS.makedirs l p = .ok l') : l'.canLink = l.canLink := by
  simp only [linkFS, LinkDisk.lift] at h
  split at h
  · cases h
  · cases h; rfl

theorem link_mkdir_can {p : Path} {l' : LinkDisk} (h : linkFS.mkdir l p = .ok l') : l'.canLink = l.canLink := by
  simp only [linkFS, LinkDisk.lift] at h
  split at h
  · cases h
  · cases h; rfl

/-! ## The program -/

/-- One implementation of the file operations has the effect of another, for output bags with names in `N` and paths in `A`.  `B`
relates their states between bags and `Q n L` while the bag `n` is written, when the paths in `L` may be links in it; `can`
tells whether links are made. -/
structure Simulates {σ τ : Type} (fs : OutFS σ) (gs : OutFS τ) (B : σ → τ → Prop) (Q : Str → (Path → Prop) → σ → τ → Prop)
    (can : τ → Bool) (N : Str → Prop) (A : Path → Prop) : Prop where
  exists_eq : ∀ {b L c l p}, A p → Q b L c l → gs.exists_ l p = fs.exists_ c p
  isdir_eq : ∀ {b L c l p}, A p → Q b L c l → gs.isdir l p = fs.isdir c p
  isfile_eq : ∀ {b L c l p}, A p → Q b L c l → gs.isfile l p = fs.isfile c p
  read_eq : ∀ {b L c l p}, A p → Q b L c l → gs.read l p = fs.read c p
  srcRead_eq : ∀ {b L c l p}, A p → Q b L c l → gs.srcRead l p = fs.srcRead c p
  mkdir : ∀ {b L c l c' p}, A p → Q b L c l → fs.mkdir c p = .ok c' → ∃ l', gs.mkdir l p = .ok l' ∧ Q b L c' l' ∧ can l' = can l
  makedirs : ∀ {b L c l c' p}, A p → Q b L c l → fs.makedirs c p = .ok c' → ∃ l', gs.makedirs l p = .ok l' ∧ Q b L c' l' ∧ can l' = can l
  write : ∀ {b L c l c' p x}, A p → Q b L c l → ¬ (can l = true ∧ L p) → fs.write c p x = .ok c' →
    ∃ l', gs.write l p x = .ok l' ∧ Q b L c' l' ∧ can l' = can l
  append : ∀ {b L c l c' p x}, A p → Q b L c l → ¬ (can l = true ∧ L p) → fs.append c p x = .ok c' →
    ∃ l', gs.append l p x = .ok l' ∧ Q b L c' l' ∧ can l' = can l
  replicate : ∀ {b L c l c' p}, A p → Q b L c l → L p → fs.replicate c p = .ok c' →
    ∃ l', gs.replicate l p = .ok l' ∧ Q b L c' l' ∧ can l' = can l
  newBag : ∀ {c l c' n} L', B c l → N n → fs.newBag c n = .ok c' → ∃ l', gs.newBag l n = .ok l' ∧ Q n L' c' l' ∧ can l' = can l
  finish : ∀ {n L c l}, Q n L c l → B (fs.finish c n) (gs.finish l n) ∧ can (gs.finish l n) = can l

variable {σ τ : Type} {fs : OutFS σ} {gs : OutFS τ} {B : σ → τ → Prop} {Q : Str → (Path → Prop) → σ → τ → Prop}
  {can : τ → Bool} {N : Str → Prop} {A : Path → Prop}
variable {b : Str} {L : Path → Prop} {c c' : σ} {l : τ}

/-- The paths that are used when a bag with these contents is written. -/
structure Uses (A : Path → Prop) (S : Source) (contents : List Str) : Prop where
  fixed : A [py!"data"] ∧ A [py!"bagit.txt"] ∧ A [py!"bag-info.txt"] ∧ A [py!"multibag"]
  head : ∀ p, HeadFile p → A p
  empty : ∀ a ∈ S.algs, A (manPath py!"manifest" a)
  hash : ∀ f ∈ contents, ∀ ah ∈ S.hashes f, A (manPath (manType f) ah.1)
  entry : ∀ f ∈ contents, A (comps f) ∧ A (comps f).dropLast

theorem sim_recordHashes (H : Simulates fs gs B Q can N A) (s : Q b L c l) {f : Str} {hs : List (Str × Str)}
    (hA : ∀ ah ∈ hs, A (manPath (manType f) ah.1)) (hL : can l = true → ∀ p, ManifestFile p → ¬ L p)
    (h : recordHashes fs f hs c = .ok c') :
    ∃ l', recordHashes gs f hs l = .ok l' ∧ Q b L c' l' ∧ can l' = can l := by
  induction hs generalizing c l with
  | nil => cases h; exact ⟨l, rfl, s, rfl⟩
  | cons ah hs ih =>
    obtain ⟨alg, hash⟩ := ah
    simp only [recordHashes] at h ⊢
    split at h
    · cases h
    · rename_i c1 h1
      obtain ⟨l1, g1, s1, e1⟩ := H.append (hA _ (List.mem_cons_self ..)) s (fun hc => hL hc.1 _ (by
        rw [manPath_eq]
        refine ⟨alg, ?_⟩
        split
        · exact .inl rfl
        · exact .inr rfl) hc.2) h1
      rw [g1]
      obtain ⟨l2, g2, s2, e2⟩ := ih s1 (fun x hx => hA x (List.mem_cons_of_mem _ hx)) (by rw [e1]; exact hL) h
      exact ⟨l2, g2, s2, e2.trans e1⟩

theorem sim_ensureDir (H : Simulates fs gs B Q can N A) (s : Q b L c l) {p : Path} (hA : A p) (h : ensureDir fs c p = .ok c') :
    ∃ l', ensureDir gs l p = .ok l' ∧ Q b L c' l' ∧ can l' = can l := by
  unfold ensureDir at h ⊢
  rw [H.exists_eq hA s]
  split at h
  · rename_i he
    cases h; rw [if_pos he]; exact ⟨l, rfl, s, rfl⟩
  · rename_i he
    rw [if_neg he]
    obtain ⟨l', h1, h2⟩ := H.makedirs hA s h
    exact ⟨l', h1, h2⟩

theorem sim_putEntry (H : Simulates fs gs B Q can N A) {S : Source} {blen : Str → Nat} {n : Str} {s s' : PState σ} {f : Str}
    (hA : A (comps f) ∧ A (comps f).dropLast) (hh : ∀ ah ∈ S.hashes f, A (manPath (manType f) ah.1))
    (sim : Q b L s.disk l) (hf : L (comps f)) (hL : can l = true → ∀ p, ManifestFile p → ¬ L p)
    (h : putEntry fs S blen n s f = .ok s') :
    ∃ l', putEntry gs S blen n ⟨l, s.count, s.size, s.dest⟩ f = .ok ⟨l', s'.count, s'.size, s'.dest⟩ ∧
      Q b L s'.disk l' ∧ can l' = can l := by
  simp only [putEntry] at h ⊢
  split at h
  · rename_i he
    cases h; rw [if_pos he]; exact ⟨l, rfl, sim, rfl⟩
  · rename_i he
    rw [if_neg he]
    split at h
    · rename_i hd
      rw [if_pos hd]
      split at h
      · cases h
      · rename_i d1 h1
        cases h
        obtain ⟨l1, g1, s1, e1⟩ := sim_ensureDir H sim hA.1 h1
        rw [g1]
        exact ⟨l1, rfl, s1, e1⟩
    · rename_i hd
      rw [if_neg hd]
      split at h
      · cases h
      · rename_i d1 h1
        obtain ⟨l1, g1, s1, e1⟩ := sim_ensureDir H sim hA.2 h1
        rw [g1]
        simp only
        split at h
        · cases h
        · rename_i d2 h2
          obtain ⟨l2, g2, s2, e2⟩ := H.replicate hA.1 s1 hf h2
          rw [g2]
          simp only
          split at h
          · cases h
          · rename_i hif
            rw [H.isfile_eq hA.1 s2, if_neg hif]
            split at h
            · cases h
            · rename_i d3 h3
              obtain ⟨l3, g3, s3, e3⟩ := sim_recordHashes H s2 hh (by rw [e2, e1]; exact hL) h3
              rw [g3]
              cases h
              exact ⟨l3, by simp only [H.read_eq hA.1 s2], s3, (e3.trans e2).trans e1⟩

theorem sim_putEntries (H : Simulates fs gs B Q can N A) {S : Source} {blen : Str → Nat} {n : Str} {es : List Str} {s s' : PState σ}
    (hA : ∀ f ∈ es, A (comps f) ∧ A (comps f).dropLast) (hh : ∀ f ∈ es, ∀ ah ∈ S.hashes f, A (manPath (manType f) ah.1))
    (sim : Q b L s.disk l) (hf : ∀ f ∈ es, L (comps f)) (hL : can l = true → ∀ p, ManifestFile p → ¬ L p)
    (h : putEntries fs S blen n es s = .ok s') :
    ∃ l', putEntries gs S blen n es ⟨l, s.count, s.size, s.dest⟩ = .ok ⟨l', s'.count, s'.size, s'.dest⟩ ∧
      Q b L s'.disk l' ∧ can l' = can l := by
  induction es generalizing s l with
  | nil => cases h; exact ⟨l, rfl, sim, rfl⟩
  | cons f es ih =>
    simp only [putEntries] at h ⊢
    split at h
    · cases h
    · rename_i s1 h1
      obtain ⟨l1, g1, sim1, e1⟩ := sim_putEntry H (hA f (List.mem_cons_self ..)) (hh f (List.mem_cons_self ..)) sim (hf f (List.mem_cons_self ..)) hL h1
      rw [g1]
      obtain ⟨l2, g2, sim2, e2⟩ := ih (fun g hg => hA g (List.mem_cons_of_mem _ hg)) (fun g hg => hh g (List.mem_cons_of_mem _ hg)) sim1
        (fun g hg => hf g (List.mem_cons_of_mem _ hg)) (by rw [e1]; exact hL) h
      exact ⟨l2, g2, sim2, e2.trans e1⟩

theorem sim_emptyManifests (H : Simulates fs gs B Q can N A) (s : Q b L c l) {algs : List Str}
    (hA : ∀ a ∈ algs, A (manPath py!"manifest" a)) (hL : can l = true → ∀ p, ManifestFile p → ¬ L p) (h : emptyManifests fs algs c = .ok c') :
    ∃ l', emptyManifests gs algs l = .ok l' ∧ Q b L c' l' ∧ can l' = can l := by
  induction algs generalizing c l with
  | nil => cases h; exact ⟨l, rfl, s, rfl⟩
  | cons a algs ih =>
    simp only [emptyManifests] at h ⊢
    split at h
    · cases h
    · rename_i c1 h1
      obtain ⟨l1, g1, s1, e1⟩ := H.write (hA a (List.mem_cons_self ..)) s (fun hc => hL hc.1 _ ⟨a, .inl (manPath_manifest a)⟩ hc.2) h1
      rw [g1]
      obtain ⟨l2, g2, s2, e2⟩ := ih s1 (fun x hx => hA x (List.mem_cons_of_mem _ hx)) (by rw [e1]; exact hL) h
      exact ⟨l2, g2, s2, e2.trans e1⟩

theorem sim_startBag (H : Simulates fs gs B Q can N A) (s : B c l) {S : Source} {n : Str} (hn : N n) {contents : List Str} (u : Uses A S contents) (hb : L [py!"bagit.txt"])
    (hL : can l = true → ∀ p, ManifestFile p → ¬ L p) (h : startBag fs S n c = .ok c') :
    ∃ l', startBag gs S n l = .ok l' ∧ Q n L c' l' ∧ can l' = can l := by
  simp only [startBag] at h ⊢
  split at h
  · cases h
  · rename_i c1 h1
    obtain ⟨l1, g1, s1, e1⟩ := H.newBag L s hn h1
    rw [g1]; simp only
    split at h
    · cases h
    · rename_i c2 h2
      obtain ⟨l2, g2, s2, e2⟩ := H.mkdir u.fixed.1 s1 h2
      rw [g2]; simp only
      split at h
      · cases h
      · rename_i c3 h3
        obtain ⟨l3, g3, s3, e3⟩ := sim_emptyManifests H s2 u.empty (by rw [e2, e1]; exact hL) h3
        rw [g3]; simp only
        split at h
        · rename_i he
          rw [if_pos he]
          obtain ⟨l4, g4, s4, e4⟩ := H.replicate u.fixed.2.1 s3 hb h
          exact ⟨l4, g4, s4, ((e4.trans e3).trans e2).trans e1⟩
        · cases h

theorem sim_writeHeadFiles (H : Simulates fs gs B Q can N A) (s : Q b L c l) {S : Source} {members : List Str} {dest : List (Str × Str)}
    {contents : List Str} (u : Uses A S contents) (hA : A [py!"bag-info.txt"]) (hL : can l = true → ∀ p, HeadFile p → ¬ L p) (h : writeHeadFiles fs S members dest c = .ok c') :
    ∃ l', writeHeadFiles gs S members dest l = .ok l' ∧ Q b L c' l' ∧ can l' = can l := by
  simp only [writeHeadFiles] at h ⊢
  split at h
  · cases h
  · rename_i c1 h1
    obtain ⟨l1, g1, s1, e1⟩ : ∃ l1, (if gs.isdir l [py!"multibag"] = true then Except.ok l
        else gs.mkdir l [py!"multibag"]) = .ok l1 ∧ Q b L c1 l1 ∧ can l1 = can l := by
      rw [H.isdir_eq u.fixed.2.2.2 s]
      split at h1
      · rename_i hd; cases h1; rw [if_pos hd]; exact ⟨l, rfl, s, rfl⟩
      · rename_i hd
        rw [if_neg hd]
        obtain ⟨l1, g1, s1⟩ := H.mkdir u.fixed.2.2.2 s h1
        exact ⟨l1, g1, s1⟩
    rw [g1]; simp only
    split at h
    · cases h
    · rename_i c2 h2
      obtain ⟨l2, g2, s2, e2⟩ := H.write (u.head _ (.inl rfl)) s1 (fun hc => hL (by rw [← e1]; exact hc.1) _ (.inl rfl) hc.2) h2
      rw [g2]; simp only
      split at h
      · cases h
      · rename_i c3 h3
        obtain ⟨l3, g3, s3, e3⟩ := H.write (u.head _ (.inr (.inl rfl))) s2 (fun hc => hL (by rw [← e1, ← e2]; exact hc.1) _ (.inr (.inl rfl)) hc.2) h3
        rw [g3]; simp only
        split at h
        · cases h
        · rename_i c4 h4
          rw [← H.srcRead_eq hA s3] at h4
          obtain ⟨l4, g4, s4, e4⟩ := H.write (u.head _ (.inr (.inr rfl))) s3
            (fun hc => hL (by rw [← e1, ← e2, ← e3]; exact hc.1) _ (.inr (.inr rfl)) hc.2) h4
          rw [g4]; simp only
          split at h
          · rename_i hs
            cases h
            rw [if_pos (by rw [H.srcRead_eq hA s4]; exact hs)]
            exact ⟨l4, rfl, s4, ((e4.trans e3).trans e2).trans e1⟩
          · cases h

/-- The files a bag takes over from the source. -/
def TakenOver (contents : List Str) (p : Path) : Prop :=
  p = [py!"bagit.txt"] ∨ ∃ f ∈ contents, comps f = p

theorem sim_writeBag (H : Simulates fs gs B Q can N A) (s : B c l) {S : Source} {blen : Str → Nat} {o : ApplyOpts} {n : Str}
    (hN : N n)
    {contents : List Str} {ishead : Bool} {members : List Str} {dest dest' : List (Str × Str)}
    (u : Uses A S contents) (hf : ∀ f ∈ contents, PlanEntry f)
    (hh : can l = true → ishead = true → ∀ f ∈ contents, ¬ HeadFile (comps f))
    (h : writeBag fs S blen o n contents ishead members dest c = .ok (c', dest')) :
    ∃ l', writeBag gs S blen o n contents ishead members dest l = .ok (l', dest') ∧
      B c' l' ∧ can l' = can l := by
  have hman : ∀ p, ManifestFile p → ¬ TakenOver contents p := by
    rintro p hp (rfl | ⟨f, hf', rfl⟩)
    · obtain ⟨a, h | h⟩ := hp <;> simp at h
    · exact (planEntry_good (hf f hf')).2.1 (.inr (.inr hp))
  simp only [writeBag] at h ⊢
  split at h
  · cases h
  · rename_i c1 h1
    obtain ⟨l1, g1, s1, e1⟩ := sim_startBag H (L := TakenOver contents) s hN u (.inl rfl) (fun _ => hman) h1
    rw [g1]; simp only
    split at h
    · cases h
    · rename_i s2 h2
      obtain ⟨l2, g2, sim2, e2⟩ := sim_putEntries H u.entry u.hash s1 (fun f hf => .inr ⟨f, hf, rfl⟩) (fun _ => hman) h2
      rw [g2]; simp only
      split at h
      · cases h
      · rename_i fields hfields
        split at h
        · cases h
        · rename_i c3 h3
          obtain ⟨l3, g3, s3, e3⟩ := H.write u.fixed.2.2.1 sim2 (by
            rintro ⟨_, h' | ⟨f, hf', h'⟩⟩
            · simp at h'
            · exact (planEntry_good (hf f hf')).2.1 (.inr (.inl h'))) h3
          rw [g3]; simp only
          have e : can l3 = can l := (e3.trans e2).trans e1
          cases ishead with
          | false =>
            simp only [Bool.false_eq_true, if_false] at h ⊢
            cases h
            exact ⟨_, rfl, (H.finish s3).1, (H.finish s3).2.trans (e)⟩
          | true =>
            simp only [if_true] at h ⊢
            split at h
            · cases h
            · rename_i c4 h4
              obtain ⟨l4, g4, s4, e4⟩ := sim_writeHeadFiles H s3 u u.fixed.2.2.1 (by
                rintro hc p hp (rfl | ⟨f, hf', rfl⟩)
                · rcases hp with h | h | h <;> simp at h
                · exact hh (by rw [← e]; exact hc) rfl f hf' hp) h4
              rw [g4]
              cases h
              exact ⟨_, rfl, (H.finish s4).1, (H.finish s4).2.trans (e4.trans e)⟩

theorem sim_applyLoop (H : Simulates fs gs B Q can N A) (s : B c l) {S : Source} {blen : Str → Nat} {o : ApplyOpts}
    {plan : List Manifest} {names members : List Str} {dest : List (Str × Str)}
    (u : ∀ m ∈ plan, Uses A S m.contents) (hf : ∀ m ∈ plan, ∀ f ∈ m.contents, PlanEntry f)
    (hh : can l = true → ∀ m ∈ plan.getLast?, ∀ f ∈ m.contents, ¬ HeadFile (comps f))
    (hN : ∀ n, some n ∈ chosenNames plan names → N n)
    (h : applyLoop fs S blen o plan names members dest c = .ok c') :
    ∃ l', applyLoop gs S blen o plan names members dest l = .ok l' ∧ B c' l' := by
  induction plan generalizing names members dest c l with
  | nil => cases h; exact ⟨l, rfl, s⟩
  | cons m rest ih =>
    simp only [applyLoop] at h ⊢
    split at h
    · cases h
    · rename_i n hn
      split at h
      · cases h
      · rename_i c1 dest1 h1
        obtain ⟨l1, g1, s1, e1⟩ := sim_writeBag H s (hN n (by rw [chosenNames, hn]; exact List.mem_cons_self ..))
          (u m (List.mem_cons_self ..)) (hf m (List.mem_cons_self ..)) (by
          intro hc hlast f hf'
          refine hh hc m ?_ f hf'
          rw [List.isEmpty_iff] at hlast
          subst hlast
          simp) h1
        rw [g1]
        refine ih s1 (fun m' hm' => u m' (List.mem_cons_of_mem _ hm')) (fun m' hm' => hf m' (List.mem_cons_of_mem _ hm')) ?_
          (fun n' hn' => hN n' (by rw [chosenNames]; exact List.mem_cons_of_mem _ hn')) h
        intro hc m' hm'
        refine hh (by rw [← e1]; exact hc) m' ?_
        cases rest with
        | nil => simp at hm'
        | cons x xs => rw [List.getLast?_cons_cons]; exact hm'

/-- Linking has the effect of copying. -/
theorem link_simulates : Simulates copyFS linkFS (fun c l => ∃ L, Sim L c l) (fun _ => Sim) LinkDisk.canLink (fun _ => True)
    (fun _ => True) where
  exists_eq {_ _ _ _ p} _ s := s.exists_eq p
  isdir_eq {_ _ _ _ p} _ s := s.isdir_eq p
  isfile_eq {_ _ _ _ p} _ s := s.isfile_eq p
  read_eq {_ _ _ _ p} _ s := s.read_eq p
  srcRead_eq {_ _ _ _ p} _ s := s.srcRead_eq p
  mkdir _ s h := by
    obtain ⟨l', h1, h2⟩ := s.mkdir h
    exact ⟨l', h1, h2, link_mkdir_can h1⟩
  makedirs _ s h := by
    obtain ⟨l', h1, h2⟩ := s.makedirs h
    exact ⟨l', h1, h2, link_makedirs_can h1⟩
  write _ s hL h := s.write hL h
  append _ s hL h := s.append hL h
  replicate _ s hL h := s.replicate hL h
  newBag L' s _ h := by
    obtain ⟨L, s⟩ := s
    exact s.newBag L' h
  finish {n _ _ _} s := ⟨⟨_, s.finish n⟩, rfl⟩

/-- Where every path will do. -/
theorem uses_all (S : Source) (contents : List Str) : Uses (fun _ => True) S contents :=
  ⟨⟨trivial, trivial, trivial, trivial⟩, fun _ _ => trivial, fun _ _ => trivial, fun _ _ _ _ => trivial,
    fun _ _ => ⟨trivial, trivial⟩⟩

end Verif
