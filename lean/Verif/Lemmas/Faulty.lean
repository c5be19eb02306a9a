import Verif.Model.Faulty
import Verif.Spec.Faulty
import Verif.Lemmas.Link
/-!
# A split when copies fail, beside one when none fails
-/

namespace Verif
open Spec

namespace Damage

variable {src t t' u u' : Tree}

theorem isDir (h : DamagedBag src t t') (p : Path) : dget t' p = some .dir ↔ dget t p = some .dir := by
  have := h.files p
  generalize dget t p = a at this ⊢
  generalize dget t' p = b at this ⊢
  cases this with
  | same => exact Iff.rfl
  | cut => simp
  | info => simp
  | bagit _ _ _ hn => exact ⟨fun e => absurd e hn, fun e => by cases e⟩

theorem isdir_eq (h : DamagedBag src t t') (p : Path) : t'.isdir p = t.isdir p := by
  unfold Tree.isdir
  simp only [isDir h]

theorem set (h : DamagedBag src t t') {p : Path} {n n' : Node} (hd : Damaged src p (some n) (some n')) :
    DamagedBag src (dset t p n) (dset t' p n') := by
  refine ⟨?_, nodup_dset h.once _ _⟩
  intro q
  rw [dget_dset, dget_dset]
  by_cases e : p = q
  · subst e
    rw [if_pos rfl, if_pos rfl]
    exact hd
  · rw [if_neg e, if_neg e]
    exact h.files q

theorem exists_of_not (h : DamagedBag src t t') {p : Path} (h1 : t.exists p = false) : t'.exists p = false := by
  unfold Tree.exists at h1 ⊢
  have := h.files p
  generalize dget t p = a at this h1 ⊢
  generalize dget t' p = b at this h1 ⊢
  cases this with
  | same => exact h1
  | cut => simp at h1
  | info => simp at h1
  | bagit => simp at h1

theorem exists_eq (h : DamagedBag src t t') {p : Path} (hp : p ≠ [py!"bagit.txt"]) : t'.exists p = t.exists p := by
  unfold Tree.exists
  have := h.files p
  generalize dget t p = a at this ⊢
  generalize dget t' p = b at this ⊢
  cases this with
  | same => rfl
  | cut => rfl
  | info => rfl
  | bagit _ _ e => exact absurd e hp

theorem mkdir (h : DamagedBag src t t') {p : Path} (h1 : t.mkdir p = .ok u) :
    ∃ u', t'.mkdir p = .ok u' ∧ DamagedBag src u u' := by
  obtain ⟨e, h2, h3⟩ := Tree.mkdir_ok h1
  refine ⟨dset t' p .dir, ?_, ?_⟩
  · unfold Tree.mkdir
    rw [exists_of_not h h2, isdir_eq h, h3]
    rfl
  · rw [e]
    exact set h (.same _)

theorem makedirs (h : DamagedBag src t t') {pre rest : Path} (h1 : t.makedirsFrom pre rest = .ok u) :
    ∃ u', t'.makedirsFrom pre rest = .ok u' ∧ DamagedBag src u u' := by
  induction rest generalizing t t' pre with
  | nil =>
    simp only [Tree.makedirsFrom, Except.ok.injEq] at h1 ⊢
    subst h1
    exact ⟨t', rfl, h⟩
  | cons x rest ih =>
    unfold Tree.makedirsFrom at h1 ⊢
    rw [isdir_eq h]
    cases hd : t.isdir (pre ++ [x]) with
    | true =>
      rw [hd] at h1
      exact ih h h1
    | false =>
      rw [hd] at h1
      cases e1 : t.mkdir (pre ++ [x]) with
      | error e => rw [e1] at h1; cases h1
      | ok v =>
        obtain ⟨v', e2, h2⟩ := mkdir h e1
        rw [e1] at h1
        rw [e2]
        exact ih h2 h1

theorem write (h : DamagedBag src t t') {p : Path} {c c' : Str} (hd : Damaged src p (some (.file c)) (some (.file c')))
    (h1 : t.write p c = .ok u) : ∃ u', t'.write p c' = .ok u' ∧ DamagedBag src u u' := by
  obtain ⟨e, h2, h3⟩ := Tree.write_ok h1
  refine ⟨dset t' p (.file c'), ?_, ?_⟩
  · unfold Tree.write
    rw [isdir_eq h, isdir_eq h, h2, h3]
    rfl
  · rw [e]
    exact set h hd

theorem standard_manifest {m a : Str} (hm : m = py!"manifest" ∨ m = py!"tagmanifest") : Standard (manPath m a) := by
  rcases hm with rfl | rfl
  · exact .inr (.inr ⟨a, .inl (by simp [manPath])⟩)
  · exact .inr (.inr ⟨a, .inr (by simp [manPath])⟩)

theorem manType_or (f : Str) : manType f = py!"manifest" ∨ manType f = py!"tagmanifest" := by
  unfold manType
  split
  · exact .inl rfl
  · exact .inr rfl

/-- Manifests are not damaged. -/
theorem manifest (h : DamagedBag src t t') {m a : Str} (hm : m = py!"manifest" ∨ m = py!"tagmanifest") :
    dget t' (manPath m a) = dget t (manPath m a) := by
  have hs : Standard (manPath m a) := standard_manifest hm
  have := h.files (manPath m a)
  have hb : manPath m a ≠ [py!"bagit.txt"] := by
    rcases hm with rfl | rfl <;> simp [manPath]
  have hi : manPath m a ≠ [py!"bag-info.txt"] := by
    rcases hm with rfl | rfl <;> simp [manPath]
  generalize dget t (manPath m a) = x at this ⊢
  generalize dget t' (manPath m a) = y at this ⊢
  cases this with
  | same => rfl
  | cut h => exact absurd hs h
  | info _ _ h => exact absurd h hi
  | bagit _ _ h => exact absurd h hb

end Damage

theorem copy_lift {d d' : CopyDisk} {r : Except PyErr Tree} (h : d.lift r = .ok d') : ∃ t, r = .ok t ∧ d' = { d with out := t } := by
  obtain ⟨e, h⟩ := lift_ok h
  exact ⟨_, h, e⟩

/-- The two disks. -/
structure Beside (c : CopyDisk) (l : FaultyDisk) : Prop where
  src : l.plain.src = c.src
  taken : l.plain.taken = c.taken
  out : DamagedBag c.src c.out l.plain.out
  done : Forall₂ (fun x y => x.1 = y.1 ∧ DamagedBag c.src x.2 y.2) c.done l.plain.done

/-- While files are copied, those of the current bag are the source's. -/
def Intact (c : CopyDisk) : Prop := ∀ p x, ¬ Standard p → c.out.read p = some x → c.src.read p = some x

/-- The run with failing copies gets as far as the other one, or reports a missing file. -/
def Comes (ends : List CopyEnd) (endsOf : α → List CopyEnd) (r : Except PyErr α) (P : α → Prop) : Prop :=
  (∃ a, r = .ok a ∧ P a ∧ endsOf a <:+ ends) ∨ (r = .error .runtimeError ∧ CopyEnd.nothing ∈ ends)

namespace Beside

variable {c c' : CopyDisk} {l : FaultyDisk}

theorem mkdir (s : Beside c l) {p : Path} (h1 : copyFS.mkdir c p = .ok c') :
    ∃ l', faultyFS.mkdir l p = .ok l' ∧ Beside c' l' ∧ l'.ends = l.ends := by
  obtain ⟨t, h0, rfl⟩ := copy_lift h1
  obtain ⟨t', h2, h3⟩ := Damage.mkdir s.out h0
  refine ⟨{ l with plain := { l.plain with out := t' } }, ?_, ⟨s.src, s.taken, h3, s.done⟩, rfl⟩
  show l.lift (l.plain.lift (l.plain.out.mkdir p)) = _
  rw [h2]
  rfl

theorem makedirs (s : Beside c l) {p : Path} (h1 : copyFS.makedirs c p = .ok c') :
    ∃ l', faultyFS.makedirs l p = .ok l' ∧ Beside c' l' ∧ l'.ends = l.ends := by
  obtain ⟨t, h0, rfl⟩ := copy_lift h1
  obtain ⟨t', h2, h3⟩ := Damage.makedirs s.out h0
  refine ⟨{ l with plain := { l.plain with out := t' } }, ?_, ⟨s.src, s.taken, h3, s.done⟩, rfl⟩
  show l.lift (l.plain.lift (l.plain.out.makedirsFrom [] p)) = _
  rw [h2]
  rfl

theorem write (s : Beside c l) {p : Path} {x x' : Str} (hx : Damaged c.src p (some (.file x)) (some (.file x')))
    (h1 : copyFS.write c p x = .ok c') : ∃ l', faultyFS.write l p x' = .ok l' ∧ Beside c' l' ∧ l'.ends = l.ends := by
  obtain ⟨t, h0, rfl⟩ := copy_lift h1
  obtain ⟨t', h2, h3⟩ := Damage.write s.out hx h0
  refine ⟨{ l with plain := { l.plain with out := t' } }, ?_, ⟨s.src, s.taken, h3, s.done⟩, rfl⟩
  show l.lift (l.plain.lift (l.plain.out.write p x')) = _
  rw [h2]
  rfl

theorem append (s : Beside c l) {m a x : Str} (hm : m = py!"manifest" ∨ m = py!"tagmanifest")
    (h1 : copyFS.append c (manPath m a) x = .ok c') :
    ∃ l', faultyFS.append l (manPath m a) x = .ok l' ∧ Beside c' l' ∧ l'.ends = l.ends := by
  have e : l.plain.out.read (manPath m a) = c.out.read (manPath m a) := by
    unfold Tree.read
    rw [Damage.manifest s.out hm]
  have : faultyFS.append l (manPath m a) x = faultyFS.write l (manPath m a) ((c.out.read (manPath m a)).getD [] ++ x) := by
    show l.lift (l.plain.lift (l.plain.out.write _ ((l.plain.out.read _).getD [] ++ x))) = _
    rw [e]
    rfl
  rw [this]
  exact write s (.same _) h1

theorem recordHashes (s : Beside c l) {f : Str} {hs : List (Str × Str)} (h1 : Verif.recordHashes copyFS f hs c = .ok c') :
    ∃ l', Verif.recordHashes faultyFS f hs l = .ok l' ∧ Beside c' l' ∧ l'.ends = l.ends := by
  induction hs generalizing c l with
  | nil => cases h1; exact ⟨l, rfl, s, rfl⟩
  | cons ah hs ih =>
    obtain ⟨a, x⟩ := ah
    unfold Verif.recordHashes at h1 ⊢
    cases e : copyFS.append c (manPath (manType f) a) (hashLine x f) with
    | error e' => rw [e] at h1; cases h1
    | ok d =>
      rw [e] at h1
      obtain ⟨l1, e1, s1, n1⟩ := append s (Damage.manType_or f) e
      rw [e1]
      obtain ⟨l2, e2, s2, n2⟩ := ih s1 h1
      exact ⟨l2, e2, s2, n2.trans n1⟩

theorem emptyManifests (s : Beside c l) {as : List Str} (h1 : Verif.emptyManifests copyFS as c = .ok c') :
    ∃ l', Verif.emptyManifests faultyFS as l = .ok l' ∧ Beside c' l' ∧ l'.ends = l.ends := by
  induction as generalizing c l with
  | nil => cases h1; exact ⟨l, rfl, s, rfl⟩
  | cons a as ih =>
    unfold Verif.emptyManifests at h1 ⊢
    cases e : copyFS.write c (manPath py!"manifest" a) [] with
    | error e' => rw [e] at h1; cases h1
    | ok d =>
      rw [e] at h1
      obtain ⟨l1, e1, s1, n1⟩ := write s (.same _) e
      rw [e1]
      obtain ⟨l2, e2, s2, n2⟩ := ih s1 h1
      exact ⟨l2, e2, s2, n2.trans n1⟩

/-- `ensureDir`, for a path that is a directory afterwards or not that of `bagit.txt`. -/
theorem ensureDir (s : Beside c l) {p : Path} (h1 : Verif.ensureDir copyFS c p = .ok c')
    (hp : c'.out.isdir p = true ∨ p ≠ [py!"bagit.txt"]) :
    ∃ l', Verif.ensureDir faultyFS l p = .ok l' ∧ Beside c' l' ∧ l'.ends = l.ends := by
  unfold Verif.ensureDir at h1 ⊢
  have hx : faultyFS.exists_ l p = copyFS.exists_ c p := by
    show l.plain.out.exists p = c.out.exists p
    rcases hp with hp | hp
    · cases he : c.out.exists p with
      | false => exact Damage.exists_of_not s.out he
      | true =>
        rw [if_pos (show copyFS.exists_ c p = true from he)] at h1
        cases h1
        have := (Damage.isdir_eq s.out p).trans hp
        unfold Tree.isdir at this
        unfold Tree.exists
        simp only [Bool.or_eq_true, decide_eq_true_eq] at this ⊢
        rcases this with h | h
        · exact .inl h
        · exact .inr (by rw [h]; rfl)
    · exact Damage.exists_eq s.out hp
  rw [hx]
  cases he : copyFS.exists_ c p with
  | true =>
    rw [he, if_pos rfl] at h1
    cases h1
    exact ⟨l, rfl, s, rfl⟩
  | false =>
    rw [he, if_neg (by decide)] at h1
    exact makedirs s h1

/-- What `replicate` does: nothing, or it writes a prefix. -/
theorem replicate_cases {p : Path} {x : Str} (hx : l.plain.src.read p = some x) :
    ∃ l', faultyFS.replicate l p = .ok l' ∧ l'.ends = l.ends.tail ∧
      (l'.plain = l.plain ∧ (l.ends.head? = some .nothing ∨ ∀ x', ∃ e, l.plain.out.write p x' = .error e) ∨
        ∃ x' t, x' <+: x ∧ l.plain.out.write p x' = .ok t ∧ l'.plain = { l.plain with out := t }) := by
  have put : ∀ x', x' <+: x → ∃ l', l' = FaultyDisk.put { l with ends := l.ends.tail } p x' ∧ l'.ends = l.ends.tail ∧
      (l'.plain = l.plain ∧ (l.ends.head? = some .nothing ∨ ∀ x', ∃ e, l.plain.out.write p x' = .error e) ∨
        ∃ x' t, x' <+: x ∧ l.plain.out.write p x' = .ok t ∧ l'.plain = { l.plain with out := t }) := by
    intro x' hp
    refine ⟨_, rfl, ?_⟩
    unfold FaultyDisk.put
    simp only
    cases hw : l.plain.out.write p x' with
    | error e =>
      refine ⟨rfl, .inl ⟨rfl, .inr ?_⟩⟩
      intro y
      unfold Tree.write at hw ⊢
      split at hw
      · next h => rw [if_pos h]; exact ⟨_, rfl⟩
      · cases hw
    | ok t => exact ⟨rfl, .inr ⟨x', t, hp, hw, rfl⟩⟩
  show ∃ l', FaultyDisk.replicate l p = .ok l' ∧ _
  unfold FaultyDisk.replicate
  rw [hx]
  simp only
  cases he : l.ends.head? with
  | none =>
    obtain ⟨l', e, h⟩ := put x (List.prefix_refl _)
    rw [he] at h
    exact ⟨l', by rw [e], h⟩
  | some en =>
    cases en with
    | whole =>
      obtain ⟨l', e, h⟩ := put x (List.prefix_refl _)
      rw [he] at h
      exact ⟨l', by rw [e], h⟩
    | nothing => exact ⟨_, rfl, rfl, .inl ⟨rfl, .inl rfl⟩⟩
    | cut n =>
      obtain ⟨l', e, h⟩ := put (x.take n) (List.take_prefix _ _)
      rw [he] at h
      exact ⟨l', by rw [e], h⟩

theorem copy_replicate {p : Path} (h1 : copyFS.replicate c p = .ok c') :
    ∃ x t, c.src.read p = some x ∧ c.out.write p x = .ok t ∧ c' = { c with out := t } := by
  replace h1 : (match c.src.read p with
    | none => Except.error PyErr.valueError
    | some x => c.lift (c.out.write p x)) = .ok c' := h1
  cases hr : c.src.read p with
  | none => rw [hr] at h1; cases h1
  | some x =>
    rw [hr] at h1
    obtain ⟨t, h2, e⟩ := copy_lift h1
    exact ⟨x, t, rfl, h2, e⟩

/-- A planned file is copied, wholly or partly, or is missing. -/
theorem replicate (s : Beside c l) (i : Intact c) {p : Path} (hp : ¬ Standard p) (h1 : copyFS.replicate c p = .ok c') :
    ∃ l', faultyFS.replicate l p = .ok l' ∧ l'.ends = l.ends.tail ∧
      (faultyFS.isfile l' p = true ∧ Beside c' l' ∨ faultyFS.isfile l' p = false ∧ CopyEnd.nothing ∈ l.ends) := by
  obtain ⟨x, t, hr, hw, rfl⟩ := copy_replicate h1
  obtain ⟨l', e, n, h⟩ := replicate_cases (l := l) (p := p) (x := x) (by rw [s.src]; exact hr)
  refine ⟨l', e, n, ?_⟩
  rcases h with ⟨h, hb⟩ | ⟨x', t', hpre, hw', h⟩
  · cases hf : faultyFS.isfile l' p with
    | false =>
      refine .inr ⟨rfl, ?_⟩
      rcases hb with hb | hb
      · exact List.mem_of_head? hb
      · obtain ⟨u, hu, _⟩ := Damage.write s.out (.same _) hw
        obtain ⟨e', he⟩ := hb x
        rw [hu] at he
        cases he
    | true =>
      refine .inl ⟨rfl, ?_⟩
      replace hf : l'.plain.out.isfile p = true := hf
      rw [h] at hf
      have key : Damaged c.src p (some (.file x)) (dget l.plain.out p) := by
        unfold Tree.isfile at hf
        have hd := s.out.files p
        have hi : ∀ y, dget c.out p = some (.file y) → c.src.read p = some y := by
          intro y hy
          refine i p y hp ?_
          unfold Tree.read
          rw [hy]
        generalize dget c.out p = a at hd hi
        generalize dget l.plain.out p = b at hd hf ⊢
        cases hd with
        | same =>
          cases a with
          | none => cases hf
          | some nd =>
            cases nd with
            | dir => cases hf
            | file y =>
              have := hi y rfl
              rw [hr] at this
              cases this
              exact .same _
        | cut _ h2 h3 =>
          rw [hr] at h2
          cases h2
          exact .cut hp hr h3
        | info _ _ h => exact absurd (.inr (.inl h)) hp
        | bagit _ _ h => exact absurd (.inl h) hp
      refine ⟨by rw [h]; exact s.src, by rw [h]; exact s.taken, ?_, by rw [h]; exact s.done⟩
      show DamagedBag c.src t l'.plain.out
      rw [h, (Tree.write_ok hw).1]
      refine ⟨?_, s.out.once⟩
      intro q
      rw [dget_dset]
      by_cases e : p = q
      · subst e
        rw [if_pos rfl]
        exact key
      · rw [if_neg e]
        exact s.out.files q
  · refine .inl ⟨?_, ?_⟩
    · show l'.plain.out.isfile p = true
      rw [h, (Tree.write_ok hw').1]
      unfold Tree.isfile
      simp [dget_dset]
    · refine ⟨by rw [h]; exact s.src, by rw [h]; exact s.taken, ?_, by rw [h]; exact s.done⟩
      show DamagedBag c.src t l'.plain.out
      rw [h, (Tree.write_ok hw).1, (Tree.write_ok hw').1]
      exact Damage.set s.out (.cut hp hr hpre)

/-- `bagit.txt` may be missing. -/
theorem replicate_bagit (s : Beside c l) (h1 : copyFS.replicate c [py!"bagit.txt"] = .ok c') :
    ∃ l', faultyFS.replicate l [py!"bagit.txt"] = .ok l' ∧ l'.ends = l.ends.tail ∧ Beside c' l' := by
  obtain ⟨x, t, hr, hw, rfl⟩ := copy_replicate h1
  obtain ⟨l', e, n, h⟩ := replicate_cases (l := l) (p := [py!"bagit.txt"]) (x := x) (by rw [s.src]; exact hr)
  refine ⟨l', e, n, ?_⟩
  rcases h with ⟨h, _⟩ | ⟨x', t', hpre, hw', h⟩
  · refine ⟨by rw [h]; exact s.src, by rw [h]; exact s.taken, ?_, by rw [h]; exact s.done⟩
    show DamagedBag c.src t l'.plain.out
    rw [h, (Tree.write_ok hw).1]
    refine ⟨?_, s.out.once⟩
    intro q
    rw [dget_dset]
    by_cases e : [py!"bagit.txt"] = q
    · subst e
      rw [if_pos rfl]
      refine .bagit _ _ rfl (fun hd => ?_)
      have h2 := (Tree.write_ok hw).2.1
      rw [← Damage.isdir_eq s.out] at h2
      unfold Tree.isdir at h2
      rw [hd] at h2
      simp at h2
    · rw [if_neg e]
      exact s.out.files q
  · refine ⟨by rw [h]; exact s.src, by rw [h]; exact s.taken, ?_, by rw [h]; exact s.done⟩
    show DamagedBag c.src t l'.plain.out
    rw [h, (Tree.write_ok hw).1, (Tree.write_ok hw').1]
    exact Damage.set s.out (.bagit _ _ rfl (by simp))

end Beside

theorem Intact.put {S : Source} {blen : Str → Nat} {n : Str} {fs : List Str} {s s' : PState CopyDisk} (i : Intact s.disk)
    (hsrc : s.disk.src = S.tree) (h : Put S blen n fs s s') : Intact s'.disk := by
  intro p x hp hx
  rw [h.read, recorded_standard (fun hm => hp (.inr (.inr hm)))] at hx
  rw [h.same.src]
  simp only [addLines] at hx
  split at hx
  · rw [hsrc]; exact hx
  · exact i p x hp hx

/-- The state of the loop over a manifest's entries. -/
structure BesideP (s : PState CopyDisk) (r : PState FaultyDisk) : Prop where
  disk : Beside s.disk r.disk
  count : r.count = s.count
  dest : r.dest = s.dest

theorem BesideP.putEntry {S : Source} {blen : Str → Nat} {n : Str} {s s' : PState CopyDisk} {r : PState FaultyDisk} {f : Str}
    (b : BesideP s r) (i : Intact s.disk) (hf : PlanEntry f) (h : Verif.putEntry copyFS S blen n s f = .ok s') :
    Comes r.disk.ends (·.disk.ends) (Verif.putEntry faultyFS S blen n r f) (BesideP s') := by
  obtain ⟨hg, hns, _⟩ := planEntry_good hf
  simp only [Verif.putEntry] at h ⊢
  cases he : S.tree.exists (comps f) with
  | false =>
    simp only [he] at h ⊢
    cases h
    exact .inl ⟨r, rfl, b, List.suffix_refl _⟩
  | true =>
    simp only [he, Bool.true_eq_false, if_false] at h ⊢
    cases hd : S.tree.isdir (comps f) with
    | true =>
      simp only [hd, if_true] at h ⊢
      cases h1 : Verif.ensureDir copyFS s.disk (comps f) with
      | error e => rw [h1] at h; cases h
      | ok d =>
        rw [h1] at h
        cases h
        obtain ⟨l', e, s1, n1⟩ := b.disk.ensureDir h1 (.inr (fun e => hns (.inl e)))
        rw [e]
        exact .inl ⟨_, rfl, ⟨s1, b.count, b.dest⟩, by show l'.ends <:+ _; rw [n1]; exact List.suffix_refl _⟩
    | false =>
      simp only [hd, Bool.false_eq_true, if_false] at h ⊢
      cases h1 : Verif.ensureDir copyFS s.disk (comps f).dropLast with
      | error e => rw [h1] at h; cases h
      | ok d =>
        simp only [h1] at h
        cases h2 : copyFS.replicate d (comps f) with
        | error e => rw [h2] at h; cases h
        | ok d2 =>
          simp only [h2] at h
          obtain ⟨x, t, hr, hw, ed2⟩ := Beside.copy_replicate h2
          obtain ⟨l1, e1, s1, n1⟩ := b.disk.ensureDir h1 (.inl (Tree.write_ok hw).2.2)
          have i1 : Intact d := by
            obtain ⟨sb, hrd, _⟩ := ensureDir_copy h1
            intro p y hp hy
            rw [hrd] at hy
            rw [sb.src]
            exact i p y hp hy
          obtain ⟨l2, e2, n2, h3⟩ := s1.replicate i1 hns h2
          simp only [e1, e2]
          rcases h3 with ⟨hif, s2⟩ | ⟨hif, hno⟩
          · simp only [hif, Bool.true_eq_false, if_false]
            cases hif' : copyFS.isfile d2 (comps f) with
            | false => simp only [hif', if_true] at h; cases h
            | true =>
              simp only [hif', Bool.true_eq_false, if_false] at h
              cases h4 : Verif.recordHashes copyFS f (S.hashes f) d2 with
              | error e => rw [h4] at h; cases h
              | ok d3 =>
                simp only [h4] at h
                cases h
                obtain ⟨l3, e3, s3, n3⟩ := s2.recordHashes h4
                simp only [e3]
                refine .inl ⟨_, rfl, ⟨s3, by simp only [b.count], by simp only [b.dest]⟩, ?_⟩
                show l3.ends <:+ _
                rw [n3, n2, n1]
                exact List.tail_suffix _
          · simp only [hif, if_true]
            exact .inr ⟨rfl, by rw [← n1]; exact hno⟩

theorem BesideP.putEntries {S : Source} {blen : Str → Nat} {n : Str} {fs : List Str} {s s' : PState CopyDisk} {r : PState FaultyDisk}
    (b : BesideP s r) (i : Intact s.disk) (hsrc : s.disk.src = S.tree) (hf : ∀ f ∈ fs, PlanEntry f)
    (ha : ∀ f, ∀ ah ∈ S.hashes f, '/' ∉ ah.1) (h : Verif.putEntries copyFS S blen n fs s = .ok s') :
    Comes r.disk.ends (·.disk.ends) (Verif.putEntries faultyFS S blen n fs r) (BesideP s') := by
  induction fs generalizing s r with
  | nil => cases h; exact .inl ⟨r, rfl, b, List.suffix_refl _⟩
  | cons f fs ih =>
    unfold Verif.putEntries at h ⊢
    cases h1 : Verif.putEntry copyFS S blen n s f with
    | error e => rw [h1] at h; cases h
    | ok s1 =>
      simp only [h1] at h
      have hput := putEntry_copy hsrc (hf f (List.mem_cons_self ..)) (ha f) h1
      rcases b.putEntry i (hf f (List.mem_cons_self ..)) h1 with ⟨r1, e1, b1, n1⟩ | ⟨e1, n1⟩
      · simp only [e1]
        rcases ih b1 (i.put hsrc hput) (by rw [hput.same.src]; exact hsrc)
          (fun g hg => hf g (List.mem_cons_of_mem _ hg)) h with ⟨r2, e2, b2, n2⟩ | ⟨e2, n2⟩
        · exact .inl ⟨r2, e2, b2, n2.trans n1⟩
        · exact .inr ⟨e2, n1.subset n2⟩
      · simp only [e1]
        exact .inr ⟨rfl, n1⟩

theorem Beside.startBag {S : Source} {n : Str} {c c' : CopyDisk} {l : FaultyDisk} (s : Beside c l)
    (h : Verif.startBag copyFS S n c = .ok c') :
    ∃ l', Verif.startBag faultyFS S n l = .ok l' ∧ Beside c' l' ∧ l'.ends <:+ l.ends := by
  unfold Verif.startBag at h ⊢
  have hn : copyFS.newBag c n = if n ∈ c.taken then .error .osError else .ok { c with taken := n :: c.taken, out := [] } := rfl
  have hn' : faultyFS.newBag l n =
      l.lift (if n ∈ l.plain.taken then .error .osError else .ok { l.plain with taken := n :: l.plain.taken, out := [] }) := rfl
  rw [hn] at h
  rw [hn', s.taken]
  by_cases ht : n ∈ c.taken
  · simp only [if_pos ht] at h
    cases h
  · simp only [if_neg ht] at h ⊢
    simp only [FaultyDisk.lift]
    have s0 : Beside { c with taken := n :: c.taken, out := [] }
        { l with plain := { l.plain with taken := n :: c.taken, out := [] } } :=
      ⟨s.src, rfl, ⟨fun _ => .same _, List.nodup_nil⟩, s.done⟩
    generalize ({ c with taken := n :: c.taken, out := [] } : CopyDisk) = c0 at s0 h
    generalize hl0 : ({ l with plain := { l.plain with taken := n :: c.taken, out := [] } } : FaultyDisk) = l0 at s0
    have n0 : l0.ends = l.ends := by rw [← hl0]
    cases h1 : copyFS.mkdir c0 [py!"data"] with
    | error e => rw [h1] at h; cases h
    | ok c1 =>
      simp only [h1] at h
      obtain ⟨l1, e1, s1, n1⟩ := s0.mkdir h1
      simp only [e1]
      cases h2 : Verif.emptyManifests copyFS S.algs c1 with
      | error e => rw [h2] at h; cases h
      | ok c2 =>
        simp only [h2] at h
        obtain ⟨l2, e2, s2, n2⟩ := s1.emptyManifests h2
        simp only [e2]
        cases hb : S.tree.exists [py!"bagit.txt"] with
        | false => rw [hb] at h; cases h
        | true =>
          simp only [hb, if_true] at h ⊢
          obtain ⟨l3, e3, n3, s3⟩ := s2.replicate_bagit h
          refine ⟨l3, e3, s3, ?_⟩
          rw [n3, n2, n1, n0]
          exact List.tail_suffix _

theorem Beside.writeHeadFiles {S : Source} {members : List Str} {dest : List (Str × Str)} {c c' : CopyDisk} {l : FaultyDisk}
    (s : Beside c l) (h : Verif.writeHeadFiles copyFS S members dest c = .ok c') :
    ∃ l', Verif.writeHeadFiles faultyFS S members dest l = .ok l' ∧ Beside c' l' ∧ l'.ends = l.ends := by
  unfold Verif.writeHeadFiles at h ⊢
  have hd : faultyFS.isdir l [py!"multibag"] = copyFS.isdir c [py!"multibag"] :=
    Damage.isdir_eq s.out [py!"multibag"]
  rw [hd]
  have first : ∀ c1, (if copyFS.isdir c [py!"multibag"] then .ok c else copyFS.mkdir c [py!"multibag"]) = .ok c1 →
      ∃ l1, (if copyFS.isdir c [py!"multibag"] then .ok l else faultyFS.mkdir l [py!"multibag"]) = .ok l1 ∧ Beside c1 l1 ∧ l1.ends = l.ends := by
    intro c1 h1
    cases hb : copyFS.isdir c [py!"multibag"] with
    | true =>
      rw [hb, if_pos rfl] at h1
      cases h1
      exact ⟨l, rfl, s, rfl⟩
    | false =>
      rw [hb, if_neg (by decide)] at h1
      exact s.mkdir h1
  cases h1 : (if copyFS.isdir c [py!"multibag"] then (Except.ok c : Except PyErr CopyDisk) else copyFS.mkdir c [py!"multibag"]) with
  | error e => rw [h1] at h; cases h
  | ok c1 =>
    obtain ⟨l1, e1, s1, n1⟩ := first c1 h1
    simp only [h1] at h
    simp only [e1]
    cases h2 : copyFS.write c1 [py!"multibag", py!"member-bags.tsv"] (members.map (· ++ ['
'])).flatten with
    | error e => rw [h2] at h; cases h
    | ok c2 =>
      simp only [h2] at h
      obtain ⟨l2, e2, s2, n2⟩ := s1.write (.same _) h2
      simp only [e2]
      cases h3 : copyFS.write c2 [py!"multibag", py!"file-lookup.tsv"] (lookupText dest) with
      | error e => rw [h3] at h; cases h
      | ok c3 =>
        simp only [h3] at h
        obtain ⟨l3, e3, s3, n3⟩ := s2.write (.same _) h3
        simp only [e3]
        have hsr : ∀ q, faultyFS.srcRead l3 q = copyFS.srcRead c3 q := by
          intro q
          show l3.plain.src.read q = c3.src.read q
          rw [s3.src]
        rw [hsr]
        cases h4 : copyFS.write c3 [py!"multibag", py!"aggregation-info.txt"]
            (copiedText S.mode ((copyFS.srcRead c3 [py!"bag-info.txt"]).getD [])) with
        | error e => rw [h4] at h; cases h
        | ok c4 =>
          simp only [h4] at h
          obtain ⟨l4, e4, s4, n4⟩ := s3.write (.same _) h4
          simp only [e4]
          have hsr4 : ∀ q, faultyFS.srcRead l4 q = copyFS.srcRead c4 q := by
            intro q
            show l4.plain.src.read q = c4.src.read q
            rw [s4.src]
          rw [hsr4]
          cases hb : (copyFS.srcRead c4 [py!"bag-info.txt"]).isSome with
          | false => rw [hb] at h; cases h
          | true =>
            rw [hb] at h
            cases h
            exact ⟨l4, rfl, s4, by rw [n4, n3, n2, n1]⟩

theorem bagInfoFields_size {S : Source} {o : ApplyOpts} {n : Str} {b : Bool} {sz sz' k : Nat} {fields : List (Str × Str)}
    (h : bagInfoFields S o n b sz k = .ok fields) : ∃ fields', bagInfoFields S o n b sz' k = .ok fields' := by
  have one : ∀ e l, infoFields o.nopass n sz k e = .ok l → ∃ l', infoFields o.nopass n sz' k e = .ok l' := by
    rintro ⟨name, v⟩ l h
    unfold infoFields at h ⊢
    repeat' split at h
    all_goals first
      | cases h; done
      | skip
    all_goals simp_all
  have all : ∀ (i : Info) l, infoBody o.nopass n sz k i = .ok l → ∃ l', infoBody o.nopass n sz' k i = .ok l' := by
    intro i
    induction i with
    | nil => intro l _; exact ⟨_, rfl⟩
    | cons e rest ih =>
      intro l h
      unfold infoBody at h ⊢
      cases h1 : infoFields o.nopass n sz k e with
      | error x => rw [h1] at h; cases h
      | ok l1 =>
        simp only [h1] at h
        obtain ⟨l1', e1⟩ := one e l1 h1
        simp only [e1]
        cases h2 : infoBody o.nopass n sz k rest with
        | error x => rw [h2] at h; cases h
        | ok l2 =>
          obtain ⟨l2', e2⟩ := ih l2 h2
          simp only [e2]
          exact ⟨_, rfl⟩
  unfold bagInfoFields at h ⊢
  cases h1 : infoBody o.nopass n sz k S.info with
  | error x => rw [h1] at h; cases h
  | ok l =>
    obtain ⟨l', e⟩ := all _ _ h1
    simp only [e]
    exact ⟨_, rfl⟩

theorem Forall₂.snoc {R : α → β → Prop} {as : List α} {bs : List β} (h : Forall₂ R as bs) {a : α} {b : β} (hab : R a b) :
    Forall₂ R (as ++ [a]) (bs ++ [b]) := by
  induction h with
  | nil => exact .cons hab .nil
  | cons h _ ih => exact .cons h ih

theorem Beside.writeBag {S : Source} {blen : Str → Nat} {o : ApplyOpts} {n : Str} {contents : List Str} {ishead : Bool}
    {members : List Str} {dest dest' : List (Str × Str)} {c c' : CopyDisk} {l : FaultyDisk}
    (s : Beside c l) (hsrc : c.src = S.tree) (hf : ∀ f ∈ contents, PlanEntry f)
    (ha : ∀ f, ∀ ah ∈ S.hashes f, '/' ∉ ah.1)
    (h : Verif.writeBag copyFS S blen o n contents ishead members dest c = .ok (c', dest')) :
    Comes l.ends (·.1.ends) (Verif.writeBag faultyFS S blen o n contents ishead members dest l)
      (fun r => Beside c' r.1 ∧ r.2 = dest') := by
  unfold Verif.writeBag at h ⊢
  cases h1 : Verif.startBag copyFS S n c with
  | error e => rw [h1] at h; cases h
  | ok c1 =>
    simp only [h1] at h
    obtain ⟨l1, e1, s1, n1⟩ := s.startBag h1
    simp only [e1]
    have st := startBag_copy hsrc h1
    have i1 : Intact c1 := by
      intro p x hp hx
      rw [st.2.2.1] at hx
      exact absurd (baseRead_standard (by rw [hx]; rfl)) hp
    have hsrc1 : c1.src = S.tree := by rw [st.2.1]; exact hsrc
    cases h2 : Verif.putEntries copyFS S blen n contents { disk := c1, dest := dest } with
    | error e => rw [h2] at h; cases h
    | ok q =>
      simp only [h2] at h
      rcases BesideP.putEntries (r := { disk := l1, dest := dest }) ⟨s1, rfl, rfl⟩ i1 hsrc1 hf ha h2 with
        ⟨r, e2, b2, n2⟩ | ⟨e2, n2⟩
      · simp only [e2]
        replace n2 : r.disk.ends <:+ l.ends := List.IsSuffix.trans n2 n1
        cases h3 : bagInfoFields S o n ishead q.size q.count with
        | error e => rw [h3] at h; cases h
        | ok fields =>
          simp only [h3] at h
          obtain ⟨fields', e3⟩ := bagInfoFields_size (sz' := r.size) h3
          rw [b2.count, e3]
          simp only
          cases h4 : copyFS.write q.disk [py!"bag-info.txt"] (fieldsText fields) with
          | error e => rw [h4] at h; cases h
          | ok c4 =>
            simp only [h4] at h
            obtain ⟨l4, e4, s4, n4⟩ := b2.disk.write (x' := fieldsText fields') (.info _ _ rfl) h4
            simp only [e4]
            have fin : ∀ {c5 : CopyDisk} {l5 : FaultyDisk}, Beside c5 l5 → Beside (copyFS.finish c5 n) (faultyFS.finish l5 n) :=
              fun s5 => ⟨s5.src, s5.taken, ⟨fun _ => .same _, List.nodup_nil⟩, s5.done.snoc ⟨rfl, s5.out⟩⟩
            cases ishead with
            | false =>
              simp only [Bool.false_eq_true, if_false] at h ⊢
              cases h
              refine .inl ⟨_, rfl, ⟨fin s4, b2.dest⟩, ?_⟩
              show l4.ends <:+ _
              rw [n4]
              exact n2
            | true =>
              simp only [if_true] at h ⊢
              cases h5 : Verif.writeHeadFiles copyFS S members q.dest c4 with
              | error e => rw [h5] at h; cases h
              | ok c5 =>
                simp only [h5] at h
                obtain ⟨l5, e5, s5, n5⟩ := s4.writeHeadFiles h5
                rw [b2.dest]
                simp only [e5]
                cases h
                refine .inl ⟨_, rfl, ⟨fin s5, rfl⟩, ?_⟩
                show l5.ends <:+ _
                rw [n5, n4]
                exact n2
      · simp only [e2]
        exact .inr ⟨rfl, n1.subset n2⟩

theorem Beside.applyLoop {S : Source} {blen : Str → Nat} {o : ApplyOpts} {plan : List Manifest} {names members : List Str}
    {dest : List (Str × Str)} {c c' : CopyDisk} {l : FaultyDisk} (s : Beside c l) (hsrc : c.src = S.tree)
    (hf : ∀ m ∈ plan, ∀ f ∈ m.contents, PlanEntry f) (ha : ∀ f, ∀ ah ∈ S.hashes f, '/' ∉ ah.1)
    (h : Verif.applyLoop copyFS S blen o plan names members dest c = .ok c') :
    Comes l.ends (·.ends) (Verif.applyLoop faultyFS S blen o plan names members dest l) (Beside c') := by
  induction plan generalizing names members dest c l with
  | nil => cases h; exact .inl ⟨l, rfl, s, List.suffix_refl _⟩
  | cons m rest ih =>
    unfold Verif.applyLoop at h ⊢
    cases hn : names.head?.or m.name with
    | none => rw [hn] at h; cases h
    | some n =>
      simp only [hn] at h ⊢
      cases h1 : Verif.writeBag copyFS S blen o n m.contents rest.isEmpty (moveToEnd members n) dest c with
      | error e => rw [h1] at h; cases h
      | ok r =>
        obtain ⟨c1, d1⟩ := r
        simp only [h1] at h
        have hm := hf m (List.mem_cons_self ..)
        rcases s.writeBag hsrc hm ha h1 with ⟨⟨l1, d2⟩, e1, ⟨s1, hd⟩, n1⟩ | ⟨e1, n1⟩
        · simp only at hd
          subst hd
          simp only [e1]
          have hs1 : c1.src = S.tree := by
            obtain ⟨_, _, _, e, _⟩ := writeBag_copy hsrc hm (fun f _ => ha f) h1
            rw [e]
            exact hsrc
          rcases ih s1 hs1 (fun m' hm' => hf m' (List.mem_cons_of_mem _ hm')) h with ⟨l2, e2, s2, n2⟩ | ⟨e2, n2⟩
          · exact .inl ⟨l2, e2, s2, List.IsSuffix.trans n2 n1⟩
          · exact .inr ⟨e2, n1.subset n2⟩
        · simp only [e1]
          exact .inr ⟨rfl, n1⟩

theorem Beside.applyPlan {S : Source} {blen : Str → Nat} {o : ApplyOpts} {plan : List Manifest} {names : List Str}
    {c c' : CopyDisk} {l : FaultyDisk} (s : Beside c l) (hsrc : c.src = S.tree)
    (hf : ∀ m ∈ plan, ∀ f ∈ m.contents, PlanEntry f) (ha : ∀ f, ∀ ah ∈ S.hashes f, '/' ∉ ah.1)
    (h : Verif.applyPlan copyFS S blen o plan names c = .ok c') :
    Comes l.ends (·.ends) (Verif.applyPlan faultyFS S blen o plan names l) (Beside c') := by
  unfold Verif.applyPlan at h ⊢
  cases h1 : initialIndex S with
  | error e => rw [h1] at h; cases h
  | ok r =>
    obtain ⟨ms, ds⟩ := r
    simp only [h1] at h
    exact s.applyLoop hsrc hf ha h

end Verif
