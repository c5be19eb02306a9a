import Verif.Spec.Replicate
import Verif.Lemmas.TagDir
/-!
# Lemmas about `replicate`
-/

namespace Verif

open Spec

theorem ldisk_isdir_iff {d : LDisk} {p : Path} : d.isdir p = true ↔ p = [] ∨ dget d.names p = some .dir := by
  simp [LDisk.isdir]

theorem ldisk_exists_false {d : LDisk} {p : Path} : d.exists p = false ↔ p ≠ [] ∧ dget d.names p = none := by
  simp [LDisk.exists]

/-- Names are only added, and only strictly below `dest`. -/
structure Grown (dest : Path) (t t' : LTree) : Prop where
  keep : ∀ p n, dget t p = some n → dget t' p = some n
  new : ∀ p, dget t p = none → dget t' p ≠ none → ∃ x, x ≠ [] ∧ p = dest ++ x

theorem grown_refl (dest : Path) (t : LTree) : Grown dest t t := ⟨fun _ _ h => h, fun _ h h' => absurd h h'⟩

theorem grown_trans {dest : Path} {a b c : LTree} (h1 : Grown dest a b) (h2 : Grown dest b c) : Grown dest a c := by
  refine ⟨fun p n h => h2.keep p n (h1.keep p n h), fun p h h' => ?_⟩
  cases hb : dget b p with
  | none => exact h2.new p hb h'
  | some n => exact h1.new p h (by simp [hb])

theorem grown_dset {dest : Path} {t : LTree} {x : Path} {n : LNode} (hx : x ≠ []) (h : dget t (dest ++ x) = none) :
    Grown dest t (dset t (dest ++ x) n) := by
  refine ⟨fun p m hp => ?_, fun p hp hp' => ?_⟩
  · rw [dget_dset, if_neg, hp]
    rintro rfl; rw [h] at hp; cases hp
  · rw [dget_dset] at hp'
    by_cases e : dest ++ x = p
    · exact ⟨x, hx, e.symm⟩
    · rw [if_neg e] at hp'; exact absurd hp hp'

theorem lmkdir_ok {t t' : LTree} {p : Path} (h : t.mkdir p = .ok t') : t' = dset t p .dir ∧ p ≠ [] ∧ dget t p = none := by
  unfold LTree.mkdir at h
  split at h
  · cases h
  · rename_i hc
    injection h with h
    simp only [Bool.or_eq_true, decide_eq_true_eq, not_or, Bool.not_eq_true, Option.isSome_eq_false_iff,
      Option.isNone_iff_eq_none] at hc
    exact ⟨h.symm, hc.1.1, hc.1.2⟩

/-- What `os.makedirs` does to the names. -/
theorem lmakedirs_ok {dest : Path} {rest : Path} {t t' : LTree} {pre : Path} (h : t.makedirsFrom (dest ++ pre) rest = .ok t') :
    Grown dest t t' ∧ (∀ p i, dget t' p = some (.file i) → dget t p = some (.file i)) ∧
    (rest ≠ [] → dget t' (dest ++ pre ++ rest) = some .dir) := by
  induction rest generalizing t pre with
  | nil =>
    simp only [LTree.makedirsFrom, Except.ok.injEq] at h
    subst h
    exact ⟨grown_refl _ _, fun _ _ h => h, fun h => absurd rfl h⟩
  | cons c rest ih =>
    simp only [LTree.makedirsFrom] at h
    have key : ∀ {t1 : LTree}, t1.makedirsFrom (dest ++ pre ++ [c]) rest = .ok t' →
        dget t1 (dest ++ pre ++ [c]) = some .dir → Grown dest t1 t' ∧
        (∀ p i, dget t' p = some (.file i) → dget t1 p = some (.file i)) ∧
        dget t' (dest ++ pre ++ c :: rest) = some .dir := by
      intro t1 h1 hd
      rw [List.append_assoc] at h1
      obtain ⟨g, f, e⟩ := ih h1
      refine ⟨g, f, ?_⟩
      by_cases hr : rest = []
      · subst hr; exact g.keep _ _ hd
      · have := e hr
        simpa [List.append_assoc] using this
    split at h
    · rename_i hd
      obtain ⟨g, f, e⟩ := key h hd
      exact ⟨g, f, fun _ => e⟩
    · split at h
      · cases h
      · rename_i t1 h1
        obtain ⟨e1, _, hn⟩ := lmkdir_ok h1
        obtain ⟨g, f, e⟩ := key h (by rw [e1, dget_dset, if_pos rfl])
        rw [List.append_assoc] at e1 hn
        refine ⟨grown_trans (e1 ▸ grown_dset (by simp) hn) g, fun p i hp => ?_, fun _ => e⟩
        have := f p i hp
        rw [e1, dget_dset] at this
        split at this
        · cases this
        · exact this

/-- `os.makedirs` succeeds where no file is in the way. -/
theorem lmakedirs_total {rest : Path} {t : LTree} {pre : Path} (hp : pre = [] ∨ dget t pre = some .dir)
    (hw : ∀ x y, rest = x ++ y → x ≠ [] → dget t (pre ++ x) = none ∨ dget t (pre ++ x) = some .dir) :
    ∃ t', t.makedirsFrom pre rest = .ok t' := by
  induction rest generalizing t pre with
  | nil => exact ⟨t, rfl⟩
  | cons c rest ih =>
    simp only [LTree.makedirsFrom]
    have hw' : ∀ x y, rest = x ++ y → x ≠ [] →
        dget t (pre ++ [c] ++ x) = none ∨ dget t (pre ++ [c] ++ x) = some .dir := by
      intro x y e hx
      have := hw (c :: x) y (by rw [e]; rfl) (by simp)
      simpa [List.append_assoc] using this
    split
    · rename_i hd
      exact ih (.inr hd) hw'
    · rename_i hd
      have hn : dget t (pre ++ [c]) = none := (hw [c] rest rfl (by simp)).resolve_right hd
      have hm : t.mkdir (pre ++ [c]) = .ok (dset t (pre ++ [c]) .dir) := by
        unfold LTree.mkdir
        rw [if_neg]
        simp only [hn, List.dropLast_concat, Bool.or_eq_true, decide_eq_true_eq, Option.isSome_none, Bool.false_eq_true,
          or_false, Bool.not_eq_true', Bool.or_eq_false_iff, decide_eq_false_iff_not, not_or, not_and]
        exact ⟨by simp, fun h1 h2 => hp.elim h1 h2⟩
      rw [hm]
      refine ih (.inr (by rw [dget_dset, if_pos rfl])) (fun x y e hx => ?_)
      rw [dget_dset, if_neg]
      · exact hw' x y e hx
      · intro e2
        have := congrArg List.length e2
        have h3 := List.length_pos_iff.2 hx
        simp only [List.length_append, List.length_cons, List.length_nil] at this
        omega

/-! ## One call -/

/-- The effects a call may have: names are added below the destination directory; an old inode gets other contents
only if a file was there at the place or in a directory at the place; and new names of old inodes are links. -/
structure RepStep (d : LDisk) (c : RepCall) (d' : LDisk) : Prop where
  grown : Grown c.dest d.names d'.names
  next : d.next ≤ d'.next
  ok : InodesOk d'
  fresh : PlaceFree d c → ∀ j, j < d.next → d'.data j = d.data j
  data : ∀ j, j < d.next → d'.data j ≠ d.data j → ∃ x, x ≠ [] ∧ dget d.names (c.dest ++ x) = some (.file j)
  copies : Copies c → ∀ p i, dget d'.names p = some (.file i) →
    dget d.names p = some (.file i) ∨ d.next ≤ i
  unshared : Copies c → Unshared d → Unshared d'

theorem repStep_refl {d : LDisk} (h : InodesOk d) (c : RepCall) : RepStep d c d :=
  ⟨grown_refl _ _, Nat.le_refl _, h, fun _ _ _ => rfl, fun _ _ h => absurd rfl h, fun _ _ _ h => .inl h, fun _ h => h⟩

theorem repStep_makedirs {d d' : LDisk} (h : InodesOk d) {c : RepCall} {p : Path} (hm : d.makedirs c.dest p = .ok d') :
    RepStep d c d' := by
  unfold LDisk.makedirs at hm
  split at hm
  · cases hm
  · rename_i t ht
    injection hm with hm
    have ht' : d.names.makedirsFrom (c.dest ++ []) p = .ok t := by rw [List.append_nil]; exact ht
    obtain ⟨g, f, _⟩ := lmakedirs_ok ht'
    subst hm
    exact ⟨g, Nat.le_refl _, fun p i hp => h p i (f p i hp), fun _ _ _ => rfl, fun _ _ h => absurd rfl h,
      fun _ p i hp => .inl (f p i hp), fun _ hu p q i hp hq => hu p q i (f p i hp) (f q i hq)⟩

theorem repStep_write {d d' : LDisk} (h : InodesOk d) {c : RepCall} {x : Path} (hx : x ≠ []) {s : Str}
    (hf : PlaceFree d c → x = c.path) (hw : d.write (c.dest ++ x) s = .ok d') : RepStep d c d' := by
  unfold LDisk.write at hw
  split at hw
  · cases hw
  · rename_i hc
    split at hw
    · rename_i i hi
      injection hw with hw
      subst hw
      refine ⟨grown_refl _ _, Nat.le_refl _, h, ?_, ?_, fun _ _ _ h => .inl h, fun _ h => h⟩
      · intro hfr j hj
        rw [hf hfr, (ldisk_exists_false.1 hfr).2] at hi
        cases hi
      · intro j hj hne
        simp only at hne
        split at hne
        · rename_i e
          subst e
          exact ⟨x, hx, hi⟩
        · exact absurd rfl hne
    · rename_i hi
      injection hw with hw
      have hn : dget d.names (c.dest ++ x) = none := by
        cases hg : dget d.names (c.dest ++ x) with
        | none => rfl
        | some n =>
          cases n with
          | dir => simp [LDisk.isdir, hg] at hc
          | file i => exact absurd hg (hi i)
      subst hw
      have cases' : ∀ p i, dget (dset d.names (c.dest ++ x) (.file d.next)) p = some (.file i) →
          dget d.names p = some (.file i) ∨ (p = c.dest ++ x ∧ i = d.next) := by
        intro p i hp
        rw [dget_dset] at hp
        split at hp
        · rename_i e
          injection hp with hp; injection hp with hp
          exact .inr ⟨e.symm, hp.symm⟩
        · exact .inl hp
      refine ⟨grown_dset hx hn, Nat.le_succ _, fun p i hp => ?_, fun _ j hj => ?_, fun j hj hne => ?_, fun _ p i hp => ?_,
        fun _ hu p q i hp hq => ?_⟩
      · rcases cases' p i hp with e | e
        · exact Nat.lt_succ_of_lt (h p i e)
        · rw [e.2]; exact Nat.lt_succ_self _
      · simp only; rw [if_neg (Nat.ne_of_lt hj)]
      · simp only at hne; rw [if_neg (Nat.ne_of_lt hj)] at hne; exact absurd rfl hne
      · rcases cases' p i hp with e | e
        · exact .inl e
        · exact .inr (Nat.le_of_eq e.2.symm)
      · rcases cases' p i hp with e | e <;> rcases cases' q i hq with e' | e'
        · exact hu p q i e e'
        · exact absurd (h p i e) (by omega)
        · exact absurd (h q i e') (by omega)
        · rw [e.1, e'.1]

theorem repStep_copy {d d' : LDisk} (h : InodesOk d) {c : RepCall} (hp : c.path ≠ [])
    (hc : d.copy (c.bag ++ c.path) (c.dest ++ c.path) = .ok d') : RepStep d c d' := by
  unfold LDisk.copy at hc
  by_cases hd : d.isdir (c.dest ++ c.path) = true
  · simp only [hd, if_true] at hc
    split at hc
    · split at hc
      · cases hc
      · rw [List.append_assoc] at hc
        refine repStep_write h (by simp [hp]) (fun hfr => ?_) hc
        exfalso
        have := ldisk_exists_false.1 hfr
        rcases ldisk_isdir_iff.1 hd with e | e
        · exact this.1 e
        · rw [this.2] at e; cases e
    · cases hc
  · simp only [hd, Bool.false_eq_true, if_false] at hc
    split at hc
    · split at hc
      · cases hc
      · exact repStep_write h hp (fun _ => rfl) hc
    · cases hc

theorem repStep_linkOrCopy {d : LDisk} (h : InodesOk d) {c : RepCall} (hp : c.path ≠ []) {hl : Bool}
    (hh : c.how = .writable hl) : RepStep d c (d.linkOrCopy c hl).2 := by
  have hcopy : RepStep d c (d.copyOrForget c).2 := by
    unfold LDisk.copyOrForget
    split
    · rename_i d' hc
      exact repStep_copy h hp hc
    · split <;> exact repStep_refl h c
  unfold LDisk.linkOrCopy
  split
  · rename_i hhl
    split
    · rename_i i hi
      split
      · rename_i hc
        simp only [Bool.and_eq_true, Bool.not_eq_true'] at hc
        have hn := (ldisk_exists_false.1 hc.1.2).2
        have nc : ¬ Copies c := by
          rintro (e | e)
          · rw [hh, hhl] at e; exact e rfl
          · rw [hc.1.1] at e; cases e
        refine ⟨grown_dset hp hn, Nat.le_refl _, fun p j hj => ?_, fun _ _ _ => rfl, fun _ _ hne => absurd rfl hne,
          fun e => absurd e nc, fun e => absurd e nc⟩
        simp only [dget_dset] at hj
        split at hj
        · injection hj with hj; injection hj with hj
          rw [← hj]; exact h _ _ hi
        · exact h _ _ hj
      · split
        · exact repStep_refl h c
        · exact hcopy
    · exact hcopy
  · exact hcopy

theorem repStep_copyFile {d : LDisk} (h : InodesOk d) {c : RepCall} (hp : c.path ≠ []) :
    RepStep d c (d.copyFile (c.bag ++ c.path) (c.dest ++ c.path)).2 := by
  unfold LDisk.copyFile
  split
  · split
    · exact repStep_refl h c
    · rename_i d' hw
      exact repStep_write h hp (fun _ => rfl) hw
  · exact repStep_refl h c

end Verif

namespace Verif

open Spec

theorem repStep_trans {a b c' : LDisk} {c : RepCall} (h1 : RepStep a c b) (h2 : RepStep b c c')
    (hf : PlaceFree a c → PlaceFree b c) (hnf : ∀ p i, dget b.names p = some (.file i) → dget a.names p = some (.file i)) :
    RepStep a c c' := by
  refine ⟨grown_trans h1.grown h2.grown, Nat.le_trans h1.next h2.next, h2.ok, fun hfr j hj => ?_, fun j hj hne => ?_,
    fun hc p i hp => ?_, fun hc hu => h2.unshared hc (h1.unshared hc hu)⟩
  · rw [h2.fresh (hf hfr) j (Nat.lt_of_lt_of_le hj h1.next), h1.fresh hfr j hj]
  · by_cases e : b.data j = a.data j
    · rw [← e] at hne
      obtain ⟨x, hx, hd⟩ := h2.data j (Nat.lt_of_lt_of_le hj h1.next) hne
      exact ⟨x, hx, hnf _ _ hd⟩
    · exact h1.data j hj e
  · rcases h2.copies hc p i hp with e | e
    · exact .inl (hnf p i e)
    · exact .inr (Nat.le_trans h1.next e)

theorem makedirs_names {d d' : LDisk} {dest p : Path} (hm : d.makedirs dest p = .ok d') :
    d.names.makedirsFrom (dest ++ []) p = .ok d'.names ∧ d'.data = d.data ∧ d'.next = d.next := by
  unfold LDisk.makedirs at hm
  split at hm
  · cases hm
  · rename_i t ht
    injection hm with hm
    subst hm
    exact ⟨by rw [List.append_nil]; exact ht, rfl, rfl⟩

/-- New directories are on the way. -/
theorem lmakedirs_way {rest : Path} {t t' : LTree} {pre : Path} (h : t.makedirsFrom pre rest = .ok t') {p : Path}
    (hp : dget t p = none) (hn : ¬ p <+: pre ++ rest) : dget t' p = none := by
  induction rest generalizing t pre with
  | nil =>
    simp only [LTree.makedirsFrom, Except.ok.injEq] at h
    subst h; exact hp
  | cons c rest ih =>
    simp only [LTree.makedirsFrom] at h
    have hn' : ¬ p <+: pre ++ [c] ++ rest := by rw [List.append_assoc]; exact hn
    split at h
    · exact ih h hp hn'
    · split at h
      · cases h
      · rename_i t1 h1
        refine ih h ?_ hn'
        rw [(lmkdir_ok h1).1, dget_dset, if_neg, hp]
        rintro rfl
        exact hn ⟨rest, by simp⟩

theorem fresh_makedirs {d d' : LDisk} {c : RepCall} (hp : c.path ≠ []) (hm : d.makedirs c.dest c.path.dropLast = .ok d')
    (hf : PlaceFree d c) : PlaceFree d' c := by
  have h1 := ldisk_exists_false.1 hf
  refine ldisk_exists_false.2 ⟨h1.1, lmakedirs_way (makedirs_names hm).1 h1.2 ?_⟩
  intro hh
  have := hh.length_le
  have := List.length_pos_iff.2 hp
  simp at *; omega

theorem repStep_replicate {d : LDisk} (h : InodesOk d) {c : RepCall} (hp : c.path ≠ []) : RepStep d c (d.replicate c).2 := by
  unfold LDisk.replicate
  simp only
  split
  · exact repStep_refl h c
  · split
    · split
      · exact repStep_refl h c
      · split
        · exact repStep_refl h c
        · rename_i d' hm
          exact repStep_makedirs h hm
    · split
      · exact repStep_refl h c
      · rename_i d1 h1
        have key : RepStep d c d1 ∧ (PlaceFree d c → PlaceFree d1 c) ∧
            (∀ p i, dget d1.names p = some (.file i) → dget d.names p = some (.file i)) := by
          split at h1
          · cases h1; exact ⟨repStep_refl h c, id, fun _ _ h => h⟩
          · exact ⟨repStep_makedirs h h1, fresh_makedirs hp h1, (lmakedirs_ok (makedirs_names h1).1).2.1⟩
        refine repStep_trans key.1 ?_ key.2.1 key.2.2
        split
        · rename_i hl hh
          exact repStep_linkOrCopy key.1.ok hp hh
        · exact repStep_copyFile key.1.ok hp

/-- What is seen at a name that exists depends on its inode. -/
theorem node_of_step {d d' : LDisk} (g : ∀ p n, dget d.names p = some n → dget d'.names p = some n) {p : Path} {n : LNode}
    (hn : dget d.names p = some n) (hd : ∀ i, n = .file i → d'.data i = d.data i) : d'.node p = d.node p := by
  unfold LDisk.node
  rw [hn, g p n hn]
  cases n with
  | dir => rfl
  | file i => simp [LNode.view, hd i rfl]

end Verif
