import Verif.Spec.PlanText
import Verif.Props.ReplicateText
/-!
# Lemmas on plans with any strings
-/

namespace Verif
open Spec

/-- Without `..`, the same path is followed below every directory. -/
theorem follow_below {cs : List Str} (h : py!".." ∉ cs) (D : Path) : follow D cs = D ++ follow [] cs := by
  induction cs generalizing D with
  | nil => simp [follow]
  | cons c cs ih =>
    have h1 : c ≠ py!".." := by rintro rfl; simp at h
    have h2 : py!".." ∉ cs := fun hh => h (by simp [hh])
    simp only [follow, if_neg h1]
    split
    · exact ih h2 D
    · rw [ih h2 (D ++ [c]), ih h2 ([] ++ [c])]; simp

/-- The components of a path string that count. -/
def placeBelow (f : Str) : Path := follow [] (splitOn '/' f)

theorem leads_below {f : Str} (h : Downwards f) (D : Path) : leadsTo D f = D ++ placeBelow f := by
  unfold leadsTo placeBelow
  rw [if_neg h.1, follow_below h.2]

theorem leads_join {b : Str} {D : Path} (hD : AbsPath b D) {f : Str} (h : Downwards f) :
    leadsTo [] (pathJoin b f) = D ++ placeBelow f := by
  rw [leadsTo_dest hD h.1, follow_below h.2]; rfl

/-- What holds of a disk while a bag in `D` is filled from a bag in `B`. -/
structure Fillable (B D : Path) (d : LDisk) : Prop where
  ok : InodesOk d
  own : ∀ x i q, dget d.names (D ++ x) = some (.file i) → dget d.names q = some (.file i) → q ≠ D ++ x →
    dget d.names (B ++ x) = some (.file i)
  rooted : ∀ x y, y ≠ [] → ¬ D <+: x ++ y → d.exists (x ++ y) = true → d.isdir x = true
  dir : HasDir d D

/-- The file at `x` is in the new bag as it is in the source. -/
def Delivered (B D : Path) (d : LDisk) (x : Path) : Prop :=
  ∃ i k, dget d.names (D ++ x) = some (.file i) ∧ dget d.names (B ++ x) = some (.file k) ∧ d.data i = d.data k

/-- What may change while a bag in `D` is filled from a bag in `B`; the files at `X` may be linked. -/
structure Filled (X : Path → Prop) (B D : Path) (d d' : LDisk) : Prop where
  grown : Grown D d.names d'.names
  after : Fillable B D d'
  kept : ∀ q i, ¬ D <+: q → dget d.names q = some (.file i) → d'.data i = d.data i
  same : ∀ x, X x → Delivered B D d x → Delivered B D d' x
  linked : ∀ x i, dget d'.names (D ++ x) = some (.file i) → dget d.names (B ++ x) = some (.file i) →
    dget d.names (D ++ x) = some (.file i) ∨ X x

/-- Two directories, neither in the other. -/
def SideBySide (B D : Path) : Prop := B ≠ [] ∧ ∀ z, ¬ D <+: B ++ z

variable {X : Path → Prop}

theorem filled_refl {B D : Path} {d : LDisk} (h : Fillable B D d) : Filled X B D d d :=
  ⟨grown_refl _ _, h, fun _ _ _ _ => rfl, fun _ _ h => h, fun _ _ h _ => .inl h⟩

theorem filled_trans {B D : Path} {a b c : LDisk} (h1 : Filled X B D a b) (h2 : Filled X B D b c) : Filled X B D a c :=
  ⟨grown_trans h1.grown h2.grown, h2.after,
    fun q i hq hi => (h2.kept q i hq (h1.grown.keep _ _ hi)).trans (h1.kept q i hq hi), fun x hX h => h2.same x hX (h1.same x hX h),
    fun x i h h' => (h2.linked x i h (h1.grown.keep _ _ h')).elim (fun e => h1.linked x i e h') .inr⟩

/-- Outside `D` the names are the same. -/
theorem grown_outside {D : Path} {t t' : LTree} (g : Grown D t t') {q : Path} (hq : ¬ D <+: q) : dget t' q = dget t q := by
  cases h : dget t q with
  | some n => exact g.keep _ _ h
  | none =>
    cases h' : dget t' q with
    | none => rfl
    | some n =>
      obtain ⟨x, _, e⟩ := g.new q h (by rw [h']; simp)
      exact absurd ⟨x, e.symm⟩ hq

theorem rooted_grown {B D : Path} {d d' : LDisk} (h : Fillable B D d) (g : Grown D d.names d'.names) :
    ∀ x y, y ≠ [] → ¬ D <+: x ++ y → d'.exists (x ++ y) = true → d'.isdir x = true := by
  intro x y hy hn he
  have e : d.exists (x ++ y) = true := by
    unfold LDisk.exists at he ⊢
    rwa [grown_outside g hn] at he
  rcases ldisk_isdir_iff.1 (h.rooted x y hy hn e) with h0 | h0
  · exact ldisk_isdir_iff.2 (.inl h0)
  · exact ldisk_isdir_iff.2 (.inr (g.keep _ _ h0))

theorem filled_dirs {B D : Path} {d d' : LDisk} (h : Fillable B D d) (s : DirsAdded D d d') : Filled X B D d d' where
  grown := s.grown
  linked := fun x i h _ => .inl (s.files _ _ h)
  kept := fun _ _ _ _ => by rw [s.data]
  same := by
    rintro x _ ⟨i, k, h1, h2, h3⟩
    exact ⟨i, k, s.grown.keep _ _ h1, s.grown.keep _ _ h2, by rw [s.data]; exact h3⟩
  after := {
    ok := fun p i hp => by rw [s.next]; exact h.ok p i (s.files p i hp)
    own := fun x i q hx hq hn => s.grown.keep _ _ (h.own x i q (s.files _ _ hx) (s.files _ _ hq) hn)
    rooted := rooted_grown h s.grown
    dir := hasDir_grown h.dir s.grown }

/-- Below a file of the source there is nothing. -/
theorem fillable_solid {B D : Path} (hBD : SideBySide B D) {d : LDisk} (h : Fillable B D d) {x y : Path} {i : Nat} (hy : y ≠ [])
    (hx : dget d.names (B ++ x) = some (.file i)) : dget d.names (B ++ (x ++ y)) = none := by
  cases he : dget d.names (B ++ (x ++ y)) with
  | none => rfl
  | some n =>
    have := h.rooted (B ++ x) y hy (by rw [List.append_assoc]; exact hBD.2 _)
      (by rw [List.append_assoc]; simp [LDisk.exists, he])
    rcases ldisk_isdir_iff.1 this with e | e
    · exact absurd (List.append_eq_nil_iff.1 e).1 hBD.1
    · rw [hx] at e; cases e

theorem filled_link {B D : Path} (hBD : SideBySide B D) {d : LDisk} (h : Fillable B D d) {x : Path} {i : Nat} (hX : X x) (hx : x ≠ [])
    (hs : dget d.names (B ++ x) = some (.file i)) (hn : dget d.names (D ++ x) = none) :
    Filled X B D d { d with names := dset d.names (D ++ x) (.file i) } := by
  have g : Grown D d.names (dset d.names (D ++ x) (.file i)) := grown_dset hx hn
  have hB : ¬ D <+: B ++ x := hBD.2 x
  have hget : ∀ p, dget (dset d.names (D ++ x) (.file i)) p = if p = D ++ x then some (.file i) else dget d.names p :=
    fun p => by rw [dget_dset]; simp only [eq_comm]
  have hin : ∀ y j, dget (dset d.names (D ++ x) (.file i)) (D ++ y) = some (.file j) →
      (y = x ∧ j = i) ∨ dget d.names (D ++ y) = some (.file j) := by
    intro y j hy
    rw [hget] at hy
    split at hy
    · rename_i e
      exact .inl ⟨List.append_cancel_left e, by cases hy; rfl⟩
    · exact .inr hy
  refine ⟨g, ?_, fun _ _ _ _ => rfl, ?_, fun y j hy _ => ?_⟩
  · refine ⟨?_, ?_, rooted_grown h g, hasDir_grown (d' := { d with names := _ }) h.dir g⟩
    · intro p j hp
      simp only [hget] at hp
      split at hp
      · cases hp; exact h.ok _ _ hs
      · exact h.ok _ _ hp
    · intro y j q hy hq hne
      apply g.keep
      rcases hin y j hy with ⟨rfl, rfl⟩ | hy'
      · exact hs
      · simp only [hget] at hq
        split at hq
        · cases hq
          exact h.own y _ _ hy' hs (fun e => hB (e ▸ List.prefix_append _ _))
        · exact h.own y j q hy' hq hne
  · rintro y _ ⟨j, k, h1, h2, h3⟩
    exact ⟨j, k, g.keep _ _ h1, g.keep _ _ h2, h3⟩
  · rcases hin y j hy with ⟨rfl, _⟩ | h
    · exact .inr hX
    · exact .inl h

theorem filled_write {B D : Path} (hBD : SideBySide B D) {d d' : LDisk} (h : Fillable B D d) {z : Path} {s : Str}
    (hw : d.write (D ++ z) s = .ok d')
    (hno : ∀ j, dget d.names (D ++ z) = some (.file j) → dget d.names (B ++ z) ≠ some (.file j))
    (hs : X z → ∀ k, dget d.names (B ++ z) = some (.file k) → s = d.data k) : Filled X B D d d' := by
  have hg := (touchesOnly_write (h.dir D (List.prefix_refl _)) hw).grown
  unfold LDisk.write at hw
  split at hw
  · cases hw
  · split at hw
    · rename_i j hj
      injection hw with hw
      subst hw
      have hout : ∀ q i, ¬ D <+: q → dget d.names q = some (.file i) → i ≠ j := by
        rintro q i hq hi rfl
        exact hno i hj (h.own z i q hj hi (fun e => hq (e ▸ List.prefix_append _ _)))
      refine ⟨grown_refl _ _, ⟨h.ok, h.own, h.rooted, h.dir⟩, ?_, ?_, fun _ _ h _ => .inl h⟩
      · intro q i hq hi
        simp [hout q i hq hi]
      · rintro x hX ⟨i, k, h1, h2, h3⟩
        refine ⟨i, k, h1, h2, ?_⟩
        have hk : k ≠ j := hout _ k (hBD.2 x) h2
        simp only [hk, if_false]
        by_cases e : i = j
        · subst e
          have hxz : x = z := Classical.byContradiction fun hne =>
            hno i hj (h.own z i _ hj h1 (fun e => hne (List.append_cancel_left e)))
          subst hxz
          simp [hs hX k h2]
        · simp [e, h3]
    · rename_i hnf
      injection hw with hw
      subst hw
      have hget : ∀ p, dget (dset d.names (D ++ z) (.file d.next)) p = if p = D ++ z then some (.file d.next) else dget d.names p :=
        fun p => by rw [dget_dset]; simp only [eq_comm]
      have hold : ∀ p i, dget d.names p = some (.file i) → i ≠ d.next := fun p i hp e => by
        have := h.ok p i hp; omega
      have hin : ∀ y j, dget (dset d.names (D ++ z) (.file d.next)) (D ++ y) = some (.file j) →
          (y = z ∧ j = d.next) ∨ dget d.names (D ++ y) = some (.file j) := by
        intro y j hy
        rw [hget] at hy
        split at hy
        · rename_i e
          exact .inl ⟨List.append_cancel_left e, by cases hy; rfl⟩
        · exact .inr hy
      refine ⟨hg, ⟨?_, ?_, rooted_grown h hg, hasDir_grown h.dir hg⟩, ?_, ?_, ?_⟩
      · intro p j hp
        simp only [hget] at hp
        split at hp
        · cases hp; exact Nat.lt_succ_self _
        · exact Nat.lt_succ_of_lt (h.ok _ _ hp)
      · intro y j q hy hq hne
        simp only [hget] at hq
        rcases hin y j hy with ⟨rfl, rfl⟩ | hy'
        · rw [if_neg hne] at hq
          exact absurd rfl (hold _ _ hq)
        · split at hq
          · cases hq
            exact absurd rfl (hold _ _ hy')
          · exact hg.keep _ _ (h.own y j q hy' hq hne)
      · intro q i _ hi
        simp [hold q i hi]
      · rintro x _ ⟨i, k, h1, h2, h3⟩
        exact ⟨i, k, hg.keep _ _ h1, hg.keep _ _ h2, by simp [hold _ i h1, hold _ k h2, h3]⟩
      · intro x i h1 h2
        rcases hin x i h1 with ⟨_, rfl⟩ | h
        · exact absurd rfl (hold _ _ h2)
        · exact .inl h

end Verif

namespace Verif
open Spec

variable {X : Path → Prop}

theorem filled_linkAt {B D : Path} (hBD : SideBySide B D) {d d' : LDisk} (h : Fillable B D d) {src dst : Str} {x : Path} (hX : X x)
    (hs : leadsTo [] src = B ++ x) (hd : leadsTo [] dst = D ++ x) (he : d.linkAt src dst = some d') :
    Filled X B D d d' ∧ Delivered B D d' x := by
  unfold LDisk.linkAt at he
  split at he
  · next q p hq hp =>
    rw [place_leads hq, place_leads hp, hs, hd] at he
    split at he
    · next i hi =>
      split at he
      · next hc =>
        injection he with he
        simp only [Bool.and_eq_true, Bool.not_eq_true'] at hc
        have hx : x ≠ [] := by
          rintro rfl
          rw [List.append_nil, isdir_exists (h.dir D (List.prefix_refl _))] at hc
          cases hc.1
        subst he
        have hn := (ldisk_exists_false.1 hc.1).2
        have hf := filled_link hBD h hX hx hi hn
        refine ⟨hf, i, i, ?_, hf.grown.keep _ _ hi, rfl⟩
        show dget (dset _ _ _) _ = _
        rw [dget_dset, if_pos rfl]
      · cases he
    · cases he
  · cases he

/-- Where a copy is written. -/
def copyTarget (d : LDisk) (src dst : Str) : Str := if d.isdirAt dst then pathJoin dst (baseName src) else dst

theorem copyAt_eq (d : LDisk) (src dst : Str) : d.copyAt src dst =
    match d.place src, d.place (copyTarget d src dst) with
    | some q, some p =>
      match dget d.names q with
      | some (.file i) =>
        if dget d.names p = some (.file i) then none
        else match d.write p (d.data i) with
          | .ok d => some d
          | .error _ => none
      | _ => none
    | _, _ => none := rfl

theorem filled_copyAt {B D : Path} (hBD : SideBySide B D) {d d' : LDisk} (h : Fillable B D d) {src dst : Str} {x : Path}
    (hs : leadsTo [] src = B ++ x) (hd : leadsTo [] dst = D ++ x) (hne : dst ≠ []) (hb : baseName src ≠ ['.', '.'])
    (he : d.copyAt src dst = some d') : Filled X B D d d' ∧ (d.isdirAt dst = false → Delivered B D d' x) := by
  rw [copyAt_eq] at he
  have hsl : '/' ∉ baseName src := by
    unfold baseName
    cases hl : (splitOn '/' src).getLast? with
    | none => simp
    | some b => exact sep_not_mem_splitOn (List.mem_of_getLast? hl)
  have ht : ∃ y, leadsTo [] (copyTarget d src dst) = D ++ (x ++ y) ∧ (d.isdirAt dst = false → y = []) := by
    unfold copyTarget
    cases hi : d.isdirAt dst with
    | false => exact ⟨[], by simpa using hd, fun _ => rfl⟩
    | true =>
      rw [if_pos rfl, leadsTo_pathJoin [] hne (fun e => hsl (List.mem_of_head? e)), splitOn_noSep hsl, hd]
      obtain ⟨y, hy⟩ := follow_downwards (cs := [baseName src]) (by simpa using fun e => hb e.symm) (D ++ x)
      exact ⟨y, by rw [← hy, List.append_assoc], fun e => by cases e⟩
  obtain ⟨y, hy, hy0⟩ := ht
  revert he hy
  generalize copyTarget d src dst = target
  intro he hy
  split at he
  · next q p hq hp =>
    rw [place_leads hq, place_leads hp, hs, hy] at he
    split at he
    · next i hi =>
      split at he
      · cases he
      · next hni =>
        split at he
        · next d1 hw =>
          injection he with he
          subst he
          have hz : ∀ k, dget d.names (B ++ (x ++ y)) = some (.file k) → y = [] ∧ k = i := by
            intro k hk
            by_cases h0 : y = []
            · subst h0
              rw [List.append_nil, hi] at hk
              exact ⟨rfl, by cases hk; rfl⟩
            · rw [fillable_solid hBD h h0 hi] at hk; cases hk
          have hf := filled_write (X := X) hBD h hw
            (fun j hj hk => by
              obtain ⟨h0, rfl⟩ := hz j hk
              exact hni hj)
            (fun _ k hk => by rw [(hz k hk).2])
          refine ⟨hf, fun hnd => ?_⟩
          obtain rfl := hy0 hnd
          rw [List.append_nil] at hw hni
          have hk := hf.grown.keep _ _ hi
          have hki := hf.kept _ i (hBD.2 x) hi
          unfold LDisk.write at hw
          split at hw
          · cases hw
          · split at hw
            · rename_i j hj
              injection hw with hw
              subst hw
              refine ⟨j, i, hj, hk, ?_⟩
              rw [hki]; simp
            · injection hw with hw
              subst hw
              refine ⟨d.next, i, ?_, hk, ?_⟩
              · show dget (dset _ _ _) _ = _
                rw [dget_dset, if_pos rfl]
              · rw [hki]; simp
        · cases he
    · cases he
  · cases he

/-- What is found by going down is in a directory. -/
theorem go_parent {d : LDisk} {cs : List Str} (hup : py!".." ∉ cs) {cur p : Path} (h : d.go cur cs = some p) :
    p = cur ∨ d.isdir p.dropLast = true := by
  induction cs generalizing cur with
  | nil => cases h; exact .inl rfl
  | cons c cs ih =>
    have h1 : c ≠ py!".." := by rintro rfl; simp at hup
    have h2 : py!".." ∉ cs := fun hh => hup (by simp [hh])
    rw [go_cons] at h
    cases hc : d.isdir cur with
    | false => simp [hc] at h
    | true =>
      rw [hc] at h
      simp only [Bool.not_true, Bool.false_eq_true, if_false, if_neg h1] at h
      split at h
      · exact ih h2 h
      · rcases ih h2 h with e | e
        · right; rw [e]; simpa using hc
        · exact .inr e

end Verif

namespace Verif
open Spec

/-- Whatever is gone through is a directory. -/
theorem go_dirs {d : LDisk} {cs : List Str} {cur p : Path} (h : d.go cur cs = some p) {a b : List Str} (e : cs = a ++ b)
    (hb : b ≠ []) : d.isdir (follow cur a) = true := by
  induction cs generalizing cur a with
  | nil =>
    have := List.append_eq_nil_iff.1 e.symm
    exact absurd this.2 hb
  | cons c cs ih =>
    rw [go_cons] at h
    cases hc : d.isdir cur with
    | false => simp [hc] at h
    | true =>
      cases a with
      | nil => exact hc
      | cons c' a =>
        injection e with e1 e2
        subst e1
        rw [hc] at h
        simp only [Bool.not_true, Bool.false_eq_true, if_false] at h
        unfold follow
        by_cases h1 : c = [] ∨ c = ['.']
        · rw [if_pos (by simpa using h1)] at h
          rw [if_pos h1]; exact ih h e2
        · rw [if_neg (by simpa using h1)] at h
          rw [if_neg h1]
          by_cases h2 : c = ['.', '.']
          · rw [if_pos h2] at h
            rw [if_pos h2]; exact ih h e2
          · rw [if_neg h2] at h
            rw [if_neg h2]; exact ih h e2

theorem place_join {d : LDisk} {b : Str} {D : Path} (hD : AbsPath b D) {f : Str} (hf : Downwards f) {p : Path}
    (h : d.place (pathJoin b f) = some p) : p = D ++ placeBelow f ∧ d.go D (splitOn '/' f) = some p := by
  refine ⟨by rw [place_leads h, leads_join hD hf], ?_⟩
  unfold LDisk.place at h
  rw [split_join hD hf.1, ← List.cons_append, go_append] at h
  cases hg : d.go [] ([] :: D) with
  | none => rw [hg] at h; cases h
  | some r =>
    rw [hg] at h
    have : r = D := by
      rw [go_follow hg]
      show follow [] D = D
      rw [follow_good _ hD.1.2]; rfl
    rw [this] at h
    exact h

/-- A file where an entry leads to in the new bag. -/
theorem isfileAt_join {d : LDisk} {b : Str} {D : Path} (hD : AbsPath b D) {f : Str} (hf : Downwards f)
    (h : d.isfileAt (pathJoin b f) = true) : (∃ i, dget d.names (D ++ placeBelow f) = some (.file i)) ∧
      d.place (pathJoin b f) = some (D ++ placeBelow f) ∧
      (∀ a c, splitOn '/' f = a ++ c → c ≠ [] → d.isdir (D ++ follow [] a) = true) ∧
      (d.isdir D = true → d.isdir (D ++ placeBelow f).dropLast = true) := by
  unfold LDisk.isfileAt at h
  cases hp : d.place (pathJoin b f) with
  | none => rw [hp] at h; cases h
  | some p =>
    rw [hp] at h
    obtain ⟨rfl, hg⟩ := place_join hD hf hp
    have hfile : ∃ i, dget d.names (D ++ placeBelow f) = some (.file i) := by
      cases hn : dget d.names (D ++ placeBelow f) with
      | none => simp [hn] at h
      | some n =>
        cases n with
        | dir => simp [hn] at h
        | file i => exact ⟨i, rfl⟩
    refine ⟨hfile, rfl, fun a c e hc => ?_, fun hd => ?_⟩
    · have := go_dirs hg e hc
      rwa [follow_below (fun hm => hf.2 (by rw [e]; exact List.mem_append_left _ hm))] at this
    · rcases go_parent hf.2 hg with e | e
      · obtain ⟨i, hi⟩ := hfile
        rw [e] at hi
        rcases ldisk_isdir_iff.1 hd with e0 | e0
        · rw [e0] at hD; exact absurd rfl hD.1.1
        · rw [hi] at e0; cases e0
      · exact e

theorem exists_of_file {d : LDisk} {p : Path} {n : LNode} (h : dget d.names p = some n) : d.exists p = true := by
  simp [LDisk.exists, h]

/-- Then the same entry can be looked up in the source. -/
theorem place_source {B D : Path} (hBD : SideBySide B D) {d e : LDisk} (h : Fillable B D d) {bag out f : Str} (hB : AbsPath bag B)
    (hD : AbsPath out D) (hf : Downwards f) (he : e.isdir D = true) (hfile : e.isfileAt (pathJoin out f) = true)
    (hs : d.exists (B ++ placeBelow f) = true) : d.place (pathJoin bag f) = some (B ++ placeBelow f) := by
  obtain ⟨⟨i, hi⟩, _, hdirs, _⟩ := isfileAt_join hD hf hfile
  have hx : placeBelow f ≠ [] := by
    intro e0
    rw [e0, List.append_nil] at hi
    rcases ldisk_isdir_iff.1 he with e1 | e1
    · exact hD.1.1 e1
    · rw [hi] at e1; cases e1
  have hHas : HasDir d B := by
    rintro z ⟨w, hw⟩
    refine h.rooted z (w ++ placeBelow f) (by simp [hx]) ?_ ?_
    · rw [← List.append_assoc, hw]; exact hBD.2 _
    · rw [← List.append_assoc, hw]; exact hs
  rw [place_can hB hHas hf.1, leads_below hf]
  intro a c e0 hc
  have hua : py!".." ∉ a := fun hm => hf.2 (by rw [e0]; exact List.mem_append_left _ hm)
  have huc : py!".." ∉ c := fun hm => hf.2 (by rw [e0]; exact List.mem_append_right _ hm)
  rw [follow_below hua]
  have hsum : placeBelow f = follow [] a ++ follow [] c := by
    unfold placeBelow
    rw [e0, follow_append, follow_below huc]
  have hw : follow [] c ≠ [] := by
    intro e1
    rw [e1, List.append_nil] at hsum
    have := hdirs a c e0 hc
    rw [← hsum] at this
    rcases ldisk_isdir_iff.1 this with e2 | e2
    · exact hx (List.append_eq_nil_iff.1 e2).2
    · rw [hi] at e2; cases e2
  refine h.rooted _ (follow [] c) hw ?_ ?_
  · rw [List.append_assoc]; exact hBD.2 _
  · rw [List.append_assoc, ← hsum]; exact hs

/-- A call with an entry of a plan. -/
def Filling.call (c : Filling) (f : Str) : TextCall :=
  { bag := c.bag, path := f, dest := c.out, hardlink := c.hardlink, canLink := c.canLink f }

variable {X : Path → Prop}

theorem filled_copyOrForget {B D : Path} (hBD : SideBySide B D) {d : LDisk} (h : Fillable B D d) {c : Filling} {f : Str}
    (hB : AbsPath c.bag B) (hD : AbsPath c.out D) (hf : Downwards f) :
    Filled X B D d (d.copyOrForgetAt (c.call f)).2 ∧
    (∀ k, dget d.names (B ++ placeBelow f) = some (.file k) →
      (d.copyOrForgetAt (c.call f)).2.isfileAt (pathJoin c.out f) = true → Delivered B D (d.copyOrForgetAt (c.call f)).2 (placeBelow f)) := by
  have hsl : '/' ∈ pathJoin c.out f := by
    unfold pathJoin isAbs
    rw [if_neg (by simpa using hf.1)]
    have : '/' ∈ c.out := by rw [hD.2]; simp
    split <;> simp [this]
  have hbase : baseName (pathJoin c.bag f) ≠ ['.', '.'] := by
    unfold baseName
    rw [split_join hB hf.1, ← List.cons_append, List.getLast?_append]
    cases hl : (splitOn '/' f).getLast? with
    | none => exact absurd (List.getLast?_eq_none_iff.1 hl) (splitOn_ne_nil _ _)
    | some b =>
      simp only [Option.some_or, Option.getD_some]
      rintro rfl
      exact hf.2 (List.mem_of_getLast? hl)
  have hdir : d.isdir D = true := h.dir D (List.prefix_refl _)
  cases hc : d.copyAt (pathJoin c.bag f) (pathJoin c.out f) with
  | some d2 =>
    have e : d.copyOrForgetAt (c.call f) = (.ok (), d2) := by
      unfold LDisk.copyOrForgetAt Filling.call
      simp only [hc]
    rw [e]
    obtain ⟨h1, h2⟩ := filled_copyAt hBD h (leads_join hB hf) (leads_join hD hf) (by intro e; rw [e] at hsl; cases hsl) hbase hc
    refine ⟨h1, fun k _ hfile => h2 ?_⟩
    cases hi : d.isdirAt (pathJoin c.out f) with
    | false => rfl
    | true =>
      obtain ⟨⟨i, hi'⟩, _⟩ := isfileAt_join hD hf hfile
      unfold LDisk.isdirAt at hi
      cases hp : d.place (pathJoin c.out f) with
      | none => rw [hp] at hi; cases hi
      | some p =>
        rw [hp, (place_join hD hf hp).1] at hi
        rcases ldisk_isdir_iff.1 hi with e0 | e0
        · exact absurd (List.append_eq_nil_iff.1 e0).1 hD.1.1
        · rw [h1.grown.keep _ _ e0] at hi'; cases hi'
  | none =>
    have e : d.copyOrForgetAt (c.call f) = (.ok (), d) := by
      unfold LDisk.copyOrForgetAt Filling.call
      simp only [hc]
      rfl
    rw [e]
    refine ⟨filled_refl h, fun k hk hfile => ?_⟩
    obtain ⟨⟨i, hi⟩, hp, _, hpar⟩ := isfileAt_join hD hf hfile
    have hq := place_source hBD h hB hD hf hdir hfile (exists_of_file hk)
    have hnd : d.isdir (D ++ placeBelow f) = false := by
      cases hx : d.isdir (D ++ placeBelow f) with
      | false => rfl
      | true =>
        rcases ldisk_isdir_iff.1 hx with e0 | e0
        · exact absurd (List.append_eq_nil_iff.1 e0).1 hD.1.1
        · rw [hi] at e0; cases e0
    have ht : copyTarget d (pathJoin c.bag f) (pathJoin c.out f) = pathJoin c.out f := by
      unfold copyTarget LDisk.isdirAt
      rw [hp]
      simp [hnd]
    rw [copyAt_eq, ht, hq, hp] at hc
    simp only [hk] at hc
    split at hc
    · next hsame => exact ⟨k, k, hsame, hk, rfl⟩
    · unfold LDisk.write at hc
      rw [hnd, hpar hdir, hi] at hc
      simp at hc

theorem filled_linkOrCopy {B D : Path} (hBD : SideBySide B D) {d : LDisk} (h : Fillable B D d) {c : Filling} {f : Str}
    (hB : AbsPath c.bag B) (hD : AbsPath c.out D) (hf : Downwards f)
    (hX : X (placeBelow f)) :
    Filled X B D d (d.linkOrCopyAt (c.call f)).2 ∧
    (∀ k, dget d.names (B ++ placeBelow f) = some (.file k) →
      (d.linkOrCopyAt (c.call f)).2.isfileAt (pathJoin c.out f) = true → Delivered B D (d.linkOrCopyAt (c.call f)).2 (placeBelow f)) := by
  have hcopy := filled_copyOrForget (X := X) hBD h hB hD hf
  unfold LDisk.linkOrCopyAt
  split
  · split
    · next d1 hl =>
      split at hl
      · obtain ⟨h1, h2⟩ := filled_linkAt hBD h hX (leads_join hB hf) (leads_join hD hf) hl
        exact ⟨h1, fun _ _ _ => h2⟩
      · cases hl
    · exact hcopy
  · exact hcopy

/-- What a bag says about an entry is what is at its place. -/
theorem canon_below {B : Path} {bag f : Str} (hB : AbsPath bag B) (hf : Downwards f) :
    canonPath bag f = some ('/' :: joinPath (B ++ placeBelow f)) := by
  have := C67_inside_accepted hB hf.1 (by rw [leads_below hf]; exact List.prefix_append _ _)
  rwa [leads_below hf] at this

theorem canon_place {B D : Path} (hBD : SideBySide B D) {d : LDisk} (h : Fillable B D d) {bag f : Str} (hB : AbsPath bag B)
    (hf : Downwards f) :
    d.existsAt ('/' :: joinPath (B ++ placeBelow f)) = d.exists (B ++ placeBelow f) ∧
    d.isdirAt ('/' :: joinPath (B ++ placeBelow f)) = d.isdir (B ++ placeBelow f) := by
  have hg : ∀ c ∈ B ++ placeBelow f, GoodName c := by
    have := goodName_leadsTo hB.1.2 f
    rwa [leads_below hf] at this
  unfold LDisk.existsAt LDisk.isdirAt
  cases hex : d.exists (B ++ placeBelow f) with
  | true =>
    have : d.place ('/' :: joinPath (B ++ placeBelow f)) = some (B ++ placeBelow f) := by
      refine place_abs hg (fun x y e hy => ?_)
      refine h.rooted x y hy ?_ (by rw [← e]; exact hex)
      rw [← e]; exact hBD.2 _
    rw [this]
    exact ⟨hex, rfl⟩
  | false =>
    have hnd : d.isdir (B ++ placeBelow f) = false := by
      cases hd : d.isdir (B ++ placeBelow f) with
      | false => rfl
      | true => rw [isdir_exists hd] at hex; cases hex
    cases hp : d.place ('/' :: joinPath (B ++ placeBelow f)) with
    | none => exact ⟨rfl, hnd.symm⟩
    | some r =>
      have := place_leads hp
      rw [show leadsTo [] ('/' :: joinPath (B ++ placeBelow f)) = B ++ placeBelow f from
        leadsTo_slashes (k := 1) (by decide) hg []] at this
      rw [this]
      exact ⟨hex, rfl⟩

end Verif

namespace Verif
open Spec

variable {X : Path → Prop}

theorem filled_makedirs {B D : Path} {d : LDisk} (h : Fillable B D d) {out f : Str} (hD : AbsPath out D) (hf : Downwards f) :
    Filled X B D d (d.makedirsAt (pathJoin out f)).2 ∧ Filled X B D d (d.makedirsAt (dirName (pathJoin out f))).2 := by
  have hway := onWay_join hD hf.1 hf.2
  have hsl : '/' ∈ pathJoin out f := by
    unfold pathJoin isAbs
    rw [if_neg (by simpa using hf.1)]
    have : '/' ∈ out := by rw [hD.2]; simp
    split <;> simp [this]
  exact ⟨filled_dirs h (touches_makedirsAt hD.1.2 h.dir hway),
    filled_dirs h (touches_makedirsAt hD.1.2 h.dir (onWay_dirName hsl hway))⟩

/-- The parent directory of a file is made unless it is there. -/
def parentMade (d : LDisk) (opath : Str) : Ended := if d.existsAt (dirName opath) then (.ok (), d) else d.makedirsAt (dirName opath)

theorem filled_parent {B D : Path} {d : LDisk} (h : Fillable B D d) {out f : Str} (hD : AbsPath out D) (hf : Downwards f) :
    Filled X B D d (parentMade d (pathJoin out f)).2 := by
  unfold parentMade
  split
  · exact filled_refl h
  · exact (filled_makedirs h hD hf).2

theorem outside_source {B D : Path} (hBD : SideBySide B D) {d d' : LDisk} (g : Grown D d.names d'.names) (x : Path) :
    dget d'.names (B ++ x) = dget d.names (B ++ x) := grown_outside g (hBD.2 x)

theorem filled_replicate {B D : Path} (hBD : SideBySide B D) {d : LDisk} (h : Fillable B D d) {c : Filling} {f : Str}
    (hB : AbsPath c.bag B) (hD : AbsPath c.out D) (hf : Downwards f)
    (hX : X (placeBelow f)) :
    Filled X B D d (d.replicateAt (c.call f)).2 ∧
    (∀ k, dget d.names (B ++ placeBelow f) = some (.file k) →
      (d.replicateAt (c.call f)).1 = .ok () →
      (d.replicateAt (c.call f)).2.isfileAt (pathJoin c.out f) = true → Delivered B D (d.replicateAt (c.call f)).2 (placeBelow f)) := by
  obtain ⟨hx, hi⟩ := canon_place hBD h hB hf
  have e : d.replicateAt (c.call f) =
      if !d.exists (B ++ placeBelow f) then (.error .valueError, d)
      else if d.isdir (B ++ placeBelow f) then
        if d.isdirAt (pathJoin c.out f) then (.ok (), d) else d.makedirsAt (pathJoin c.out f)
      else
        match parentMade d (pathJoin c.out f) with
        | (.error e, d) => (.error e, d)
        | (.ok _, d) => d.linkOrCopyAt (c.call f) := by
    unfold LDisk.replicateAt
    have : canonPath (c.call f).bag (c.call f).path = some ('/' :: joinPath (B ++ placeBelow f)) := canon_below hB hf
    rw [this]
    simp only [hx, hi]
    rfl
  rw [e]
  split
  · exact ⟨filled_refl h, fun _ _ he => by cases he⟩
  · split
    · next hdir =>
      have hno : ∀ k, dget d.names (B ++ placeBelow f) ≠ some (.file k) := by
        intro k hk
        rcases ldisk_isdir_iff.1 hdir with e0 | e0
        · exact hBD.1 (List.append_eq_nil_iff.1 e0).1
        · rw [hk] at e0; cases e0
      split
      · exact ⟨filled_refl h, fun k hk => absurd hk (hno k)⟩
      · exact ⟨(filled_makedirs h hD hf).1, fun k hk => absurd hk (hno k)⟩
    · have hp := filled_parent (X := X) h hD hf
      revert hp
      generalize parentMade d (pathJoin c.out f) = r
      intro hp
      obtain ⟨r1, d1⟩ := r
      cases r1 with
      | error e => exact ⟨hp, fun _ _ he => by cases he⟩
      | ok u =>
        obtain ⟨h1, h2⟩ := filled_linkOrCopy hBD hp.after hB hD hf hX
        refine ⟨filled_trans hp h1, fun k hk _ hfile => h2 k ?_ hfile⟩
        rw [← hk]; exact outside_source hBD hp.grown _

theorem putEntry_eq (c : Filling) {B D : Path} (hBD : SideBySide B D) {d : LDisk} (h : Fillable B D d) {f : Str}
    (hB : AbsPath c.bag B) (hf : Downwards f) : d.putEntry c f =
      if !d.exists (B ++ placeBelow f) then (.ok false, d)
      else if d.isdir (B ++ placeBelow f) then
        if d.existsAt (pathJoin c.out f) then (.ok false, d)
        else
          match d.makedirsAt (pathJoin c.out f) with
          | (.ok _, d) => (.ok false, d)
          | (.error e, d) => (.error e, d)
      else
        match parentMade d (pathJoin c.out f) with
        | (.error e, d) => (.error e, d)
        | (.ok _, d) =>
          match d.replicateAt (c.call f) with
          | (.error e, d) => (.error e, d)
          | (.ok _, d) => if d.isfileAt (pathJoin c.out f) then (.ok true, d) else (.error .runtimeError, d) := by
  obtain ⟨hx, hi⟩ := canon_place hBD h hB hf
  unfold LDisk.putEntry LDisk.inBag LDisk.dirInBag
  rw [canon_below hB hf]
  simp only [hx, hi]
  rfl

theorem filled_putEntry {B D : Path} (hBD : SideBySide B D) {d : LDisk} (h : Fillable B D d) {c : Filling} {f : Str}
    (hB : AbsPath c.bag B) (hD : AbsPath c.out D) (hf : Downwards f)
    (hX : X (placeBelow f)) :
    Filled X B D d (d.putEntry c f).2 ∧ ((d.putEntry c f).1 = .ok true → Delivered B D (d.putEntry c f).2 (placeBelow f)) ∧
    (∀ k, dget d.names (B ++ placeBelow f) = some (.file k) → (d.putEntry c f).1 ≠ .ok false) := by
  rw [putEntry_eq c hBD h hB hf]
  split
  · next hn =>
    refine ⟨filled_refl h, fun e => (by cases e), fun k hk => ?_⟩
    rw [exists_of_file hk] at hn; cases hn
  · next hex =>
    split
    · next hdir =>
      have hno : ∀ k, dget d.names (B ++ placeBelow f) ≠ some (.file k) := by
        intro k hk
        rcases ldisk_isdir_iff.1 hdir with e0 | e0
        · exact hBD.1 (List.append_eq_nil_iff.1 e0).1
        · rw [hk] at e0; cases e0
      split
      · exact ⟨filled_refl h, fun e => (by cases e), fun k hk => absurd hk (hno k)⟩
      · have hm := (filled_makedirs (X := X) h hD hf).1
        revert hm
        generalize d.makedirsAt (pathJoin c.out f) = r
        obtain ⟨r1, d1⟩ := r
        intro hm
        cases r1 with
        | ok u => exact ⟨hm, fun e => (by cases e), fun k hk => absurd hk (hno k)⟩
        | error x => exact ⟨hm, fun e => (by cases e), fun k hk => absurd hk (hno k)⟩
    · next hnd =>
      have hfile : ∃ k, dget d.names (B ++ placeBelow f) = some (.file k) := by
        cases hg : dget d.names (B ++ placeBelow f) with
        | none => simp [LDisk.exists, hg, hBD.1] at hex
        | some n =>
          cases n with
          | dir => simp [LDisk.isdir, hg] at hnd
          | file k => exact ⟨k, rfl⟩
      obtain ⟨k, hk⟩ := hfile
      have hp := filled_parent (X := X) h hD hf
      revert hp
      generalize parentMade d (pathJoin c.out f) = r
      intro hp
      obtain ⟨r1, d1⟩ := r
      cases r1 with
      | error e => exact ⟨hp, fun he => (by cases he), fun _ _ he => by cases he⟩
      | ok u =>
        obtain ⟨h1, h2⟩ := filled_replicate hBD hp.after hB hD hf hX
        have h2 := h2 k (by rw [← hk]; exact outside_source hBD hp.grown _)
        revert h1 h2
        simp only
        generalize d1.replicateAt (c.call f) = q
        intro h1 h2
        obtain ⟨q1, d2⟩ := q
        cases q1 with
        | error e => exact ⟨filled_trans hp h1, fun he => (by cases he), fun _ _ he => by cases he⟩
        | ok u =>
          simp only
          split
          · next hfile => exact ⟨filled_trans hp h1, fun _ => h2 rfl hfile, fun _ _ he => by cases he⟩
          · exact ⟨filled_trans hp h1, fun he => (by cases he), fun _ _ he => by cases he⟩

theorem filled_putEntries {B D : Path} (hBD : SideBySide B D) {c : Filling} (hB : AbsPath c.bag B) (hD : AbsPath c.out D)
    (fs : List Str) : ∀ {d : LDisk}, Fillable B D d → (∀ f ∈ fs, Downwards f) → (∀ f ∈ fs, X (placeBelow f)) →
    Filled X B D d (d.putEntries c fs).2 ∧ (∀ l, (d.putEntries c fs).1 = .ok l →
      l.Sublist fs ∧ (∀ f ∈ l, Delivered B D (d.putEntries c fs).2 (placeBelow f)) ∧
      ∀ f ∈ fs, ∀ k, dget d.names (B ++ placeBelow f) = some (.file k) → f ∈ l) := by
  induction fs with
  | nil =>
    intro d h _ _
    refine ⟨filled_refl h, fun l hl => ?_⟩
    cases hl
    exact ⟨List.Sublist.refl _, fun f hf => (by cases hf), fun f hf => (by cases hf)⟩
  | cons f fs ih =>
    intro d h hfs hX
    have hf := hfs f (by simp)
    obtain ⟨h1, h2, h3⟩ := filled_putEntry hBD h hB hD hf (hX f (by simp))
    unfold LDisk.putEntries
    revert h1 h2 h3
    generalize d.putEntry c f = r
    obtain ⟨r1, d1⟩ := r
    intro h1 h2 h3
    cases r1 with
    | error e => exact ⟨h1, fun l hl => by cases hl⟩
    | ok b =>
      obtain ⟨g1, g2⟩ := ih h1.after (fun x hx => hfs x (by simp [hx])) (fun x hx => hX x (by simp [hx]))
      revert g1 g2
      simp only
      generalize d1.putEntries c fs = q
      obtain ⟨q1, d2⟩ := q
      intro g1 g2
      cases q1 with
      | error e => exact ⟨filled_trans h1 g1, fun l hl => by cases hl⟩
      | ok l0 =>
        obtain ⟨s1, s2, s3⟩ := g2 l0 rfl
        refine ⟨filled_trans h1 g1, fun l hl => ?_⟩
        cases b with
        | true =>
          cases hl
          refine ⟨s1.cons_cons f, fun x hx => ?_, fun x hx k hk => ?_⟩
          · rcases List.mem_cons.1 hx with rfl | hx
            · exact g1.same _ (hX _ (by simp)) (h2 rfl)
            · exact s2 x hx
          · rcases List.mem_cons.1 hx with rfl | hx
            · simp
            · exact List.mem_cons_of_mem _ (s3 x hx k (by rw [← hk]; exact outside_source hBD h1.grown _))
        | false =>
          cases hl
          refine ⟨s1.cons f, s2, fun x hx k hk => ?_⟩
          rcases List.mem_cons.1 hx with rfl | hx
          · exact absurd rfl (h3 k hk)
          · exact s3 x hx k (by rw [← hk]; exact outside_source hBD h1.grown _)

theorem Spec.TwoDirs.aside {d : LDisk} {B D : Path} (h : TwoDirs d B D) (hB : B ≠ []) : SideBySide B D := by
  refine ⟨hB, fun z hz => ?_⟩
  rcases List.prefix_or_prefix_of_prefix hz (List.prefix_append B z) with e | e
  · exact h.apart e
  · exact h.outside e

theorem Spec.TwoDirs.fillable {d : LDisk} {B D : Path} (h : TwoDirs d B D) : Fillable B D d where
  ok := h.inodes
  own := fun x i q hx hq hn => absurd (h.unshared x q i hx hq) hn
  rooted := fun x y hy _ he => h.rooted x y hy he
  dir := hasDir_of_rooted h.rooted h.target

end Verif
