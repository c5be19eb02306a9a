import Verif.Model.AmendStopped
import Verif.Lemmas.AmendSave
/-!
# What the states during an amendment or a conversion have in common
-/

namespace Verif

open Spec

/-- The paths at which the lists of a head bag are kept, and their directory. -/
def ListPath (dir : Str) (p : Path) : Prop :=
  p = tagFile dir py!"member-bags.tsv" ∨ p = tagFile dir py!"file-lookup.tsv" ∨ p = comps dir

/-- The paths that saving the metadata writes. -/
def InfoPath (p : Path) : Prop := p = [py!"bag-info.txt"] ∨ ∃ a, p = manPath py!"tagmanifest" a

/-- Two trees that agree outside some paths. -/
def EqOutside (P : Path → Prop) (a b : Tree) : Prop := ∀ p, ¬ P p → dget b p = dget a p

theorem EqOutside.refl {P : Path → Prop} (a : Tree) : EqOutside P a a := fun _ _ => rfl

theorem EqOutside.trans {P : Path → Prop} {a b c : Tree} (h1 : EqOutside P a b) (h2 : EqOutside P b c) : EqOutside P a c :=
  fun p hp => (h2 p hp).trans (h1 p hp)

theorem EqOutside.mono {P Q : Path → Prop} {a b : Tree} (h : EqOutside P a b) (hpq : ∀ p, P p → Q p) : EqOutside Q a b :=
  fun p hp => h p (fun k => hp (hpq p k))

theorem EqOutside.dset {P : Path → Prop} (a : Tree) {p : Path} (n : Node) (hp : P p) : EqOutside P a (dset a p n) := by
  intro q hq
  rw [dget_dset, if_neg (fun (e : p = q) => hq (e ▸ hp))]

theorem EqOutside.write {P : Path → Prop} {a b : Tree} {p : Path} {c : Str} (h : a.write p c = .ok b) (hp : P p) :
    EqOutside P a b := by
  obtain ⟨rfl, _⟩ := Tree.write_ok h
  exact EqOutside.dset a _ hp

theorem mem_tornWrites {t x : Tree} {p : Path} {c : Str} :
    x ∈ tornWrites t p c ↔ ∃ k, k ≤ c.length ∧ t.write p (c.take k) = .ok x := by
  unfold tornWrites
  simp only [List.mem_filterMap, List.mem_range]
  constructor
  · rintro ⟨k, hk, h⟩
    refine ⟨k, by omega, ?_⟩
    revert h
    cases t.write p (c.take k) with
    | error e => simp [Except.toOption]
    | ok y => simp [Except.toOption]
  · rintro ⟨k, hk, h⟩
    exact ⟨k, by omega, by rw [h]; rfl⟩

theorem eqOutside_torn {P : Path → Prop} {t x : Tree} {p : Path} {c : Str} (hp : P p) (h : x ∈ tornWrites t p c) :
    EqOutside P t x := by
  obtain ⟨k, _, hk⟩ := mem_tornWrites.1 h
  exact EqOutside.write hk hp

/-- A write that is possible can stop anywhere. -/
theorem torn_of_write {t t' : Tree} {p : Path} {c : Str} (h : t.write p c = .ok t') (k : Nat) (hk : k ≤ c.length) :
    dset t p (.file (c.take k)) ∈ tornWrites t p c := by
  refine mem_tornWrites.2 ⟨k, hk, ?_⟩
  unfold Tree.write at h ⊢
  split at h
  · cases h
  · rename_i hc
    rw [if_neg hc]

theorem torn_last {t t' : Tree} {p : Path} {c : Str} (h : t.write p c = .ok t') : t' ∈ tornWrites t p c := by
  have := torn_of_write h c.length (Nat.le_refl _)
  rw [List.take_length] at this
  rw [(Tree.write_ok h).1]
  exact this

/-! ## The lists -/

theorem ensureTagdir_same (s : HeadBag) :
    EqOutside (ListPath (tagDir s.info)) s.tree s.ensureTagdir.2.tree ∧ s.ensureTagdir.2.info = s.info := by
  cases h : s.ensureTagdir with
  | mk r s1 =>
    cases r with
    | ok u =>
      obtain ⟨t, rfl, hf, _⟩ := ensureTagdir_ok h
      exact ⟨fun p hp => hf p (fun e => hp (.inr (.inr e))), rfl⟩
    | error e =>
      unfold HeadBag.ensureTagdir at h
      simp only at h
      split at h
      · injection h with h; cases h
      · split at h
        · injection h with _ h; subst h; exact ⟨EqOutside.refl _, rfl⟩
        · injection h with h; cases h

theorem saveMembers_same (s : HeadBag) :
    (∀ x ∈ s.saveMemberBagsStates, EqOutside (ListPath (tagDir s.info)) s.tree x) ∧
    EqOutside (ListPath (tagDir s.info)) s.tree s.saveMemberBags.2.tree ∧ s.saveMemberBags.2.info = s.info := by
  obtain ⟨h1, h2⟩ := ensureTagdir_same s
  unfold HeadBag.saveMemberBagsStates HeadBag.saveMemberBags
  cases s.members with
  | none => exact ⟨by intro x hx; rw [List.mem_singleton.1 hx]; exact EqOutside.refl _, EqOutside.refl _, rfl⟩
  | some ms =>
    simp only
    constructor
    · intro x hx
      rcases List.mem_cons.1 hx with rfl | hx
      · exact EqOutside.refl _
      rcases List.mem_cons.1 hx with rfl | hx
      · exact h1
      · exact h1.trans (eqOutside_torn (.inl rfl) hx)
    · cases he : s.ensureTagdir with
      | mk r s1 =>
        rw [he] at h1 h2
        simp only at h1 h2
        cases r with
        | error e => exact ⟨h1, h2⟩
        | ok u =>
          simp only
          cases hm : HeadBag.membersWritten ms with
          | mk text r =>
            simp only
            cases hw : s1.tree.write (tagFile (tagDir s1.info) py!"member-bags.tsv") text with
            | error e => exact ⟨h1, h2⟩
            | ok t => exact ⟨h1.trans (EqOutside.write hw (.inl (by rw [h2]))), h2⟩

theorem saveLookup_same (s : HeadBag) :
    (∀ x ∈ s.saveFileLookupStates, EqOutside (ListPath (tagDir s.info)) s.tree x) ∧
    EqOutside (ListPath (tagDir s.info)) s.tree s.saveFileLookup.2.tree ∧ s.saveFileLookup.2.info = s.info := by
  obtain ⟨h1, h2⟩ := ensureTagdir_same s
  unfold HeadBag.saveFileLookupStates HeadBag.saveFileLookup
  cases s.lookup with
  | none => exact ⟨by intro x hx; rw [List.mem_singleton.1 hx]; exact EqOutside.refl _, EqOutside.refl _, rfl⟩
  | some d =>
    simp only
    constructor
    · intro x hx
      rcases List.mem_cons.1 hx with rfl | hx
      · exact EqOutside.refl _
      rcases List.mem_cons.1 hx with rfl | hx
      · exact h1
      · exact h1.trans (eqOutside_torn (.inr (.inl rfl)) hx)
    · cases he : s.ensureTagdir with
      | mk r s1 =>
        rw [he] at h1 h2
        simp only at h1 h2
        cases r with
        | error e => exact ⟨h1, h2⟩
        | ok u =>
          simp only
          cases hw : s1.tree.write (tagFile (tagDir s1.info) py!"file-lookup.tsv") (lookupText d) with
          | error e => exact ⟨h1, h2⟩
          | ok t => exact ⟨h1.trans (EqOutside.write hw (.inr (.inl (by rw [h2])))), h2⟩

theorem saveMembers_last {s s' : HeadBag} (h : s.saveMemberBags = (.ok (), s')) : s'.tree ∈ s.saveMemberBagsStates := by
  unfold HeadBag.saveMemberBags at h
  unfold HeadBag.saveMemberBagsStates
  cases hm : s.members with
  | none => rw [hm] at h; injection h with _ h; subst h; exact List.mem_singleton.2 rfl
  | some ms =>
    rw [hm] at h
    simp only at h ⊢
    obtain ⟨_, h2⟩ := ensureTagdir_same s
    cases he : s.ensureTagdir with
    | mk r s1 =>
      rw [he] at h h2
      simp only at h2
      cases r with
      | error e => injection h with h; cases h
      | ok u =>
        simp only at h
        cases ht : HeadBag.membersWritten ms with
        | mk text r =>
        rw [ht] at h
        simp only at h
        split at h
        · injection h with h; cases h
        · rename_i t hw
          injection h with _ h
          subst h
          rw [h2] at hw
          exact List.mem_cons_of_mem _ (List.mem_cons_of_mem _ (torn_last hw))

theorem saveLookup_last {s s' : HeadBag} (h : s.saveFileLookup = (.ok (), s')) : s'.tree ∈ s.saveFileLookupStates := by
  unfold HeadBag.saveFileLookup at h
  unfold HeadBag.saveFileLookupStates
  cases hm : s.lookup with
  | none => rw [hm] at h; injection h with _ h; subst h; exact List.mem_singleton.2 rfl
  | some ms =>
    rw [hm] at h
    simp only at h ⊢
    obtain ⟨_, h2⟩ := ensureTagdir_same s
    cases he : s.ensureTagdir with
    | mk r s1 =>
      rw [he] at h h2
      simp only at h2
      cases r with
      | error e => injection h with h; cases h
      | ok u =>
        simp only at h
        split at h
        · injection h with h; cases h
        · rename_i t hw
          injection h with _ h
          subst h
          rw [h2] at hw
          exact List.mem_cons_of_mem _ (List.mem_cons_of_mem _ (torn_last hw))

/-! ## The metadata -/

theorem manifests_same (sum : Str → Str → Str) (algs : List Str) (t : Tree) :
    ∀ x ∈ writeTagManifestsStates sum algs t, EqOutside InfoPath t x := by
  induction algs generalizing t with
  | nil => intro x hx; rw [List.mem_singleton.1 hx]; exact EqOutside.refl _
  | cons a algs ih =>
    intro x hx
    simp only [writeTagManifestsStates, List.cons_append] at hx
    rcases List.mem_cons.1 hx with rfl | hx
    · exact EqOutside.refl _
    rcases List.mem_append.1 hx with hx | hx
    · exact eqOutside_torn (.inr ⟨a, rfl⟩) hx
    · split at hx
      · cases hx
      · rename_i t1 hw
        exact (EqOutside.write hw (.inr ⟨a, rfl⟩)).trans (ih t1 x hx)

theorem manifests_last {sum : Str → Str → Str} {algs : List Str} {t t' : Tree} (h : writeTagManifests sum algs t = .ok t') :
    t' ∈ writeTagManifestsStates sum algs t := by
  induction algs generalizing t with
  | nil => cases h; exact List.mem_singleton.2 rfl
  | cons a algs ih =>
    simp only [writeTagManifests] at h
    simp only [writeTagManifestsStates]
    split at h
    · cases h
    · rename_i t1 hw
      rw [hw]
      exact List.mem_append.2 (.inr (ih h))

theorem saveInfo_same (E : SaveEnv) (s : HeadBag) : ∀ x ∈ s.saveInfoStates E, EqOutside InfoPath s.tree x := by
  intro x hx
  simp only [HeadBag.saveInfoStates, List.cons_append] at hx
  rcases List.mem_cons.1 hx with rfl | hx
  · exact EqOutside.refl _
  rcases List.mem_append.1 hx with hx | hx
  · exact eqOutside_torn (.inl rfl) hx
  · split at hx
    · cases hx
    · rename_i t1 hw
      exact (EqOutside.write hw (.inl rfl)).trans (manifests_same _ _ t1 x hx)

theorem saveInfo_same' (E : SaveEnv) (s : HeadBag) : EqOutside InfoPath s.tree (s.saveInfo E).2.tree ∧ (s.saveInfo E).2.info = s.info := by
  cases h : s.saveInfo E with
  | mk r s1 =>
    cases r with
    | ok u =>
      obtain ⟨t, rfl, _, hf, _⟩ := saveInfo_ok h
      exact ⟨fun p hp => hf p (fun e => hp (.inl e)) (fun a _ e => hp (.inr ⟨a, e⟩)), rfl⟩
    | error e =>
      unfold HeadBag.saveInfo at h
      split at h
      · injection h with _ h; subst h; exact ⟨EqOutside.refl _, rfl⟩
      · split at h
        · injection h with _ h; subst h; exact ⟨EqOutside.refl _, rfl⟩
        · injection h with h; cases h

theorem saveInfo_last {E : SaveEnv} {s s' : HeadBag} (h : s.saveInfo E = (.ok (), s')) : s'.tree ∈ s.saveInfoStates E := by
  unfold HeadBag.saveInfo at h
  unfold HeadBag.saveInfoStates
  split at h
  · injection h with h; cases h
  · rename_i t hw
    rw [hw]
    split at h
    · injection h with h; cases h
    · rename_i t' hm
      injection h with _ h
      subst h
      exact List.mem_append.2 (.inr (manifests_last hm))

theorem updateInfo_same (E : SaveEnv) (s : HeadBag) (v : Option Str) (pv : Str) :
    (∀ x ∈ s.updateInfoStates E v pv, EqOutside InfoPath s.tree x) ∧
    EqOutside InfoPath s.tree (s.updateInfo E v pv).2.tree := by
  have h1 := saveInfo_same' E { s with info := headInfo v pv s.info }
  constructor
  · intro x hx
    simp only [HeadBag.updateInfoStates] at hx
    rcases List.mem_append.1 hx with hx | hx
    · exact saveInfo_same E { s with info := headInfo v pv s.info } x hx
    · have h2 := saveInfo_same E _ x hx
      exact EqOutside.trans h1.1 h2
  · unfold HeadBag.updateInfo
    revert h1
    cases ({ s with info := headInfo v pv s.info } : HeadBag).saveInfo E with
    | mk r s1 =>
      intro h1
      cases r with
      | error e => exact h1.1
      | ok u =>
        exact h1.1.trans (saveInfo_same' E { s1 with info := dset s1.info py!"Bag-Size" (.one (E.size s1.tree)) }).1

theorem updateInfo_last {E : SaveEnv} {s s' : HeadBag} {v : Option Str} {pv : Str} (h : s.updateInfo E v pv = (.ok (), s')) :
    s'.tree ∈ s.updateInfoStates E v pv := by
  unfold HeadBag.updateInfo at h
  unfold HeadBag.updateInfoStates
  cases h1 : ({ s with info := headInfo v pv s.info } : HeadBag).saveInfo E with
  | mk r s1 =>
    rw [h1] at h
    cases r with
    | error e => injection h with h; cases h
    | ok u => exact List.mem_append_right _ (saveInfo_last h)

/-- While the metadata is being written, bag-info.txt may be empty, or have the text to be written first, with
everything else as before. -/
theorem updateInfo_torn {E : SaveEnv} {s s' : HeadBag} {v : Option Str} {pv : Str} (h : s.updateInfo E v pv = (.ok (), s')) :
    dset s.tree [py!"bag-info.txt"] (.file []) ∈ s.updateInfoStates E v pv ∧
    dset s.tree [py!"bag-info.txt"] (.file (fieldsText (tagFields (headInfo v pv s.info)))) ∈ s.updateInfoStates E v pv := by
  unfold HeadBag.updateInfo at h
  simp only [HeadBag.updateInfoStates, HeadBag.saveInfoStates]
  cases h1 : ({ s with info := headInfo v pv s.info } : HeadBag).saveInfo E with
  | mk r s1 =>
    rw [h1] at h
    cases r with
    | error e => injection h with h; cases h
    | ok u =>
      unfold HeadBag.saveInfo at h1
      split at h1
      · injection h1 with h1; cases h1
      · rename_i t hw
        have k1 := torn_of_write hw 0 (Nat.zero_le _)
        have k2 := torn_last hw
        rw [(Tree.write_ok hw).1] at k2
        exact ⟨List.mem_append.2 (.inl (List.mem_append.2 (.inl (List.mem_cons_of_mem _ k1)))),
          List.mem_append.2 (.inl (List.mem_append.2 (.inl (List.mem_cons_of_mem _ k2))))⟩

/-! ## Calls that write nothing -/

/-- The bag's directory and metadata are as before. -/
def Quiet (a b : HeadBag) : Prop := b.tree = a.tree ∧ b.info = a.info

theorem addMembers_quiet (ms : List MemberInfo) (s : HeadBag) : Quiet s (s.addMembers ms).2 := by
  induction ms generalizing s with
  | nil => exact ⟨rfl, rfl⟩
  | cons m ms ih =>
    simp only [HeadBag.addMembers]
    have := addMemberBag_tree s m true
    split <;> rename_i h <;> rw [h] at this
    · exact this
    · exact ⟨(ih _).1.trans this.1, (ih _).2.trans this.2⟩

theorem addLookups_quiet (es : List (Str × Str)) (s : HeadBag) : Quiet s (s.addLookups es).2 := by
  induction es generalizing s with
  | nil => exact ⟨rfl, rfl⟩
  | cons e es ih =>
    simp only [HeadBag.addLookups]
    have := addFileLookup_tree s e.1 e.2
    split <;> rename_i h <;> rw [h] at this
    · exact this
    · exact ⟨(ih _).1.trans this.1, (ih _).2.trans this.2⟩

theorem registerAll_quiet (bag : Str) (fs : List Str) (s : HeadBag) : Quiet s (s.registerAll bag fs).2 := by
  induction fs generalizing s with
  | nil => exact ⟨rfl, rfl⟩
  | cons f fs ih =>
    simp only [HeadBag.registerAll]
    have := addFileLookup_tree s f bag
    split <;> rename_i h <;> rw [h] at this
    · exact this
    · exact ⟨(ih _).1.trans this.1, (ih _).2.trans this.2⟩

theorem updateForMember_quiet (s : HeadBag) (ro : Bool) (t : Tree) (name : Str) (incl excl : Arg) :
    Quiet s (s.updateForMember ro t name incl excl false).2 := by
  rw [updateForMember_false]
  exact registerAll_quiet _ _ _

theorem addAmending_quiet (b : Amending) (s : HeadBag) : Quiet s (s.addAmending b).2 := by
  unfold HeadBag.addAmending
  have := addMemberBag_tree s ⟨b.name, b.uri, b.comment, b.extra⟩ true
  split <;> rename_i h <;> rw [h] at this
  · exact this
  · have k := updateForMember_quiet ‹HeadBag› b.readonly b.tree b.name b.incl b.excl
    exact ⟨k.1.trans this.1, k.2.trans this.2⟩

theorem addAllAmending_quiet (bs : List Amending) (s : HeadBag) : Quiet s (s.addAllAmending bs).2 := by
  induction bs generalizing s with
  | nil => exact ⟨rfl, rfl⟩
  | cons b bs ih =>
    simp only [HeadBag.addAllAmending]
    have := addAmending_quiet b s
    split <;> rename_i h <;> rw [h] at this
    · exact this
    · exact ⟨(ih _).1.trans this.1, (ih _).2.trans this.2⟩

theorem remove_same {P : Path → Prop} {a b : Tree} {p : Path} (h : a.remove p = .ok b) (hp : P p) : EqOutside P a b := by
  have e := remove_ok h
  subst e
  intro q hq
  rw [dget_ddel, if_neg (fun (e : p = q) => hq (e ▸ hp))]

theorem clearFileLookup_same (s : HeadBag) :
    EqOutside (ListPath (tagDir s.info)) s.tree s.clearFileLookup.2.tree ∧ s.clearFileLookup.2.info = s.info := by
  unfold HeadBag.clearFileLookup
  simp only
  split
  · split
    · exact ⟨EqOutside.refl _, rfl⟩
    · rename_i t ht
      exact ⟨remove_same ht (.inr (.inl rfl)), rfl⟩
  · exact ⟨EqOutside.refl _, rfl⟩

theorem initMembers_same (s : HeadBag) (old : Amendee) :
    EqOutside (ListPath (tagDir s.info)) s.tree (s.initMembers old).2.tree ∧ (s.initMembers old).2.info = s.info := by
  unfold HeadBag.initMembers
  simp only
  have hc : ∀ r : Res Unit, (if s.tree.isfile (tagFile (tagDir s.info) py!"member-bags.tsv") then
      match s.tree.remove (tagFile (tagDir s.info) py!"member-bags.tsv") with
      | .error e => (.error e, s)
      | .ok t => (({ s with tree := t } : HeadBag).memberBags true).void
    else s.ensureTagdir) = r → EqOutside (ListPath (tagDir s.info)) s.tree r.2.tree ∧ r.2.info = s.info := by
    rintro r rfl
    split
    · split
      · exact ⟨EqOutside.refl _, rfl⟩
      · rename_i t ht
        have := memberBags_tree { s with tree := t } true
        rw [void_snd, this.1, this.2]
        exact ⟨remove_same ht (.inl rfl), rfl⟩
    · exact ensureTagdir_same s
  split
  · rename_i h; exact hc _ h
  · rename_i s1 h
    obtain ⟨k1, k2⟩ := hc _ h
    simp only at k1 k2
    split
    · split
      · exact ⟨k1, k2⟩
      · rename_i ms _
        have := addMembers_quiet ms s1
        exact ⟨by rw [this.1]; exact k1, this.2.trans k2⟩
    · have := addMemberBag_tree s1 ⟨old.name, none, none, []⟩ true
      exact ⟨by rw [this.1]; exact k1, this.2.trans k2⟩

theorem initLookup_same (s : HeadBag) (old : Amendee) :
    EqOutside (ListPath (tagDir s.info)) s.tree (s.initLookup old).2.tree ∧ (s.initLookup old).2.info = s.info := by
  unfold HeadBag.initLookup
  have hc := clearFileLookup_same s
  split <;> rename_i s1 h <;> rw [h] at hc
  · exact hc
  · simp only at hc
    split
    · split
      · exact hc
      · rename_i es _
        have := addLookups_quiet es s1
        exact ⟨by rw [this.1]; exact hc.1, this.2.trans hc.2⟩
    · have := updateForMember_quiet s1 old.readonly old.tree old.name .none .none
      exact ⟨by rw [this.1]; exact hc.1, this.2.trans hc.2⟩

end Verif
