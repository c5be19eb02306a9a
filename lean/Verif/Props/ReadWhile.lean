import Verif.Model.ReadWhile
import Verif.Props.SaveStopped
import Verif.Props.SaveTogether
/-!
# C134: a list is read while it is saved
-/

namespace Verif
open Spec

section
variable {ι : Type} [DecidableEq ι]

theorem watched_cons (what : ListRead) (info : Info) (c : ι → ListText) (w : Watched ι) (x : Option ι × Nat)
    (l : List (Option ι × Nat)) : w.run what info c (x :: l) = (w.step what info c x).run what info c l := rfl

/-- What holds at the start and is kept by every step holds in the end. -/
theorem watched_inv {what : ListRead} {info : Info} {c : ι → ListText} (I : Watched ι → Prop) :
    ∀ (l : List (Option ι × Nat)) {w : Watched ι}, (∀ x ∈ l, ∀ w, I w → I (w.step what info c x)) → I w → I (w.run what info c l)
  | [], _, _, h => h
  | x :: l, w, hs, h => by
    rw [watched_cons]
    exact watched_inv I l (fun y hy => hs y (List.mem_cons_of_mem _ hy)) (hs x (List.mem_cons_self ..) w h)

/-- The file of a list in a bag with usable metadata. -/
def ListRead.path (info : Info) : ListRead → Path
  | .members => tagFile (tagDir info) py!"member-bags.tsv"
  | .lookup => tagFile (tagDir info) py!"file-lookup.tsv"
  | .deleted => tagFile (tagDir info) py!"deleted.txt"

theorem fileName_path {info : Info} (o : Metadata info) (what : ListRead) :
    tagFile (tagDir info) (what.fileName info) = what.path info := by
  cases what <;> simp [ListRead.fileName, ListRead.path, membersFileName, lookupFileName, o.ver]

theorem path_ne_nil (info : Info) (what : ListRead) : what.path info ≠ [] := by
  cases what with
  | members => rw [show ListRead.members.path info = _ from tagFile_eq _ (comps_name (.members []))]; simp
  | lookup => rw [show ListRead.lookup.path info = _ from tagFile_eq _ (comps_name (.lookup []))]; simp
  | deleted => rw [show ListRead.deleted.path info = _ from tagFile_eq _ (comps_name (.deleted []))]; simp

theorem exists_path (t : Tree) (info : Info) (what : ListRead) : t.exists (what.path info) = (dget t (what.path info)).isSome := by
  unfold Tree.exists
  rw [decide_eq_false (path_ne_nil info what), Bool.false_or]

/-- The first operation of the reader. -/
theorem step_start {info : Info} (o : Metadata info) (what : ListRead) (t : Tree) (n : Nat) :
    (what = .deleted ∧ (t.exists (what.path info) = true ∧ ReadPc.start.step what info t n = .found (what.path info) ∨
      t.exists (what.path info) = false ∧ ReadPc.start.step what info t n = .ended [])) ∨
    (what ≠ .deleted ∧ (t.isfile (what.path info) = true ∧ ReadPc.start.step what info t n = .found (what.path info) ∨
      t.isfile (what.path info) = false ∧ ReadPc.start.step what info t n = .failed .missingFile)) := by
  have hp := fileName_path o what
  cases what with
  | deleted =>
    refine .inl ⟨rfl, ?_⟩
    have e : ReadPc.start.step .deleted info t n =
      if t.exists (ListRead.deleted.path info) then .found (ListRead.deleted.path info) else .ended [] := rfl
    rw [e]
    cases t.exists (ListRead.deleted.path info) with
    | true => exact .inl ⟨rfl, rfl⟩
    | false => exact .inr ⟨rfl, rfl⟩
  | members =>
    refine .inr ⟨fun h => by (cases h), ?_⟩
    simp only [ReadPc.step, (infoOk_of_metadata o).tag, hp]
    cases t.isfile (ListRead.members.path info) with
    | true => exact .inl ⟨rfl, rfl⟩
    | false => exact .inr ⟨rfl, rfl⟩
  | lookup =>
    refine .inr ⟨fun h => by (cases h), ?_⟩
    simp only [ReadPc.step, (infoOk_of_metadata o).tag, hp]
    cases t.isfile (ListRead.lookup.path info) with
    | true => exact .inl ⟨rfl, rfl⟩
    | false => exact .inr ⟨rfl, rfl⟩

/-! ## The reader -/

/-- All that has been read is good, character by character, and it is read from the right file. -/
def GoodSoFar (P : Nat → Char → Prop) (p : Path) : ReadPc → Prop
  | .start => True
  | .found q => q = p
  | .reading q got => q = p ∧ ∀ (j : Nat) (ch : Char), got[j]? = some ch → P j ch
  | .ended got => ∀ (j : Nat) (ch : Char), got[j]? = some ch → P j ch
  | .failed _ => True

theorem goodSoFar_step {P : Nat → Char → Prop} {what : ListRead} {info : Info} (o : Metadata info) {tree : Tree} {n : Nat}
    {r : ReadPc} (hf : ∀ f, dget tree (what.path info) = some (.file f) → ∀ (j : Nat) (ch : Char), f[j]? = some ch → P j ch)
    (v : GoodSoFar P (what.path info) r) : GoodSoFar P (what.path info) (r.step what info tree n) := by
  cases r with
  | start =>
    rcases step_start o what tree n with ⟨_, ⟨_, e⟩ | ⟨_, e⟩⟩ | ⟨_, ⟨_, e⟩ | ⟨_, e⟩⟩ <;> rw [e]
    · exact rfl
    · exact fun j ch h => by simp at h
    · exact rfl
    · trivial
  | found q =>
    have v : q = _ := v
    simp only [ReadPc.step]
    split
    · exact ⟨v, fun j ch h => by simp at h⟩
    · trivial
  | reading q got =>
    obtain ⟨rfl, v⟩ := v
    simp only [ReadPc.step]
    split
    · rename_i f hd
      split
      · exact ⟨rfl, v⟩
      · split
        · exact v
        · refine ⟨rfl, fun j ch h => ?_⟩
          rw [List.getElem?_append] at h
          split at h
          · exact v j ch h
          · rename_i hj
            rw [List.getElem?_take] at h
            split at h
            · rw [List.getElem?_drop] at h
              refine hf f hd j ch ?_
              rw [← h]
              congr 1
              omega
            · cases h
    · exact ⟨rfl, v⟩
  | ended got => exact v
  | failed e => trivial

/-- The reader has met no exception. -/
def NoFailure : ReadPc → Prop
  | .failed _ => False
  | _ => True

theorem noFailure_step {what : ListRead} {info : Info} (o : Metadata info) {tree : Tree} {n : Nat} {r : ReadPc} {P : Nat → Char → Prop}
    (hf : tree.isfile (what.path info) = true) (g : GoodSoFar P (what.path info) r) (v : NoFailure r) :
    NoFailure (r.step what info tree n) := by
  cases r with
  | start =>
    rcases step_start o what tree n with ⟨_, ⟨_, e⟩ | ⟨_, e⟩⟩ | ⟨_, ⟨_, e⟩ | ⟨h, e⟩⟩ <;> rw [e]
    · trivial
    · trivial
    · trivial
    · rw [hf] at h; cases h
  | found q =>
    have g : q = _ := g
    simp only [ReadPc.step, g, hf, if_true]
    trivial
  | reading q got =>
    simp only [ReadPc.step]
    split
    · split
      · trivial
      · split <;> trivial
    · trivial
  | ended got => trivial
  | failed e => exact v

/-! ## One process saves the list -/

/-- The file has the text, or as much of it as the process has written. -/
def OneSaver (info : Info) (c : ι → ListText) (i : ι) (w : Savers ι) : Prop :=
  w.pc i ≠ .emptying ∧
  ((dget w.tree (tagFile (tagDir info) (c i).name) = some (.file (c i).text) ∧ ¬ Underway w i) ∨
    ∃ k, k ≤ (c i).text.length ∧ w.pc i = .writing k ∧
      dget w.tree (tagFile (tagDir info) (c i).name) = some (.file ((c i).text.take k)))

theorem oneSaver_step {info : Info} {c : ι → ListText} {i : ι} {w : Savers ι} {j : ι} {n : Nat}
    (hr : (c i).removes = false) (hj : j = i ∨ (c j).name ≠ (c i).name) (v : OneSaver info c i w) :
    OneSaver info c i (w.step info c j n) := by
  refine ⟨fun e => (step_emptying e).elim v.1 (fun h => by rw [hr] at h; cases h), ?_⟩
  have hdir := file_ne_dir info (c i)
  by_cases hji : j = i
  · subst hji
    cases step_does info c w j n with
    | rest h hw hn hu ho =>
      rw [h]
      rcases v.2 with ⟨v1, v2⟩ | ⟨k, v1, v2, v3⟩
      · exact .inl ⟨v1, fun h => v2 (hu.1 h)⟩
      · exact .inr ⟨k, v1, (hw k).resolve_left (fun h => h v2), v3⟩
    | dir h h0 hw hn ho =>
      rw [h, dget_dset, if_neg (fun e => hdir e.symm)]
      rcases v.2 with ⟨v1, v2⟩ | ⟨k, v1, v2, v3⟩
      · exact .inl ⟨v1, hn⟩
      · exact absurd ⟨k, .inl v2⟩ hw
    | opened h hw hn ho =>
      exact .inr ⟨0, Nat.zero_le _, hn, by rw [h, dget_dset, if_pos rfl]; rfl⟩
    | wrote k f hw hf h hn ho =>
      rcases v.2 with ⟨v1, v2⟩ | ⟨k', v1, v2, v3⟩
      · exact absurd ⟨k, .inl hw⟩ v2
      · rw [hw] at v2
        injection v2 with v2
        subst v2
        rw [hf] at v3
        injection v3 with v3
        injection v3 with v3
        subst v3
        refine .inr ⟨_, ?_, hn, ?_⟩
        · simp only [List.length_take, List.length_drop]; omega
        · rw [h, dget_dset, if_pos rfl, putAt_take _ _ _ v1]
    | removed h hf hw hn ho => exact absurd hw v.1
  · have hne := hj.resolve_left hji
    have hp := tagFile_inj (dir := tagDir info) (comps_name (c i)) (comps_name (c j)) (Ne.symm hne)
    have e := step_other info c w n (Ne.symm hne)
    rw [step_same_at info c w j n hp hdir]
    unfold Underway
    rw [e]
    exact v.2

theorem readAgain {what : ListRead} {info : Info} (o : Metadata info) {c : ι → ListText} {i : ι} {tree : Tree}
    (hp : what.path info = tagFile (tagDir info) (c i).name) (hr : (c i).removes = false)
    (h0 : dget tree (what.path info) = some (.file (c i).text)) (l : List (Option ι × Nat))
    (hl : ∀ x ∈ l, ∀ j, x.1 = some j → j = i ∨ (c j).name ≠ (c i).name) :
    NoFailure ((Watched.start tree).run what info c l).reader ∧
    ∀ got, ((Watched.start tree).run what info c l).reader = .ended got → got <+: (c i).text := by
  have v := watched_inv (what := what) (info := info) (c := c) (fun w => OneSaver info c i w.savers ∧ NoFailure w.reader ∧
      GoodSoFar (fun j ch => (c i).text[j]? = some ch) (what.path info) w.reader) l (w := Watched.start tree) ?_
    ⟨⟨fun e => by (cases e), .inl ⟨hp ▸ h0, fun ⟨k, e⟩ => by (rcases e with e | e <;> cases e)⟩⟩, trivial, trivial⟩
  · refine ⟨v.2.1, fun got hg => ?_⟩
    have g := v.2.2
    rw [hg] at g
    have g : ∀ (j : Nat) (ch : Char), got[j]? = some ch → (c i).text[j]? = some ch := g
    refine List.prefix_iff_getElem?.2 (fun j hj => ?_)
    exact g j _ (List.getElem?_eq_getElem hj)
  · rintro ⟨a, n⟩ hx w ⟨v1, v2, v3⟩
    cases a with
    | some j => exact ⟨oneSaver_step hr (hl _ hx j rfl) v1, v2, v3⟩
    | none =>
      have hfile : ∃ f, dget w.savers.tree (what.path info) = some (.file f) ∧ f <+: (c i).text := by
        rw [hp]
        rcases v1.2 with ⟨h, _⟩ | ⟨k, _, _, h⟩
        · exact ⟨_, h, List.prefix_refl _⟩
        · exact ⟨_, h, List.take_prefix _ _⟩
      obtain ⟨f, hf1, hf2⟩ := hfile
      refine ⟨v1, noFailure_step o (by simp [Tree.isfile, hf1]) v3 v2, goodSoFar_step o (fun f' hf' j ch hj => ?_) v3⟩
      rw [hf1] at hf'
      injection hf' with hf'
      injection hf' with hf'
      subst hf'
      obtain ⟨t, ht⟩ := hf2
      rw [← ht, List.getElem?_append_left (List.getElem?_eq_some_iff.1 hj).1]
      exact hj

/-- C134 (partial): a process reads the member list while another one saves the same list again.  It gets no exception, and
the first of the members, possibly followed by one whose name is cut.  Missing: that it gets all of them, which is not
ensured (`C134_negation_short`). -/
theorem C134_again_members_partial (tree : Tree) (info : Info) (o : Metadata info) (c : ι → ListText) (i : ι)
    (ms : List MemberInfo) (hi : c i = .members ms) (hone : ∀ j ms', c j = .members ms' → j = i)
    (hc : ∀ m ∈ ms, CleanMember m) (hb : ∀ m ∈ ms.head?, m.name.head? ≠ some bom)
    (h0 : dget tree (tagFile (tagDir info) py!"member-bags.tsv") = some (.file (HeadBag.membersWritten ms).1))
    (l : List (Option ι × Nat)) (r : Except PyErr (List MemberInfo))
    (hr : (((Watched.start tree).run .members info c l).reader.members info) = some r) :
    ∃ rs, r = .ok rs ∧ CutShort (fun a b => b.name ≠ [] ∧ b.name <+: a.name) ms rs := by
  obtain ⟨v1, v2⟩ := readAgain (what := .members) o (c := c) (i := i) (tree := tree) (by rw [hi]; rfl) (by rw [hi]; rfl)
    (by rw [hi]; exact h0) l (fun x _ j _ => by
      cases h : c j with
      | members ms' => exact .inl (hone j ms' h)
      | lookup d => exact .inr (by rw [hi]; show py!"file-lookup.tsv" ≠ py!"member-bags.tsv"; decide)
      | deleted ps => exact .inr (by rw [hi]; show py!"deleted.txt" ≠ py!"member-bags.tsv"; decide))
  cases hw : ((Watched.start tree).run .members info c l).reader with
  | ended got =>
    rw [hw] at hr
    have hp := v2 got hw
    rw [hi] at hp
    have hp : got <+: (HeadBag.membersWritten ms).1 := hp
    have hr := Option.some.inj hr
    simp only [o.ver, Bool.false_eq_true, if_false] at hr
    rw [List.prefix_iff_eq_take.1 hp] at hr
    obtain ⟨rs, h1, h2⟩ := members_text_cut .codecs ms hc hb got.length
    exact ⟨rs, hr.symm.trans h1, h2⟩
  | failed e => rw [hw] at v1; exact v1.elim
  | start => rw [hw] at hr; cases hr
  | found p => rw [hw] at hr; cases hr
  | reading p got => rw [hw] at hr; cases hr

/-- C134 (partial): the same for the lookups, where the cut can also be noticed.  Missing: that it gets all of them, which is
not ensured (`C134_negation_short_lookup`). -/
theorem C134_again_lookup_partial (tree : Tree) (info : Info) (o : Metadata info) (c : ι → ListText) (i : ι)
    (d : List (Str × Str)) (hi : c i = .lookup d) (hone : ∀ j d', c j = .lookup d' → j = i)
    (hc : ∀ p ∈ d, Clean p.1 ∧ Clean p.2) (hb : ∀ p ∈ d.head?, p.1.head? ≠ some bom)
    (h0 : dget tree (tagFile (tagDir info) py!"file-lookup.tsv") = some (.file (lookupText d)))
    (l : List (Option ι × Nat)) (r : Except PyErr (List (Str × Str)))
    (hr : (((Watched.start tree).run .lookup info c l).reader.lookup info) = some r) :
    r = .error .multibagError ∨ ∃ rs, r = .ok rs ∧ CutShort (fun a b => b.1 = a.1 ∧ b.2 ≠ [] ∧ b.2 <+: a.2) d rs := by
  obtain ⟨v1, v2⟩ := readAgain (what := .lookup) o (c := c) (i := i) (tree := tree) (by rw [hi]; rfl) (by rw [hi]; rfl)
    (by rw [hi]; exact h0) l (fun x _ j _ => by
      cases h : c j with
      | lookup d' => exact .inl (hone j d' h)
      | members ms => exact .inr (by rw [hi]; show py!"member-bags.tsv" ≠ py!"file-lookup.tsv"; decide)
      | deleted ps => exact .inr (by rw [hi]; show py!"deleted.txt" ≠ py!"file-lookup.tsv"; decide))
  cases hw : ((Watched.start tree).run .lookup info c l).reader with
  | ended got =>
    rw [hw] at hr
    have hp := v2 got hw
    rw [hi] at hp
    have hp : got <+: lookupText d := hp
    have hr := Option.some.inj hr
    simp only [o.ver, Bool.false_eq_true, if_false] at hr
    rw [List.prefix_iff_eq_take.1 hp] at hr
    rcases lookup_text_cut .codecs d hc hb got.length with h | ⟨rs, h1, h2⟩
    · exact .inl (hr.symm.trans h)
    · exact .inr ⟨rs, hr.symm.trans h1, h2⟩
  | failed e => rw [hw] at v1; exact v1.elim
  | start => rw [hw] at hr; cases hr
  | found p => rw [hw] at hr; cases hr
  | reading p got => rw [hw] at hr; cases hr

/-- C134 (partial): the same for deleted paths that are saved again in the order in which they are in the file.  Missing: that
it gets all of them (`C134_negation_short` is the case of members), and empty sets, for which the reader can get an exception
(`C134_negation_removed`). -/
theorem C134_again_deleted_partial (tree : Tree) (info : Info) (o : Metadata info) (c : ι → ListText) (i : ι)
    (ps : List Str) (hi : c i = .deleted ps) (hone : ∀ j ps', c j = .deleted ps' → j = i) (hne : ps ≠ [])
    (hc : ∀ p ∈ ps, Clean p) (hb : ∀ p ∈ ps.head?, p.head? ≠ some bom)
    (h0 : dget tree (tagFile (tagDir info) py!"deleted.txt") = some (.file (deletedText ps)))
    (l : List (Option ι × Nat)) (r : Except PyErr (List Str))
    (hr : ((Watched.start tree).run .deleted info c l).reader.deleted = some r) :
    ∃ rs, r = .ok rs ∧ CutShort (fun a b => b ≠ [] ∧ b <+: a) ps rs := by
  have hrem : (c i).removes = false := by
    rw [hi]
    cases ps with
    | nil => exact absurd rfl hne
    | cons p ps => rfl
  obtain ⟨v1, v2⟩ := readAgain (what := .deleted) o (c := c) (i := i) (tree := tree) (by rw [hi]; rfl) hrem
    (by rw [hi]; exact h0) l (fun x _ j _ => by
      cases h : c j with
      | deleted ps' => exact .inl (hone j ps' h)
      | members ms => exact .inr (by rw [hi]; show py!"member-bags.tsv" ≠ py!"deleted.txt"; decide)
      | lookup d => exact .inr (by rw [hi]; show py!"file-lookup.tsv" ≠ py!"deleted.txt"; decide))
  cases hw : ((Watched.start tree).run .deleted info c l).reader with
  | ended got =>
    rw [hw] at hr
    have hp := v2 got hw
    rw [hi] at hp
    have hp : got <+: deletedText ps := hp
    have hr : .ok (readDeleted .codecs got) = r := Option.some.inj hr
    rw [List.prefix_iff_eq_take.1 hp] at hr
    exact ⟨_, hr.symm, deleted_text_cut .codecs ps hc hb got.length⟩
  | failed e => rw [hw] at v1; exact v1.elim
  | start => rw [hw] at hr; cases hr
  | found p => rw [hw] at hr; cases hr
  | reading p got => rw [hw] at hr; cases hr

/-! ## Nobody saves the list -/

/-- Where the reader is in a file that does not change. -/
def Undisturbed (what : ListRead) (info : Info) (tree : Tree) : ReadPc → Prop
  | .start => True
  | .found p => p = what.path info ∧ ((∃ f, dget tree p = some (.file f)) ∨ what = .deleted ∧ dget tree p = some .dir)
  | .reading p got => p = what.path info ∧ ∃ f, dget tree p = some (.file f) ∧ got <+: f
  | .ended got => dget tree (what.path info) = some (.file got) ∨ what = .deleted ∧ got = [] ∧ dget tree (what.path info) = none
  | .failed e => (what ≠ .deleted ∧ e = .missingFile ∧ ∀ f, dget tree (what.path info) ≠ some (.file f)) ∨
      what = .deleted ∧ e = .osError ∧ dget tree (what.path info) = some .dir

theorem undisturbed_step {what : ListRead} {info : Info} (o : Metadata info) {tree : Tree} {n : Nat} {r : ReadPc} {t : Tree}
    (ht : dget t (what.path info) = dget tree (what.path info)) (v : Undisturbed what info tree r) :
    Undisturbed what info tree (r.step what info t n) := by
  cases r with
  | start =>
    rcases step_start o what t n with ⟨hw, ⟨h, e⟩ | ⟨h, e⟩⟩ | ⟨hw, ⟨h, e⟩ | ⟨h, e⟩⟩ <;> rw [e]
    · rw [exists_path, ht] at h
      cases hx : dget tree (what.path info) with
      | none => rw [hx] at h; cases h
      | some x =>
        cases x with
        | file f => exact ⟨rfl, .inl ⟨f, hx⟩⟩
        | dir => exact ⟨rfl, .inr ⟨hw, hx⟩⟩
    · rw [exists_path, ht] at h
      cases hx : dget tree (what.path info) with
      | none => exact .inr ⟨hw, rfl, hx⟩
      | some x => rw [hx] at h; cases h
    · rw [Tree.isfile, ht] at h
      cases hx : dget tree (what.path info) with
      | none => rw [hx] at h; cases h
      | some x =>
        cases x with
        | file f => exact ⟨rfl, .inl ⟨f, hx⟩⟩
        | dir => rw [hx] at h; cases h
    · rw [Tree.isfile, ht] at h
      exact .inl ⟨hw, rfl, fun f hx => by rw [hx] at h; cases h⟩
  | found p =>
    obtain ⟨rfl, ⟨f, hf⟩ | ⟨hw, hf⟩⟩ := v
    · simp only [ReadPc.step, Tree.isfile, ht, hf, if_true]
      exact ⟨rfl, f, hf, List.nil_prefix⟩
    · simp only [ReadPc.step, Tree.isfile, ht, hf, Bool.false_eq_true, if_false]
      exact .inr ⟨hw, rfl, hf⟩
  | reading p got =>
    obtain ⟨rfl, f, hf, g, rfl⟩ := v
    simp only [ReadPc.step, ht, hf, List.drop_left]
    split
    · exact ⟨rfl, _, hf, List.prefix_append _ _⟩
    · rename_i hn
      split
      · rename_i h
        have : g = [] := by
          cases g with
          | nil => rfl
          | cons a g => cases n with
            | zero => exact absurd rfl hn
            | succ n => cases h
        rw [this, List.append_nil] at hf
        exact .inl hf
      · exact ⟨rfl, _, hf, (List.prefix_append_right_inj _).2 (List.take_prefix _ _)⟩
  | ended got => exact v
  | failed e => exact v

theorem undisturbed_run {what : ListRead} {info : Info} (o : Metadata info) {c : ι → ListText} {s : Savers ι}
    (l : List (Option ι × Nat)) (hl : ∀ x ∈ l, ∀ j, x.1 = some j → what.path info ≠ tagFile (tagDir info) (c j).name)
    (hd : what.path info ≠ comps (tagDir info)) :
    Undisturbed what info s.tree ((⟨s, .start⟩ : Watched ι).run what info c l).reader := by
  refine (watched_inv (what := what) (info := info) (c := c)
    (fun w => dget w.savers.tree (what.path info) = dget s.tree (what.path info) ∧ Undisturbed what info s.tree w.reader) l
    (w := ⟨s, .start⟩) ?_ ⟨rfl, trivial⟩).2
  rintro ⟨a, n⟩ hx w ⟨v1, v2⟩
  cases a with
  | some j => exact ⟨(step_same_at info c w.savers j n (hl _ hx j rfl) hd).trans v1, v2⟩
  | none => exact ⟨v1, undisturbed_step o v1 v2⟩

theorem read_no_file {t : Tree} {p : Path} (h : ∀ f, dget t p ≠ some (.file f)) : t.read p = none := by
  rw [read_eq]
  split
  · rename_i f hf; exact absurd hf (h f)
  · rfl

/-- C134: however many processes have saved lists before, and whether they are done or stopped in the middle: when those that
act from now on save other lists, reading the member list gives what it would give in one go, list or exception. -/
theorem C134_others_members (s : Savers ι) (info : Info) (o : Metadata info) (c : ι → ListText)
    (l : List (Option ι × Nat)) (hl : ∀ x ∈ l, ∀ j ms, x.1 = some j → c j ≠ .members ms) (r : Except PyErr (List MemberInfo))
    (hr : (((⟨s, .start⟩ : Watched ι).run .members info c l).reader.members info) = some r) :
    r = iterMembers .codecs s.tree info := by
  have v := undisturbed_run (what := .members) o (c := c) (s := s) l (fun x hx j hj => by
    refine tagFile_inj (dir := tagDir info) (comps_name (.members [])) (comps_name (c j)) ?_
    cases h : c j with
    | members ms => exact absurd h (hl x hx j ms hj)
    | lookup d => show py!"member-bags.tsv" ≠ py!"file-lookup.tsv"; decide
    | deleted ps => show py!"member-bags.tsv" ≠ py!"deleted.txt"; decide) (file_ne_dir info (.members []))
  rw [iterMembers_03 (infoOk_of_metadata o)]
  cases hw : ((⟨s, .start⟩ : Watched ι).run .members info c l).reader with
  | ended got =>
    rw [hw] at hr v
    have v : dget s.tree (tagFile (tagDir info) py!"member-bags.tsv") = some (.file got) := v.resolve_right (fun h => by cases h.1)
    have hr := Option.some.inj hr
    simp only [o.ver, Bool.false_eq_true, if_false] at hr
    rw [tagFile_read v]
    exact hr.symm
  | failed e =>
    rw [hw] at hr v
    obtain ⟨_, rfl, v'⟩ := v.resolve_right (fun h => by cases h.1)
    rw [read_no_file (p := tagFile (tagDir info) py!"member-bags.tsv") v']
    exact (Option.some.inj hr).symm
  | start => rw [hw] at hr; cases hr
  | found p => rw [hw] at hr; cases hr
  | reading p got => rw [hw] at hr; cases hr

/-- C134: the same for the lookups. -/
theorem C134_others_lookup (s : Savers ι) (info : Info) (o : Metadata info) (c : ι → ListText)
    (l : List (Option ι × Nat)) (hl : ∀ x ∈ l, ∀ j d, x.1 = some j → c j ≠ .lookup d) (r : Except PyErr (List (Str × Str)))
    (hr : (((⟨s, .start⟩ : Watched ι).run .lookup info c l).reader.lookup info) = some r) :
    r = iterLookup .codecs s.tree info := by
  have v := undisturbed_run (what := .lookup) o (c := c) (s := s) l (fun x hx j hj => by
    refine tagFile_inj (dir := tagDir info) (comps_name (.lookup [])) (comps_name (c j)) ?_
    cases h : c j with
    | lookup d => exact absurd h (hl x hx j d hj)
    | members ms => show py!"file-lookup.tsv" ≠ py!"member-bags.tsv"; decide
    | deleted ps => show py!"file-lookup.tsv" ≠ py!"deleted.txt"; decide) (file_ne_dir info (.lookup []))
  rw [iterLookup_03 (infoOk_of_metadata o)]
  cases hw : ((⟨s, .start⟩ : Watched ι).run .lookup info c l).reader with
  | ended got =>
    rw [hw] at hr v
    have v : dget s.tree (tagFile (tagDir info) py!"file-lookup.tsv") = some (.file got) := v.resolve_right (fun h => by cases h.1)
    have hr := Option.some.inj hr
    simp only [o.ver, Bool.false_eq_true, if_false] at hr
    rw [tagFile_read v]
    exact hr.symm
  | failed e =>
    rw [hw] at hr v
    obtain ⟨_, rfl, v'⟩ := v.resolve_right (fun h => by cases h.1)
    rw [read_no_file (p := tagFile (tagDir info) py!"file-lookup.tsv") v']
    exact (Option.some.inj hr).symm
  | start => rw [hw] at hr; cases hr
  | found p => rw [hw] at hr; cases hr
  | reading p got => rw [hw] at hr; cases hr

/-- C134: the same for the deleted paths. -/
theorem C134_others_deleted (s : Savers ι) (info : Info) (o : Metadata info) (c : ι → ListText)
    (l : List (Option ι × Nat)) (hl : ∀ x ∈ l, ∀ j ps, x.1 = some j → c j ≠ .deleted ps) (r : Except PyErr (List Str))
    (hr : ((⟨s, .start⟩ : Watched ι).run .deleted info c l).reader.deleted = some r) :
    r = iterDeleted .codecs s.tree info := by
  have v := undisturbed_run (what := .deleted) o (c := c) (s := s) l (fun x hx j hj => by
    refine tagFile_inj (dir := tagDir info) (comps_name (.deleted [])) (comps_name (c j)) ?_
    cases h : c j with
    | deleted ps => exact absurd h (hl x hx j ps hj)
    | members ms => show py!"deleted.txt" ≠ py!"member-bags.tsv"; decide
    | lookup d => show py!"deleted.txt" ≠ py!"file-lookup.tsv"; decide) (file_ne_dir info (.deleted []))
  unfold iterDeleted
  cases hw : ((⟨s, .start⟩ : Watched ι).run .deleted info c l).reader with
  | ended got =>
    rw [hw] at hr v
    rcases v with v | ⟨_, rfl, v⟩
    · rw [show dget s.tree (deletedFile info) = _ from v]
      exact (Option.some.inj hr).symm
    · rw [show dget s.tree (deletedFile info) = _ from v]
      exact (Option.some.inj hr).symm
  | failed e =>
    rw [hw] at hr v
    obtain ⟨_, rfl, v'⟩ := v.resolve_left (fun h => h.1 rfl)
    rw [show dget s.tree (deletedFile info) = _ from v']
    exact (Option.some.inj hr).symm
  | start => rw [hw] at hr; cases hr
  | found p => rw [hw] at hr; cases hr
  | reading p got => rw [hw] at hr; cases hr

/-! ## Any lists -/

/-- C134 (partial): whatever is saved by however many processes, every character that is read is at its place in the old file
or in one of the lists that are saved, or is a NUL character that fills a gap.  Missing: that what is read is one of these
lists, which is not ensured (`C134_negation_mixed`). -/
theorem C134_characters_partial (tree : Tree) (info : Info) (o : Metadata info) (c : ι → ListText) (what : ListRead) (a : ListText)
    (ha : what.fileName info = a.name) (l : List (Option ι × Nat)) (got : Str)
    (hr : ((Watched.start tree).run what info c l).reader = .ended got) (j : Nat) (ch : Char) (hj : got[j]? = some ch) :
    ch = '\x00' ∨ (∃ f, dget tree (tagFile (tagDir info) a.name) = some (.file f) ∧ f[j]? = some ch) ∨
    ∃ i, (c i).name = a.name ∧ (c i).text[j]? = some ch := by
  have hp : what.path info = tagFile (tagDir info) a.name := by rw [← fileName_path o, ha]
  have v := watched_inv (what := what) (info := info) (c := c) (fun w => FromSome info c a tree w.savers ∧
      GoodSoFar (fun j ch => ch = '\x00' ∨ (∃ f, dget tree (tagFile (tagDir info) a.name) = some (.file f) ∧ f[j]? = some ch) ∨
        ∃ i, (c i).name = a.name ∧ (c i).text[j]? = some ch) (what.path info) w.reader) l (w := Watched.start tree) ?_
    ⟨⟨.inl ⟨rfl, fun i _ ⟨k, e⟩ => by (rcases e with e | e <;> cases e)⟩⟩, trivial⟩
  · have g := v.2
    rw [hr] at g
    exact g j ch hj
  · rintro ⟨x, n⟩ _ w ⟨v1, v2⟩
    cases x with
    | some i => exact ⟨fromSome_step v1, v2⟩
    | none =>
      refine ⟨v1, goodSoFar_step o (fun f hf j ch hj => ?_) v2⟩
      rw [hp] at hf
      rcases v1.src with ⟨h, _⟩ | h | ⟨f', h, h'⟩
      · exact .inr (.inl ⟨f, h ▸ hf, hj⟩)
      · rw [hf] at h; cases h
      · rw [hf] at h
        injection h with h
        injection h with h
        subst h
        exact (h' j ch hj).imp id (fun ⟨i, h1, _, h2⟩ => .inr ⟨i, h1, h2⟩)

end

/-! ## Concrete cases -/

namespace Sample

/-- A bag whose member list is the first list. -/
def treeA : Tree := dset tree [py!"multibag", py!"member-bags.tsv"] (.file (HeadBag.membersWritten listA).1)

/-- One process saves the list again. -/
def again : Unit → ListText := fun _ => .members listA

/-- One process saves another list. -/
def instead : Unit → ListText := fun _ => .members listB

/-- The reader finds the file; the other process opens it, writes three characters, and goes on when the reader is done. -/
def readTurns : List (Option Unit × Nat) :=
  [(none, 0), (some (), 0), (some (), 0), (some (), 0), (none, 0), (some (), 3), (none, 100), (none, 100), (some (), 100)]

end Sample

/-- C134: the member list has two bags before, after and in every list that is saved.  A process that reads it while it is
saved again gets an empty list, and no exception. -/
theorem C134_negation_short :
    iterMembers .codecs Sample.treeA Sample.info = .ok Sample.listA ∧
    ∃ (l : List (Option Unit × Nat)), let w := (Watched.start Sample.treeA).run .members Sample.info Sample.again l
      w.reader.members Sample.info = some (.ok []) ∧ iterMembers .codecs w.savers.tree Sample.info = .ok Sample.listA :=
  ⟨by decide +kernel, [(none, 0), (some (), 0), (some (), 0), (some (), 0), (none, 0), (none, 100), (some (), 100)],
    by decide +kernel, by decide +kernel⟩

/-- C134: the same for the lookups: the reader gets none, although there is one before, after and in every list that is
saved. -/
theorem C134_negation_short_lookup :
    ∃ (t : Tree) (l : List (Option Unit × Nat)),
      let w := (Watched.start t).run .lookup Sample.info (fun _ => .lookup [(py!"data/x", py!"ef")]) l
      iterLookup .codecs t Sample.info = .ok [(py!"data/x", py!"ef")] ∧ w.reader.lookup Sample.info = some (.ok []) ∧
      iterLookup .codecs w.savers.tree Sample.info = .ok [(py!"data/x", py!"ef")] :=
  ⟨dset Sample.tree [py!"multibag", py!"file-lookup.tsv"] (.file (lookupText [(py!"data/x", py!"ef")])),
    [(none, 0), (some (), 0), (some (), 0), (some (), 0), (none, 0), (none, 100), (some (), 100)],
    by decide +kernel, by decide +kernel, by decide +kernel⟩

/-- C134: a process that reads the deleted paths can get an exception while another one saves an empty set, although reading
before and after gives a list. -/
theorem C134_negation_removed :
    (∃ ps, iterDeleted .codecs Sample.tree Sample.info = .ok ps) ∧
    ∃ (l : List (Option Unit × Nat)), let w := (Watched.start Sample.tree).run .deleted Sample.info (fun _ => .deleted []) l
      w.reader.deleted = some (.error .osError) ∧ iterDeleted .codecs w.savers.tree Sample.info = .ok [] :=
  ⟨⟨_, rfl⟩, [(none, 0), (some (), 0), (some (), 0), (none, 0), (some (), 0), (some (), 0), (some (), 0)],
    by decide +kernel, by decide +kernel⟩

/-- C134: while one list is replaced by another one, a process can read a list with a bag that is in neither. -/
theorem C134_negation_mixed :
    ∃ (l : List (Option Unit × Nat)), let w := (Watched.start Sample.treeA).run .members Sample.info Sample.instead l
      w.reader.members Sample.info = some (.ok [⟨py!"ay", none, none, []⟩]) :=
  ⟨[(none, 0), (none, 0), (none, 1), (some (), 0), (some (), 0), (some (), 0), (some (), 100), (none, 100), (none, 100)],
    by decide +kernel⟩

/-- `C134_again_members_partial`: here the name of the first bag is cut. -/
example : ∃ rs, Except.ok [⟨py!"abc", none, none, []⟩] = (.ok rs : Except PyErr (List MemberInfo)) ∧
    CutShort (fun a b => b.name ≠ [] ∧ b.name <+: a.name) Sample.listA rs :=
  C134_again_members_partial Sample.treeA Sample.info Sample.metadata Sample.again () Sample.listA rfl (fun _ _ _ => rfl)
    (fun m h => (Sample.listA_clean m h).1) (fun m h => (Sample.listA_clean m (mem_of_mem_head? h)).2) (by decide +kernel)
    Sample.readTurns _ (by decide +kernel)

/-- `C134_again_lookup_partial`: here the cut is noticed. -/
example : (.error .multibagError : Except PyErr (List (Str × Str))) = .error .multibagError ∨
    ∃ rs, .error .multibagError = (.ok rs : Except PyErr (List (Str × Str))) ∧
      CutShort (fun a b => b.1 = a.1 ∧ b.2 ≠ [] ∧ b.2 <+: a.2) [(py!"data/x", py!"ef")] rs :=
  C134_again_lookup_partial (dset Sample.tree [py!"multibag", py!"file-lookup.tsv"] (.file (lookupText [(py!"data/x", py!"ef")])))
    Sample.info Sample.metadata (fun _ : Unit => .lookup [(py!"data/x", py!"ef")]) () [(py!"data/x", py!"ef")] rfl (fun _ _ _ => rfl)
    (fun q h => by rw [List.mem_singleton.1 h]; exact ⟨clean_of_check (by decide), clean_of_check (by decide)⟩)
    (fun q h => by
      have e : (py!"data/x", py!"ef") = q := Option.some.inj h
      rw [← e]
      decide) (by decide +kernel) Sample.readTurns _ (by decide +kernel)

/-- `C134_others_members`: another process saves lookups. -/
example : Except.ok Sample.listA = iterMembers .codecs Sample.treeA Sample.info :=
  C134_others_members (Savers.start Sample.treeA) Sample.info Sample.metadata (fun _ : Unit => .lookup [(py!"data/x", py!"ef")])
    Sample.readTurns (fun _ _ _ _ _ h => by cases h) _ (by decide +kernel)

/-- `C134_others_members`: the one that saves the list has been stopped in the middle. -/
example : Except.ok [⟨py!"xy", none, none, []⟩] = iterMembers .codecs
    ((Savers.start Sample.treeA).run Sample.info Sample.instead [((), 0), ((), 0), ((), 0), ((), 2)]).tree Sample.info :=
  C134_others_members _ Sample.info Sample.metadata Sample.instead [(none, 0), (none, 0), (none, 1), (none, 100), (none, 100)]
    (fun x hx j ms h => by
      simp only [List.mem_cons, List.not_mem_nil, or_false] at hx
      rcases hx with rfl | rfl | rfl | rfl | rfl <;> cases h) _ (by decide +kernel)

/-- `C134_others_lookup`: another process saves members. -/
example : iterLookup .codecs Sample.treeA Sample.info = iterLookup .codecs Sample.treeA Sample.info :=
  C134_others_lookup (Savers.start Sample.treeA) Sample.info Sample.metadata Sample.again
    Sample.readTurns (fun _ _ _ _ _ h => by cases h) _ (by decide +kernel)

/-- `C134_again_deleted_partial`: here the first path is cut. -/
example : ∃ rs, Except.ok [py!"dat"] = (.ok rs : Except PyErr (List Str)) ∧ CutShort (fun a b => b ≠ [] ∧ b <+: a) [py!"data/old"] rs :=
  C134_again_deleted_partial Sample.tree Sample.info Sample.metadata (fun _ : Unit => .deleted [py!"data/old"]) () [py!"data/old"] rfl
    (fun _ _ _ => rfl) (by decide) (fun q h => by rw [List.mem_singleton.1 h]; exact clean_of_check (by decide))
    (fun q h => by
      have e : py!"data/old" = q := Option.some.inj h
      rw [← e]
      decide) (by decide +kernel) Sample.readTurns _ (by decide +kernel)

/-- `C134_others_deleted`: another process saves members. -/
example : Except.ok [py!"data/old"] = iterDeleted .codecs Sample.treeA Sample.info :=
  C134_others_deleted (Savers.start Sample.treeA) Sample.info Sample.metadata Sample.again
    Sample.readTurns (fun _ _ _ _ _ h => by cases h) _ (by decide +kernel)

/-- `C134_characters_partial`, in the case of `C134_negation_mixed`. -/
example (j : Nat) (ch : Char) (hj : (py!"ay\n")[j]? = some ch) :
    ch = '\x00' ∨ (∃ f, dget Sample.treeA [py!"multibag", py!"member-bags.tsv"] = some (.file f) ∧ f[j]? = some ch) ∨
    ∃ i, (Sample.instead i).name = py!"member-bags.tsv" ∧ (Sample.instead i).text[j]? = some ch :=
  C134_characters_partial Sample.treeA Sample.info Sample.metadata Sample.instead .members (.members []) (by decide)
    [(none, 0), (none, 0), (none, 1), (some (), 0), (some (), 0), (some (), 0), (some (), 100), (none, 100), (none, 100)]
    py!"ay\n" (by decide +kernel) j ch hj

end Verif
