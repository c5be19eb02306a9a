import Verif.Lemmas.Walk
import Verif.Lemmas.TagDir
import Verif.Spec.Apply
/-!
# Lemmas about applying a plan by copying
-/

namespace Verif
open Verif.Spec

/-! ## Reading trees -/

theorem Tree.read_dset (t : Tree) (q p : Path) (n : Node) :
    Tree.read (dset t q n) p =
      if p = q then (match n with | .file c => some c | .dir => none) else t.read p := by
  unfold Tree.read
  rw [dget_dset]
  by_cases h : q = p
  · subst h; rw [if_pos rfl, if_pos rfl]; cases n <;> rfl
  · rw [if_neg h, if_neg (fun e => h e.symm)]

theorem Tree.write_ok {t t' : Tree} {p : Path} {c : Str} (h : t.write p c = .ok t') :
    t' = dset t p (.file c) ∧ t.isdir p = false ∧ t.isdir p.dropLast = true := by
  unfold Tree.write at h
  split at h
  · cases h
  · rename_i h1
    simp only [Bool.or_eq_true, Bool.not_eq_true', not_or, Bool.not_eq_true, Bool.not_eq_false] at h1
    cases h
    exact ⟨rfl, h1⟩

theorem Tree.mkdir_ok {t t' : Tree} {p : Path} (h : t.mkdir p = .ok t') :
    t' = dset t p .dir ∧ t.exists p = false ∧ t.isdir p.dropLast = true := by
  unfold Tree.mkdir at h
  split at h
  · cases h
  · rename_i h1
    simp only [Bool.or_eq_true, Bool.not_eq_true', not_or, Bool.not_eq_true, Bool.not_eq_false] at h1
    cases h
    exact ⟨rfl, h1⟩

theorem makedirsFrom_read {t t' : Tree} {pre rest : Path} (h : t.makedirsFrom pre rest = .ok t') (p : Path) :
    t'.read p = t.read p := by
  unfold Tree.read
  rcases makedirsFrom_ok h p with h | ⟨_, h1, h2⟩
  · rw [h]
  · rw [h1, h2]

theorem isdir_dset (t : Tree) (q p : Path) (n : Node) :
    Tree.isdir (dset t q n) p = if q = p then (decide (p = []) || decide (n = .dir)) else t.isdir p := by
  unfold Tree.isdir
  rw [dget_dset]
  by_cases h : q = p
  · simp [h]
  · simp [h]

theorem wf_dset {t : Tree} (h : WfTree t) {p : Path} {n : Node} (hp : GoodPath p)
    (hpar : t.isdir p.dropLast = true) (hd : t.isdir p = false ∨ n = .dir) : WfTree (dset t p n) := by
  constructor
  · exact nodup_dset h.nodup p n
  · intro q hq
    rw [mem_dkeys_dset] at hq
    rcases hq with rfl | hq
    · exact hp
    · exact h.good q hq
  · intro q hq
    rw [mem_dkeys_dset] at hq
    have key : ∀ r, t.isdir r = true → Tree.isdir (dset t p n) r = true := by
      intro r hr
      rw [isdir_dset]
      split
      · rename_i e
        subst e
        rcases hd with hd | rfl
        · rw [hd] at hr; cases hr
        · simp
      · exact hr
    rcases hq with rfl | hq
    · exact key _ hpar
    · exact key _ (h.parent q hq)

theorem wf_mkdir {t t' : Tree} (h : WfTree t) {p : Path} (hp : GoodPath p) (hm : t.mkdir p = .ok t') :
    WfTree t' := by
  obtain ⟨rfl, _, h2⟩ := Tree.mkdir_ok hm
  exact wf_dset h hp h2 (.inr rfl)

theorem wf_write {t t' : Tree} (h : WfTree t) {p : Path} {c : Str} (hp : GoodPath p)
    (hm : t.write p c = .ok t') : WfTree t' := by
  obtain ⟨rfl, h1, h2⟩ := Tree.write_ok hm
  exact wf_dset h hp h2 (.inl h1)

theorem wf_makedirsFrom {t t' : Tree} (h : WfTree t) {pre rest : Path}
    (hp : ∀ c ∈ pre ++ rest, GoodName c) (hm : t.makedirsFrom pre rest = .ok t') : WfTree t' := by
  induction rest generalizing t pre with
  | nil => simp only [Tree.makedirsFrom, Except.ok.injEq] at hm; subst hm; exact h
  | cons c rest ih =>
    have hp' : ∀ x ∈ (pre ++ [c]) ++ rest, GoodName x := by simpa using hp
    unfold Tree.makedirsFrom at hm
    split at hm
    · exact ih h hp' hm
    · split at hm
      · cases hm
      · rename_i t1 h1
        refine ih (wf_mkdir h ⟨by simp, ?_⟩ h1) hp' hm
        intro x hx; exact hp' x (List.mem_append_left _ hx)

theorem makedirsFrom_isdir {t t' : Tree} {pre rest : Path} (h : t.makedirsFrom pre rest = .ok t')
    (hpre : ∀ p, p <+: pre → t.isdir p = true) :
    ∀ p, t'.isdir p = true ↔ t.isdir p = true ∨ p <+: pre ++ rest := by
  induction rest generalizing t pre with
  | nil =>
    simp only [Tree.makedirsFrom, Except.ok.injEq] at h; subst h
    intro p; rw [List.append_nil]
    exact ⟨.inl, fun h => h.elim id (hpre p)⟩
  | cons c rest ih =>
    have hcons : pre ++ c :: rest = (pre ++ [c]) ++ rest := by simp
    have hpc : ∀ p, p <+: pre ++ [c] → p <+: pre ∨ p = pre ++ [c] := by
      intro p hp
      rw [List.prefix_concat_iff] at hp
      exact hp.symm
    unfold Tree.makedirsFrom at h
    split at h
    · rename_i hd
      intro p
      rw [hcons]
      refine ih h ?_ p
      intro q hq
      rcases hpc q hq with hq | rfl
      · exact hpre q hq
      · exact hd
    · split at h
      · cases h
      · rename_i hd t1 h1
        obtain ⟨rfl, h2, h3⟩ := Tree.mkdir_ok h1
        intro p
        rw [hcons]
        have := ih h (by
          intro q hq
          rw [isdir_dset]
          rcases hpc q hq with hq | rfl
          · split
            · simp
            · exact hpre q hq
          · simp) p
        rw [this, isdir_dset]
        constructor
        · rintro (h | h)
          · split at h
            · rename_i e; subst e; exact .inr (List.prefix_append _ _)
            · exact .inl h
          · exact .inr h
        · rintro (h | h)
          · left; split
            · simp
            · exact h
          · exact .inr h

/-- `os.makedirs` succeeds if no component of the path is a file. -/
theorem makedirsFrom_total {t : Tree} {pre rest : Path} (hpre : t.isdir pre = true)
    (hf : ∀ p, p <+: pre ++ rest → t.isfile p = false) : ∃ t', t.makedirsFrom pre rest = .ok t' := by
  induction rest generalizing t pre with
  | nil => exact ⟨t, rfl⟩
  | cons c rest ih =>
    have hcons : pre ++ c :: rest = (pre ++ [c]) ++ rest := by simp
    rw [hcons] at hf
    unfold Tree.makedirsFrom
    split
    · rename_i hd; exact ih hd hf
    · rename_i hd
      have hfc := hf (pre ++ [c]) (List.prefix_append _ _)
      have hne : t.exists (pre ++ [c]) = false := by
        simp only [Tree.exists, Bool.or_eq_false_iff, decide_eq_false_iff_not]
        refine ⟨by simp, ?_⟩
        cases hg : dget t (pre ++ [c]) with
        | none => rfl
        | some n =>
          cases n with
          | dir => exact absurd (isdir_iff.2 (.inr hg)) hd
          | file x => rw [isfile_iff.2 ⟨x, hg⟩] at hfc; cases hfc
      have hm : t.mkdir (pre ++ [c]) = .ok (dset t (pre ++ [c]) .dir) := by
        unfold Tree.mkdir
        rw [if_neg]
        simp [hne, hpre]
      rw [hm]
      refine ih (by rw [isdir_dset]; simp) ?_
      intro p hp
      have := hf p hp
      unfold Tree.isfile at this ⊢
      rw [dget_dset]
      split
      · rename_i h; split at h <;> first | cases h | skip
        rw [h] at this; exact this
      · rfl

/-! ## Copying operations -/

/-- Adds lines to the contents of a file that may not exist yet. -/
def addLines (r : Option Str) : List Str → Option Str
  | [] => r
  | ls => some (r.getD [] ++ ls.flatten)

theorem addLines_append (r : Option Str) (a b : List Str) :
    addLines (addLines r a) b = addLines r (a ++ b) := by
  cases a with
  | nil => rfl
  | cons x xs =>
    cases b with
    | nil => simp [addLines]
    | cons y ys => simp [addLines]

/-- Two disks differ in the current output bag only. -/
def SameBut (d d' : CopyDisk) : Prop := d' = { d with out := d'.out }

theorem SameBut.refl (d : CopyDisk) : SameBut d d := rfl

theorem SameBut.trans {a b c : CopyDisk} (h : SameBut a b) (h' : SameBut b c) : SameBut a c := by
  unfold SameBut at *
  rw [h'] ; rw [h]

theorem lift_ok {d d' : CopyDisk} {r : Except PyErr Tree} (h : d.lift r = .ok d') :
    SameBut d d' ∧ r = .ok d'.out := by
  unfold CopyDisk.lift at h
  split at h
  · cases h
  · cases h; exact ⟨rfl, rfl⟩

theorem SameBut.src {d d' : CopyDisk} (h : SameBut d d') : d'.src = d.src := by rw [h]
theorem SameBut.taken {d d' : CopyDisk} (h : SameBut d d') : d'.taken = d.taken := by rw [h]
theorem SameBut.done {d d' : CopyDisk} (h : SameBut d d') : d'.done = d.done := by rw [h]

theorem manPath_eq (f alg : Str) :
    manPath (manType f) alg = [(if isPayload f then py!"manifest-" else py!"tagmanifest-") ++ alg ++ py!".txt"] := by
  unfold manPath manType isPayload
  split <;> simp

theorem manPath_manifest (alg : Str) : manPath py!"manifest" alg = [py!"manifest-" ++ alg ++ py!".txt"] := by
  simp [manPath]

theorem manPath_good (ty alg : Str) (h : ty = py!"manifest" ∨ ty = py!"tagmanifest") (ha : '/' ∉ alg) :
    GoodPath (manPath ty alg) := by
  refine ⟨by simp [manPath], ?_⟩
  intro c hc
  simp only [manPath, List.mem_singleton] at hc
  subst hc
  rcases h with rfl | rfl <;> constructor <;> simp [ha]

theorem recordHashes_copy {f : Str} {hs : List (Str × Str)} {d d' : CopyDisk}
    (h : recordHashes copyFS f hs d = .ok d') :
    SameBut d d' ∧
    (∀ p, d'.out.read p = addLines (d.out.read p) (hs.filterMap (fun ah =>
      if p = [(if isPayload f then py!"manifest-" else py!"tagmanifest-") ++ ah.1 ++ py!".txt"]
      then some (ah.2 ++ ' ' :: f ++ ['\n']) else none))) ∧
    (∀ p, d'.out.isdir p = d.out.isdir p) ∧
    ((∀ ah ∈ hs, '/' ∉ ah.1) → WfTree d.out → WfTree d'.out) := by
  induction hs generalizing d with
  | nil => cases h; exact ⟨rfl, fun _ => rfl, fun _ => rfl, fun _ h => h⟩
  | cons ah hs ih =>
    obtain ⟨alg, hash⟩ := ah
    simp only [recordHashes] at h
    split at h
    · cases h
    · rename_i d1 h1
      obtain ⟨s1, w1⟩ := lift_ok h1
      obtain ⟨e1, n1, p1⟩ := Tree.write_ok w1
      obtain ⟨s2, r2, i2, wf2⟩ := ih h
      refine ⟨s1.trans s2, ?_, ?_, ?_⟩
      · intro p
        rw [r2, e1, Tree.read_dset, manPath_eq]
        by_cases hp : p = [(if isPayload f then py!"manifest-" else py!"tagmanifest-") ++ alg ++ py!".txt"]
        · rw [if_pos hp, List.filterMap_cons, if_pos hp]
          simp only
          rw [← hp]
          have : ∀ (r : Option Str) (x : Str) (ls : List Str),
              addLines (some (r.getD [] ++ x)) ls = addLines r (x :: ls) := by
            intro r x ls; cases ls <;> simp [addLines]
          rw [← this]
          rfl
        · rw [if_neg hp, List.filterMap_cons, if_neg hp]
      · intro p
        rw [i2, e1, isdir_dset]
        split
        · rename_i e
          subst e
          rw [n1]; simp [manPath]
        · rfl
      · intro ha hw
        refine wf2 (fun x hx => ha x (List.mem_cons_of_mem _ hx)) ?_
        rw [e1]
        refine wf_dset hw (manPath_good _ _ ?_ (ha _ (List.mem_cons_self ..))) p1 (.inl n1)
        unfold manType; split <;> simp

theorem ensureDir_copy {d d' : CopyDisk} {p : Path} (h : ensureDir copyFS d p = .ok d') :
    SameBut d d' ∧ (∀ q, d'.out.read q = d.out.read q) ∧
    ((∀ c ∈ p, GoodName c) → WfTree d.out → WfTree d'.out) ∧
    (WfTree d.out → d.out.isfile p = false →
      ∀ q, d'.out.isdir q = true ↔ d.out.isdir q = true ∨ q <+: p) := by
  unfold ensureDir at h
  split at h
  · rename_i he
    cases h
    refine ⟨rfl, fun _ => rfl, fun _ h => h, ?_⟩
    intro hw hf q
    refine ⟨.inl, ?_⟩
    rintro (h | h)
    · exact h
    · have hd : d.out.isdir p = true := by
        rw [isdir_iff]
        simp only [copyFS, Tree.exists, Bool.or_eq_true, decide_eq_true_eq] at he
        rcases he with he | he
        · exact .inl he
        · right
          cases hg : dget d.out p with
          | none => rw [hg] at he; cases he
          | some n =>
            cases n with
            | dir => rfl
            | file x => rw [isfile_iff.2 ⟨x, hg⟩] at hf; cases hf
      by_cases hqp : q = p
      · rw [hqp]; exact hd
      · rcases isdir_iff.1 hd with rfl | hd
        · rw [List.prefix_nil] at h; exact absurd h hqp
        · exact wf_prefix_dir hw (mem_dkeys_iff.2 ⟨_, hd⟩) h hqp
  · obtain ⟨s, w⟩ := lift_ok h
    refine ⟨s, makedirsFrom_read w, fun hg hw => wf_makedirsFrom hw (by simpa using hg) w, ?_⟩
    intro _ _ q
    have := makedirsFrom_isdir w (by
      intro p hp; rw [List.prefix_nil] at hp; subst hp; simp [Tree.isdir]) q
    simpa using this

/-! ## The loop over a manifest -/

/-- Directories a list of entries calls for. -/
def NeedsDir (src : Tree) (fs : List Str) (p : Path) : Prop :=
  ∃ f ∈ fs, (src.isdir (comps f) = true ∧ p <+: comps f) ∨
    (src.isfile (comps f) = true ∧ p <+: (comps f).dropLast)

/-- Sizes of the payload files among `fs`. -/
def payloadSizes (blen : Str → Nat) (src : Tree) (fs : List Str) : List Nat :=
  (fs.filter isPayload).map (fun f => blen ((src.read (comps f)).getD []))

/-- Effect of copying the entries `fs`. -/
structure Put (S : Source) (blen : Str → Nat) (bagname : Str) (fs : List Str) (s s' : PState CopyDisk) : Prop where
  same : SameBut s.disk s'.disk
  read : ∀ p, s'.disk.out.read p =
    addLines (if ∃ f ∈ copied S.tree fs, comps f = p then S.tree.read p else s.disk.out.read p)
      (recorded S.hashes (copied S.tree fs) p)
  wf : WfTree s.disk.out → WfTree s'.disk.out
  files : (∀ p, s.disk.out.isfile p = true → S.tree.isfile p = true ∨ Standard p) →
    (∀ p, s'.disk.out.isfile p = true → S.tree.isfile p = true ∨ Standard p)
  dirs : WfTree s.disk.out → (∀ p, s.disk.out.isfile p = true → S.tree.isfile p = true ∨ Standard p) →
    ∀ p, s'.disk.out.isdir p = true ↔ s.disk.out.isdir p = true ∨ NeedsDir S.tree fs p
  count : s'.count = s.count + ((copied S.tree fs).filter isPayload).length
  size : s'.size = s.size + (payloadSizes blen S.tree (copied S.tree fs)).sum
  dest : s'.dest = dupdate s.dest ((copied S.tree fs).map (fun f => (f, bagname)))

theorem isfile_read {t : Tree} {p : Path} : t.isfile p = (t.read p).isSome := by
  unfold Tree.isfile Tree.read
  cases dget t p with
  | none => rfl
  | some n => cases n <;> rfl

theorem exists_cases {t : Tree} {p : Path} : t.exists p = (t.isdir p || t.isfile p) := by
  unfold Tree.exists Tree.isdir Tree.isfile
  by_cases h : p = []
  · simp [h]
  · simp only [h]
    cases hg : dget t p with
    | none => simp
    | some n => cases n <;> simp

theorem recorded_standard {hashes : Str → List (Str × Str)} {fs : List Str} {p : Path}
    (h : ¬ ManifestFile p) : recorded hashes fs p = [] := by
  unfold recorded
  rw [List.flatMap_eq_nil_iff]
  intro f _
  rw [List.filterMap_eq_nil_iff]
  intro ah _
  rw [if_neg]
  intro e
  apply h
  refine ⟨ah.1, ?_⟩
  split at e
  · exact .inl e
  · exact .inr e

theorem planEntry_good {f : Str} (h : PlanEntry f) : GoodPath (comps f) ∧ ¬ Standard (comps f) ∧ joinPath (comps f) = f := by
  obtain ⟨p, hp, rfl, hs⟩ := h
  rw [comps_joinPath hp]
  exact ⟨hp, hs, rfl⟩

theorem addLines_isSome {r : Option Str} {ls : List Str} (h : (addLines r ls).isSome = true) :
    r.isSome = true ∨ ls ≠ [] := by
  cases ls with
  | nil => exact .inl h
  | cons => exact .inr (by simp)

theorem putEntry_copy {S : Source} {blen : Str → Nat} {bagname : Str} {s s' : PState CopyDisk} {f : Str}
    (hsrc : s.disk.src = S.tree) (hf : PlanEntry f) (ha : ∀ ah ∈ S.hashes f, '/' ∉ ah.1)
    (h : putEntry copyFS S blen bagname s f = .ok s') : Put S blen bagname [f] s s' := by
  obtain ⟨hg, hns, _⟩ := planEntry_good hf
  have hnm : ¬ ManifestFile (comps f) := fun h => hns (.inr (.inr h))
  simp only [putEntry] at h
  split at h
  · -- does not exist
    rename_i he
    rw [exists_cases, Bool.or_eq_false_iff] at he
    have hc : copied S.tree [f] = [] := by simp [copied, he.2]
    cases h
    refine ⟨rfl, ?_, id, id, ?_, ?_, ?_, ?_⟩
    · intro p; rw [hc]; simp [recorded, addLines]
    · intro _ _ p
      refine ⟨.inl, ?_⟩
      rintro (h | ⟨g, hg', h⟩)
      · exact h
      · rw [List.mem_singleton] at hg'; subst hg'
        simp [he.1, he.2] at h
    · simp [hc]
    · simp [hc, payloadSizes]
    · simp [hc, dupdate]
  · split at h
    · -- directory
      rename_i hd
      have hc : copied S.tree [f] = [] := by
        simp only [copied, List.filter_cons, List.filter_nil]
        rw [if_neg]
        intro h'
        rcases isdir_iff.1 hd with e | e
        · exact hg.1 e
        · obtain ⟨c, hc⟩ := isfile_iff.1 h'
          rw [e] at hc; cases hc
      split at h
      · cases h
      · rename_i d1 h1
        cases h
        obtain ⟨e1, e2, e3, e4⟩ := ensureDir_copy h1
        have hsf : S.tree.isfile (comps f) = false := by
          cases hx : S.tree.isfile (comps f) with
          | false => rfl
          | true => simp [copied, hx] at hc
        refine ⟨e1, ?_, e3 (hg.2), ?_, ?_, ?_, ?_, ?_⟩
        · intro p; rw [hc]; simpa [recorded, addLines] using e2 p
        · intro hi p hp
          rw [isfile_read] at hp
          simp only [e2] at hp
          rw [← isfile_read] at hp
          exact hi p hp
        · intro hw hi p
          have := e4 hw (by
            cases hx : s.disk.out.isfile (comps f) with
            | false => rfl
            | true =>
              rcases hi _ hx with h | h
              · rw [hsf] at h; cases h
              · exact absurd h hns) p
          simp only [this, NeedsDir, List.mem_singleton, exists_eq_left, hd, hsf, true_and]
          simp
        · simp [hc]
        · simp [hc, payloadSizes]
        · simp [hc, dupdate]
    · rename_i he hd
      have hsf : S.tree.isfile (comps f) = true := by
        rw [exists_cases, Bool.or_eq_false_iff] at he
        rw [Bool.not_eq_true] at hd
        cases hx : S.tree.isfile (comps f) with
        | false => exact absurd ⟨hd, hx⟩ he
        | true => rfl
      have hdf : S.tree.isdir (comps f) = false := by simpa using hd
      have hc : copied S.tree [f] = [f] := by simp [copied, hsf]
      split at h
      · cases h
      · rename_i d1 h1
        split at h
        · cases h
        · rename_i d2 h2
          split at h
          · cases h
          · rename_i hif
            split at h
            · cases h
            · rename_i d3 h3
              cases h
              obtain ⟨e1, e2, e3, e4⟩ := ensureDir_copy h1
              simp only [copyFS] at h2
              obtain ⟨c, hcr⟩ : ∃ c, S.tree.read (comps f) = some c := by
                rw [isfile_read] at hsf; exact Option.isSome_iff_exists.1 hsf
              rw [e1.src, hsrc, hcr] at h2
              obtain ⟨s2, w2⟩ := lift_ok h2
              obtain ⟨o2, n2, p2⟩ := Tree.write_ok w2
              obtain ⟨s3, r3, i3, wf3⟩ := recordHashes_copy h3
              have hread2 : ∀ p, d2.out.read p = if p = comps f then some c else s.disk.out.read p := by
                intro p; rw [o2, Tree.read_dset, e2]
              have hrd : ∀ p, d3.out.read p =
                  addLines (if ∃ g ∈ copied S.tree [f], comps g = p then S.tree.read p else s.disk.out.read p)
                    (recorded S.hashes (copied S.tree [f]) p) := by
                intro p
                rw [r3, hread2, hc]
                simp only [List.mem_singleton, exists_eq_left, recorded, List.flatMap_cons, List.flatMap_nil,
                  List.append_nil]
                congr 1
                by_cases hp : p = comps f
                · rw [if_pos hp, if_pos hp.symm, hp, hcr]
                · rw [if_neg hp, if_neg (fun e => hp e.symm)]
              refine ⟨(e1.trans s2).trans s3, hrd, ?_, ?_, ?_, ?_, ?_, ?_⟩
              · intro hw
                apply wf3 ha
                rw [o2]
                exact wf_dset (e3 (fun c hc => hg.2 c (List.dropLast_subset _ hc)) hw) hg p2 (.inl n2)
              · intro hi p hp
                rw [isfile_read] at hp
                rw [hrd] at hp
                rcases addLines_isSome hp with hp | hp
                · split at hp
                  · left; rw [isfile_read]; exact hp
                  · rw [← isfile_read] at hp; exact hi p hp
                · right; right; right
                  apply Classical.byContradiction
                  intro hm
                  exact hp (recorded_standard hm)
              · intro hw hi p
                have hpf : s.disk.out.isfile (comps f).dropLast = false := by
                  cases hx : s.disk.out.isfile (comps f).dropLast with
                  | false => rfl
                  | true =>
                    exfalso
                    have : ensureDir copyFS s.disk (comps f).dropLast = .ok s.disk := by
                      unfold ensureDir
                      rw [if_pos]
                      simp [copyFS, exists_cases, hx]
                    rw [this] at h1
                    cases h1
                    obtain ⟨x, hx⟩ := isfile_iff.1 hx
                    rcases isdir_iff.1 p2 with e | e
                    · rw [e] at hx
                      have := hw.good [] (mem_dkeys_iff.2 ⟨_, hx⟩)
                      exact this.1 rfl
                    · rw [e] at hx; cases hx
                have := e4 hw hpf p
                simp only [i3, o2, isdir_dset, NeedsDir, List.mem_singleton, exists_eq_left, hsf, hdf]
                by_cases hp : comps f = p
                · subst hp
                  simp only [if_true]
                  have hn : s.disk.out.isdir (comps f) = false := by
                    cases hx : s.disk.out.isdir (comps f) with
                    | false => rfl
                    | true => rw [this.2 (.inl hx)] at n2; cases n2
                  simp only [hn, hg.1, decide_false, Bool.false_or, reduceCtorEq, Bool.false_eq_true,
                    false_and, false_or, true_and, false_iff]
                  intro hpre
                  have := hpre.length_le
                  have := List.length_pos_iff.2 hg.1
                  rw [List.length_dropLast] at *
                  omega
                · simp [hp, this]
              · cases hx : startsWith py!"data/" f <;>
                  simp [hc, List.filter_cons, isPayload, hx]
              · have : d2.out.read (comps f) = some c := by rw [hread2, if_pos rfl]
                cases hx : startsWith py!"data/" f <;>
                  simp [hc, payloadSizes, List.filter_cons, isPayload, hx, hcr, copyFS, this]
              · simp [hc, dupdate]

theorem copied_append (src : Tree) (a b : List Str) : copied src (a ++ b) = copied src a ++ copied src b := by
  simp [copied]

theorem recorded_append (hashes : Str → List (Str × Str)) (a b : List Str) (p : Path) :
    recorded hashes (a ++ b) p = recorded hashes a p ++ recorded hashes b p := by
  simp [recorded]

theorem Put.append {S : Source} {blen : Str → Nat} {bagname : Str} {a b : List Str} {s s' s'' : PState CopyDisk}
    (ha : ∀ f ∈ a ++ b, PlanEntry f) (h1 : Put S blen bagname a s s') (h2 : Put S blen bagname b s' s'') :
    Put S blen bagname (a ++ b) s s'' := by
  refine ⟨h1.same.trans h2.same, ?_, h2.wf ∘ h1.wf, h2.files ∘ h1.files, ?_, ?_, ?_, ?_⟩
  · intro p
    rw [h2.read, h1.read, copied_append, recorded_append, ← addLines_append]
    congr 1
    by_cases hb : ∃ f ∈ copied S.tree b, comps f = p
    · rw [if_pos hb, if_pos]
      · obtain ⟨f, hf, rfl⟩ := hb
        rw [recorded_standard]
        · rfl
        · intro hm
          have := ha f (List.mem_append_right _ (List.mem_filter.1 hf).1)
          exact (planEntry_good this).2.1 (.inr (.inr hm))
      · obtain ⟨f, hf, e⟩ := hb; exact ⟨f, List.mem_append_right _ hf, e⟩
    · rw [if_neg hb]
      congr 1
      have : (∃ f ∈ copied S.tree a ++ copied S.tree b, comps f = p) ↔ ∃ f ∈ copied S.tree a, comps f = p := by
        constructor
        · rintro ⟨f, hf, e⟩
          rcases List.mem_append.1 hf with h | h
          · exact ⟨f, h, e⟩
          · exact absurd ⟨f, h, e⟩ hb
        · rintro ⟨f, hf, e⟩; exact ⟨f, List.mem_append_left _ hf, e⟩
      simp only [this]
  · intro hw hi p
    rw [h2.dirs (h1.wf hw) (h1.files hi), h1.dirs hw hi, or_assoc]
    apply or_congr Iff.rfl
    simp only [NeedsDir, List.mem_append]
    constructor
    · rintro (⟨f, hf, h⟩ | ⟨f, hf, h⟩)
      · exact ⟨f, .inl hf, h⟩
      · exact ⟨f, .inr hf, h⟩
    · rintro ⟨f, hf | hf, h⟩
      · exact .inl ⟨f, hf, h⟩
      · exact .inr ⟨f, hf, h⟩
  · rw [h2.count, h1.count, copied_append, List.filter_append, List.length_append]; omega
  · rw [h2.size, h1.size, copied_append]
    simp only [payloadSizes, List.filter_append, List.map_append, List.sum_append_nat]; omega
  · rw [h2.dest, h1.dest, copied_append, List.map_append]
    simp [dupdate]

theorem Put.nil (S : Source) (blen : Str → Nat) (bagname : Str) (s : PState CopyDisk) :
    Put S blen bagname [] s s := by
  refine ⟨rfl, fun p => by simp [copied, recorded, addLines], id, id, ?_, by simp [copied],
    by simp [copied, payloadSizes], by simp [copied, dupdate]⟩
  intro _ _ p; simp [NeedsDir]

theorem putEntries_copy {S : Source} {blen : Str → Nat} {bagname : Str} {fs : List Str} {s s' : PState CopyDisk}
    (hsrc : s.disk.src = S.tree) (hf : ∀ f ∈ fs, PlanEntry f)
    (ha : ∀ f ∈ fs, ∀ ah ∈ S.hashes f, '/' ∉ ah.1)
    (h : putEntries copyFS S blen bagname fs s = .ok s') : Put S blen bagname fs s s' := by
  induction fs generalizing s with
  | nil => cases h; exact Put.nil ..
  | cons f fs ih =>
    simp only [putEntries] at h
    split at h
    · cases h
    · rename_i s1 h1
      have p1 := putEntry_copy hsrc (hf f (List.mem_cons_self ..)) (ha f (List.mem_cons_self ..)) h1
      have p2 := ih (by rw [p1.same.src, hsrc]) (fun g hg => hf g (List.mem_cons_of_mem _ hg))
        (fun g hg => ha g (List.mem_cons_of_mem _ hg)) h
      exact Put.append (a := [f]) hf p1 p2

/-! ## One output bag -/

theorem emptyManifests_copy {algs : List Str} {d d' : CopyDisk} (h : emptyManifests copyFS algs d = .ok d') :
    SameBut d d' ∧
    (∀ p, d'.out.read p = if ∃ a ∈ algs, p = [py!"manifest-" ++ a ++ py!".txt"] then some [] else d.out.read p) ∧
    (∀ p, d'.out.isdir p = d.out.isdir p) ∧
    ((∀ a ∈ algs, '/' ∉ a) → WfTree d.out → WfTree d'.out) := by
  induction algs generalizing d with
  | nil => cases h; exact ⟨rfl, fun _ => by simp, fun _ => rfl, fun _ h => h⟩
  | cons a algs ih =>
    simp only [emptyManifests] at h
    split at h
    · cases h
    · rename_i d1 h1
      obtain ⟨s1, w1⟩ := lift_ok h1
      obtain ⟨e1, n1, p1⟩ := Tree.write_ok w1
      obtain ⟨s2, r2, i2, wf2⟩ := ih h
      refine ⟨s1.trans s2, ?_, ?_, ?_⟩
      · intro p
        rw [r2, e1, Tree.read_dset, manPath_manifest]
        by_cases hp : ∃ a ∈ algs, p = [py!"manifest-" ++ a ++ py!".txt"]
        · rw [if_pos hp, if_pos]
          obtain ⟨a', ha, e⟩ := hp; exact ⟨a', List.mem_cons_of_mem _ ha, e⟩
        · rw [if_neg hp]
          by_cases hq : p = [py!"manifest-" ++ a ++ py!".txt"]
          · rw [if_pos hq, if_pos ⟨a, List.mem_cons_self .., hq⟩]
          · rw [if_neg hq, if_neg]
            rintro ⟨a', ha, e⟩
            rcases List.mem_cons.1 ha with rfl | ha
            · exact hq e
            · exact hp ⟨a', ha, e⟩
      · intro p
        rw [i2, e1, isdir_dset]
        split
        · rename_i e; subst e; rw [n1]; simp [manPath]
        · rfl
      · intro ha hw
        refine wf2 (fun x hx => ha x (List.mem_cons_of_mem _ hx)) ?_
        rw [e1]
        exact wf_dset hw (manPath_good _ _ (.inl rfl) (ha _ (List.mem_cons_self ..))) p1 (.inl n1)

/-- Contents of the bag before the planned files are copied. -/
def baseRead (S : Source) (p : Path) : Option Str :=
  if p = [py!"bagit.txt"] then S.tree.read p
  else if ∃ a ∈ S.algs, p = [py!"manifest-" ++ a ++ py!".txt"] then some [] else none

theorem manifest_ne_bagit (a : Str) : [py!"manifest-" ++ a ++ py!".txt"] ≠ [py!"bagit.txt"] := by
  simp

theorem good_bagit : GoodPath [py!"bagit.txt"] :=
  ⟨by decide, by intro c hc; rw [List.mem_singleton.1 hc]; constructor <;> decide⟩
theorem good_baginfo : GoodPath [py!"bag-info.txt"] :=
  ⟨by decide, by intro c hc; rw [List.mem_singleton.1 hc]; constructor <;> decide⟩
theorem good_data : GoodPath [py!"data"] :=
  ⟨by decide, by intro c hc; rw [List.mem_singleton.1 hc]; constructor <;> decide⟩
theorem good_multibag : GoodPath [py!"multibag"] :=
  ⟨by decide, by intro c hc; rw [List.mem_singleton.1 hc]; constructor <;> decide⟩

theorem wf_nil : WfTree [] := ⟨by simp [dkeys], by simp [dkeys], by simp [dkeys]⟩

theorem startBag_copy {S : Source} {n : Str} {d d' : CopyDisk} (hsrc : d.src = S.tree)
    (h : startBag copyFS S n d = .ok d') :
    n ∉ d.taken ∧ d' = { src := d.src, taken := n :: d.taken, out := d'.out, done := d.done } ∧
    (∀ p, d'.out.read p = baseRead S p) ∧
    (∀ p, d'.out.isdir p = true ↔ p = [] ∨ p = [py!"data"]) ∧
    ((∀ a ∈ S.algs, '/' ∉ a) → WfTree d'.out) ∧ (S.tree.read [py!"bagit.txt"]).isSome = true := by
  simp only [startBag] at h
  split at h
  · cases h
  · rename_i d1 h1
    simp only [copyFS] at h1
    split at h1
    · cases h1
    · rename_i hn
      cases h1
      split at h
      · cases h
      · rename_i d2 h2
        change CopyDisk.lift { src := d.src, taken := n :: d.taken, out := [], done := d.done }
          (Tree.mkdir [] [py!"data"]) = .ok d2 at h2
        obtain ⟨s2, w2⟩ := lift_ok h2
        obtain ⟨e2, n2, p2⟩ := Tree.mkdir_ok w2
        split at h
        · cases h
        · rename_i d3 h3
          obtain ⟨s3, r3, i3, wf3⟩ := emptyManifests_copy h3
          split at h
          · simp only [copyFS] at h
            rw [s3.src, s2.src] at h
            split at h
            · cases h
            · rename_i c hc
              obtain ⟨s4, w4⟩ := lift_ok h
              obtain ⟨e4, n4, p4⟩ := Tree.write_ok w4
              simp only [hsrc] at hc
              refine ⟨hn, ?_, ?_, ?_, ?_, by rw [hc]; rfl⟩
              · have := (s2.trans s3).trans s4
                rw [this]
              · intro p
                rw [e4, Tree.read_dset, r3, e2, Tree.read_dset]
                unfold baseRead
                by_cases hp : p = [py!"bagit.txt"]
                · rw [if_pos hp, if_pos hp, hp, hc]
                · rw [if_neg hp, if_neg hp]
                  congr 1
                  split
                  · rfl
                  · rfl
              · intro p
                rw [e4, isdir_dset, i3, e2, isdir_dset]
                split
                · rename_i e; subst e; simp
                · split
                  · rename_i e; subst e; simp
                  · simp only [Tree.isdir, dget, Bool.or_eq_true, decide_eq_true_eq, reduceCtorEq, or_false]
                    constructor
                    · exact .inl
                    · rintro (h | h)
                      · exact h
                      · rename_i h1 h2; exact absurd h.symm h2
              · intro ha
                rw [e4]
                refine wf_dset (wf3 ha ?_) good_bagit p4 (.inl n4)
                rw [e2]
                exact wf_dset wf_nil good_data p2 (.inr rfl)
          · cases h

/-- The three head files. -/
def mb1 : Path := [py!"multibag", py!"member-bags.tsv"]
def mb2 : Path := [py!"multibag", py!"file-lookup.tsv"]
def mb3 : Path := [py!"multibag", py!"aggregation-info.txt"]

theorem good_mb1 : GoodPath mb1 := ⟨by decide, by
  intro c hc; simp only [mb1, List.mem_cons, List.not_mem_nil, or_false] at hc
  rcases hc with rfl | rfl <;> constructor <;> decide⟩
theorem good_mb2 : GoodPath mb2 := ⟨by decide, by
  intro c hc; simp only [mb2, List.mem_cons, List.not_mem_nil, or_false] at hc
  rcases hc with rfl | rfl <;> constructor <;> decide⟩
theorem good_mb3 : GoodPath mb3 := ⟨by decide, by
  intro c hc; simp only [mb3, List.mem_cons, List.not_mem_nil, or_false] at hc
  rcases hc with rfl | rfl <;> constructor <;> decide⟩

theorem writeHeadFiles_copy {S : Source} {members : List Str} {dest : List (Str × Str)} {d d' : CopyDisk}
    (hsrc : d.src = S.tree) (h : writeHeadFiles copyFS S members dest d = .ok d') :
    ∃ text, S.tree.read [py!"bag-info.txt"] = some text ∧ SameBut d d' ∧
    (∀ p, d'.out.read p = if p = mb1 then some (members.map (· ++ ['\n'])).flatten
      else if p = mb2 then some (lookupText dest)
      else if p = mb3 then some (copiedText S.mode text) else d.out.read p) ∧
    (∀ p, d'.out.isdir p = true ↔ d.out.isdir p = true ∨ p = [py!"multibag"]) ∧
    (WfTree d.out → WfTree d'.out) := by
  simp only [writeHeadFiles] at h
  split at h
  · cases h
  · rename_i d1 h1
    have hd1 : SameBut d d1 ∧ (∀ p, d1.out.read p = d.out.read p) ∧
        (∀ p, d1.out.isdir p = true ↔ d.out.isdir p = true ∨ p = [py!"multibag"]) ∧
        (WfTree d.out → WfTree d1.out) := by
      split at h1
      · rename_i hm
        cases h1
        refine ⟨rfl, fun _ => rfl, ?_, id⟩
        intro p
        exact ⟨.inl, fun h => h.elim id (fun e => e ▸ hm)⟩
      · obtain ⟨s1, w1⟩ := lift_ok h1
        obtain ⟨e1, n1, p1⟩ := Tree.mkdir_ok w1
        refine ⟨s1, ?_, ?_, ?_⟩
        · intro p
          rw [e1, Tree.read_dset]
          split
          · rename_i e
            rw [exists_cases, Bool.or_eq_false_iff, isfile_read] at n1
            rw [e]
            cases hx : d.out.read [py!"multibag"] with
            | none => rfl
            | some x => rw [hx] at n1; cases n1.2
          · rfl
        · intro p
          rw [e1, isdir_dset]
          split
          · rename_i e; subst e; simp
          · rename_i e
            exact ⟨.inl, fun h => h.elim id (fun e' => absurd e'.symm e)⟩
        · intro hw; rw [e1]; exact wf_dset hw good_multibag p1 (.inr rfl)
    obtain ⟨s1, r1, i1, wf1⟩ := hd1
    split at h
    · cases h
    · rename_i d2 h2
      obtain ⟨s2, w2⟩ := lift_ok h2
      obtain ⟨e2, n2, p2⟩ := Tree.write_ok w2
      split at h
      · cases h
      · rename_i d3 h3
        obtain ⟨s3, w3⟩ := lift_ok h3
        obtain ⟨e3, n3, p3⟩ := Tree.write_ok w3
        split at h
        · cases h
        · rename_i d4 h4
          obtain ⟨s4, w4⟩ := lift_ok h4
          obtain ⟨e4, n4, p4⟩ := Tree.write_ok w4
          have hs4 := ((s1.trans s2).trans s3).trans s4
          split at h
          · rename_i hsome
            cases h
            simp only [copyFS, hs4.src, hsrc] at hsome
            obtain ⟨text, ht⟩ := Option.isSome_iff_exists.1 hsome
            have e4' : d'.out = dset d3.out mb3 (.file (copiedText S.mode text)) := by
              rw [e4]
              simp only [copyFS, ((s1.trans s2).trans s3).src, hsrc, ht]
              rfl
            refine ⟨text, ht, hs4, ?_, ?_, ?_⟩
            · intro p
              rw [e4', Tree.read_dset, e3, Tree.read_dset, e2, Tree.read_dset, r1]
              by_cases h3' : p = mb3
              · subst h3'; rw [if_pos rfl, if_neg (by decide), if_neg (by decide), if_pos rfl]
              · rw [if_neg h3', if_neg h3']
                by_cases h2' : p = mb2
                · subst h2'; rw [if_pos (by rfl), if_neg (by decide), if_pos rfl]
                · rw [if_neg (by exact h2'), if_neg h2']
                  rfl
            · intro p
              rw [e4', isdir_dset, e3, isdir_dset, e2, isdir_dset, ← i1]
              have key : ∀ (t t' : Tree) (q : Path) (b : Bool), q ≠ [] → t.isdir q = false →
                  ((if q = p then (decide (p = []) || decide (Node.file [] = .dir)) else t.isdir p) = t.isdir p) := by
                intro t _ q _ hq hn
                split
                · rename_i e; subst e; simp [hq, hn]
                · rfl
              have n4' := n4
              rw [e3, isdir_dset, if_neg (by decide), e2, isdir_dset, if_neg (by decide)] at n4'
              have n3' := n3
              rw [e2, isdir_dset, if_neg (by decide)] at n3'
              split
              · rename_i e; subst e
                have : d1.out.isdir mb3 = false := n4'
                rw [this]; simp [mb3]
              · split
                · rename_i e; subst e
                  rw [n3']; simp
                · split
                  · rename_i e; subst e
                    rw [n2]; simp
                  · rfl
            · intro hw
              rw [e4']
              refine wf_dset ?_ good_mb3 p4 (.inl n4)
              rw [e3]
              refine wf_dset ?_ good_mb2 p3 (.inl n3)
              rw [e2]
              exact wf_dset (wf1 hw) good_mb1 p2 (.inl n2)
          · cases h

/-- Contents and structure of one output bag. -/
structure Bag (S : Source) (blen : Str → Nat) (o : ApplyOpts) (n : Str) (contents : List Str) (ishead : Bool)
    (members : List Str) (dest : List (Str × Str)) (t : Tree) (fields : List (Str × Str)) : Prop where
  info : bagInfoFields S o n ishead (payloadSizes blen S.tree (copied S.tree contents)).sum
    ((copied S.tree contents).filter isPayload).length = .ok fields
  bagit : (S.tree.read [py!"bagit.txt"]).isSome = true
  agg : ishead = true → (S.tree.read [py!"bag-info.txt"]).isSome = true
  wf : (∀ a ∈ S.algs, '/' ∉ a) → WfTree t
  read : ∀ p, t.read p =
    if ishead = true ∧ p = mb1 then some (members.map (· ++ ['\n'])).flatten
    else if ishead = true ∧ p = mb2 then some (lookupText dest)
    else if ishead = true ∧ p = mb3 then
      some (copiedText S.mode ((S.tree.read [py!"bag-info.txt"]).getD []))
    else if p = [py!"bag-info.txt"] then some (fieldsText fields)
    else addLines (if ∃ f ∈ copied S.tree contents, comps f = p then S.tree.read p else baseRead S p)
      (recorded S.hashes (copied S.tree contents) p)
  dirs : (∀ a ∈ S.algs, '/' ∉ a) → ∀ p, t.isdir p = true ↔
    p = [] ∨ p = [py!"data"] ∨ NeedsDir S.tree contents p ∨ (ishead = true ∧ p = [py!"multibag"])

/-- The lookup entries of the copied files. -/
def destPairs (src : Tree) (contents : List Str) (n : Str) : List (Str × Str) :=
  (copied src contents).map (fun f => (f, n))

theorem standard_of_recorded {hashes : Str → List (Str × Str)} {fs : List Str} {p : Path}
    (h : recorded hashes fs p ≠ []) : ManifestFile p :=
  Classical.byContradiction fun hm => h (recorded_standard hm)

theorem baseRead_standard {S : Source} {p : Path} (h : (baseRead S p).isSome = true) : Standard p := by
  unfold baseRead at h
  split at h
  · rename_i e; exact .inl e
  · split at h
    · rename_i e
      obtain ⟨a, _, e⟩ := e
      exact .inr (.inr ⟨a, .inl e⟩)
    · cases h

theorem writeBag_copy {S : Source} {blen : Str → Nat} {o : ApplyOpts} {n : Str} {contents : List Str}
    {ishead : Bool} {members : List Str} {dest dest' : List (Str × Str)} {d d' : CopyDisk}
    (hsrc : d.src = S.tree) (hf : ∀ f ∈ contents, PlanEntry f)
    (ha : ∀ f ∈ contents, ∀ ah ∈ S.hashes f, '/' ∉ ah.1)
    (h : writeBag copyFS S blen o n contents ishead members dest d = .ok (d', dest')) :
    ∃ t fields, n ∉ d.taken ∧
      d' = { src := d.src, taken := n :: d.taken, out := [], done := d.done ++ [(n, t)] } ∧
      dest' = dupdate dest (destPairs S.tree contents n) ∧
      Bag S blen o n contents ishead members dest' t fields := by
  simp only [writeBag] at h
  split at h
  · cases h
  · rename_i d1 h1
    obtain ⟨hn, hd1, r1, i1, wf1, hb1⟩ := startBag_copy hsrc h1
    split at h
    · cases h
    · rename_i s2 h2
      have p2 := putEntries_copy (by show d1.src = _; rw [hd1]; exact hsrc) hf ha h2
      have hfiles1 : ∀ p, d1.out.isfile p = true → S.tree.isfile p = true ∨ Standard p := by
        intro p hp
        rw [isfile_read, r1] at hp
        exact .inr (baseRead_standard hp)
      have s2same : SameBut d1 s2.disk := p2.same
      have hcount := p2.count
      have hsize := p2.size
      simp only [Nat.zero_add] at hcount hsize
      split at h
      · cases h
      · rename_i fields hfields
        rw [hcount, hsize] at hfields
        split at h
        · cases h
        · rename_i d3 h3
          obtain ⟨s3, w3⟩ := lift_ok h3
          obtain ⟨e3, n3, q3⟩ := Tree.write_ok w3
          have hread3 : ∀ p, d3.out.read p = if p = [py!"bag-info.txt"] then some (fieldsText fields)
              else addLines (if ∃ f ∈ copied S.tree contents, comps f = p then S.tree.read p else baseRead S p)
                (recorded S.hashes (copied S.tree contents) p) := by
            intro p
            rw [e3, Tree.read_dset, p2.read]
            simp only [r1]
          have hdir3 : (∀ a ∈ S.algs, '/' ∉ a) → ∀ p, d3.out.isdir p = true ↔
              p = [] ∨ p = [py!"data"] ∨ NeedsDir S.tree contents p := by
            intro hal p
            rw [e3, isdir_dset]
            have key := p2.dirs (wf1 hal) hfiles1
            split
            · rename_i e; subst e
              have : ¬ (s2.disk.out.isdir [py!"bag-info.txt"] = true) := by rw [n3]; simp
              rw [key] at this
              simp only [not_or] at this
              constructor
              · intro h; simp at h
              · rintro (h | h | h)
                · simp at h
                · simp at h
                · exact absurd h this.2
            · rw [key]
              show (d1.out.isdir p = true ∨ _) ↔ _
              rw [i1, or_assoc]
          have hwf3 : (∀ a ∈ S.algs, '/' ∉ a) → WfTree d3.out := by
            intro hal; rw [e3]; exact wf_dset (p2.wf (wf1 hal)) good_baginfo q3 (.inl n3)
          have hd3 : SameBut d1 d3 := s2same.trans s3
          cases ishead with
          | false =>
            simp only [Bool.false_eq_true, if_false] at h
            cases h
            refine ⟨d3.out, fields, hn, ?_, p2.dest, hfields, hb1, by simp, hwf3, ?_, ?_⟩
            · show ({ d3 with done := d3.done ++ [(n, d3.out)], out := [] } : CopyDisk) = _
              rw [hd3.done, show d1.done = d.done by rw [hd1]]
              rw [show d3.src = d.src by rw [hd3.src, hd1], show d3.taken = n :: d.taken by rw [hd3.taken, hd1]]
            · intro p; simp only [Bool.false_eq_true, false_and, if_false]; exact hread3 p
            · intro hal p; simp only [Bool.false_eq_true, false_and, or_false]; exact hdir3 hal p
          | true =>
            simp only [if_true] at h
            split at h
            · cases h
            · rename_i d4 h4
              cases h
              obtain ⟨text, ht, s4, r4, i4, wf4⟩ := writeHeadFiles_copy
                (by rw [hd3.src, hd1]; exact hsrc) h4
              have hd4 := hd3.trans s4
              refine ⟨d4.out, fields, hn, ?_, p2.dest, hfields, hb1, by simp [ht], fun hal => wf4 (hwf3 hal), ?_, ?_⟩
              · show ({ d4 with done := d4.done ++ [(n, d4.out)], out := [] } : CopyDisk) = _
                rw [hd4.done, show d1.done = d.done by rw [hd1]]
                rw [show d4.src = d.src by rw [hd4.src, hd1], show d4.taken = n :: d.taken by rw [hd4.taken, hd1]]
              · intro p; simp only [true_and]; rw [r4, ht, hread3]; rfl
              · intro hal p; simp only [true_and]; rw [i4, hdir3 hal]
                simp only [or_assoc]

/-! ## All output bags -/

/-- Lookup entries of the bags written so far. -/
def indexPairs (src : Tree) (l : List (Manifest × Str)) : List (Str × Str) :=
  l.flatMap (fun mn => destPairs src mn.1.contents mn.2)

theorem dupdate_append {K V : Type} [DecidableEq K] (d a b : List (K × V)) :
    dupdate d (a ++ b) = dupdate (dupdate d a) b := by simp [dupdate]

theorem applyLoop_copy {S : Source} {blen : Str → Nat} {o : ApplyOpts} {plan : List Manifest} {names members : List Str}
    {dest : List (Str × Str)} {d d' : CopyDisk}
    (hsrc : d.src = S.tree) (hf : ∀ m ∈ plan, ∀ f ∈ m.contents, PlanEntry f)
    (ha : ∀ f, ∀ ah ∈ S.hashes f, '/' ∉ ah.1)
    (h : applyLoop copyFS S blen o plan names members dest d = .ok d') :
    ∃ bags : List (Str × Tree), d'.src = d.src ∧ d'.done = d.done ++ bags ∧ bags.length = plan.length ∧
      (bags.map Prod.fst).Nodup ∧ (∀ n ∈ bags.map Prod.fst, n ∉ d.taken) ∧
      ∀ i m, plan[i]? = some m → ∃ n t fields, bags[i]? = some (n, t) ∧ (names[i]?).or m.name = some n ∧
        Bag S blen o n m.contents (decide (i + 1 = plan.length))
          (((bags.map Prod.fst).take (i + 1)).foldl moveToEnd members)
          (dupdate dest (indexPairs S.tree ((plan.zip (bags.map Prod.fst)).take (i + 1)))) t fields := by
  induction plan generalizing names members dest d with
  | nil =>
    simp only [applyLoop] at h
    cases h
    exact ⟨[], rfl, by simp, rfl, by simp, by simp, by simp⟩
  | cons m rest ih =>
    simp only [applyLoop] at h
    split at h
    · cases h
    · rename_i n hn
      split at h
      · cases h
      · rename_i d1 dest1 h1
        obtain ⟨t, fields, hnt, hd1, hdest, hbag⟩ := writeBag_copy hsrc (hf m (List.mem_cons_self ..))
          (fun f _ => ha f) h1
        obtain ⟨bags, hs, hdone, hlen, hnd, htk, hall⟩ := ih (by rw [hd1]; exact hsrc)
          (fun m' hm' => hf m' (List.mem_cons_of_mem _ hm')) h
        refine ⟨(n, t) :: bags, ?_, ?_, ?_, ?_, ?_, ?_⟩
        · rw [hs, hd1]
        · rw [hdone, hd1]; simp
        · simp [hlen]
        · rw [List.map_cons, List.nodup_cons]
          refine ⟨?_, hnd⟩
          intro hm
          have := htk n hm
          rw [hd1] at this
          exact this (List.mem_cons_self ..)
        · intro x hx
          rw [List.map_cons, List.mem_cons] at hx
          rcases hx with rfl | hx
          · exact hnt
          · have := htk x hx
            rw [hd1] at this
            exact fun h => this (List.mem_cons_of_mem _ h)
        · intro i m' hm'
          cases i with
          | zero =>
            simp only [List.getElem?_cons_zero, Option.some.injEq] at hm'
            subst hm'
            refine ⟨n, t, fields, rfl, ?_, ?_⟩
            · rw [← hn]
              cases names with
              | nil => rfl
              | cons x xs => rfl
            · have e1 : decide (0 + 1 = (m :: rest).length) = rest.isEmpty := by
                cases rest <;> simp
              rw [e1]
              rw [hdest] at hbag
              simpa [indexPairs, hdest] using hbag
          | succ j =>
            simp only [List.getElem?_cons_succ] at hm'
            obtain ⟨n', t', fields', g1, g2, g3⟩ := hall j m' hm'
            refine ⟨n', t', fields', by simpa using g1, ?_, ?_⟩
            · rw [← g2]
              cases names <;> simp
            · have e1 : decide (j + 1 + 1 = (m :: rest).length) = decide (j + 1 = rest.length) := by
                simp
              rw [e1]
              rw [hdest, ← dupdate_append] at g3
              simpa [indexPairs] using g3

end Verif
