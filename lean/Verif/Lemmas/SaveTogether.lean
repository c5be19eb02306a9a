import Verif.Lemmas.SaveStopped
import Verif.Spec.SaveTogether
/-!
# Several processes that save lists of one head bag: lemmas
-/

namespace Verif
open Spec

/-! ## Writing at a position -/

theorem putAt_nil (f : Str) (k : Nat) : putAt f k [] = f := rfl

theorem putAt_get {f s : Str} {k j : Nat} (h : s ≠ []) :
    (putAt f k s)[j]? = if j < k then (if j < f.length then f[j]? else some '\x00')
      else if j < k + s.length then s[j - k]? else f[j]? := by
  unfold putAt
  rw [if_neg h]
  have h0 : (f.take k ++ List.replicate (k - f.length) '\x00').length = k := by
    simp only [List.length_append, List.length_take, List.length_replicate]; omega
  by_cases h1 : j < k
  · rw [if_pos h1, List.append_assoc, List.getElem?_append_left (by omega)]
    by_cases h2 : j < f.length
    · rw [if_pos h2, List.getElem?_append_left (by simp only [List.length_take]; omega), List.getElem?_take, if_pos h1]
    · rw [if_neg h2, List.getElem?_append_right (by simp only [List.length_take]; omega), List.getElem?_replicate,
        if_pos (by simp only [List.length_take]; omega)]
  · rw [if_neg h1, List.append_assoc, List.getElem?_append_right (by omega), h0]
    by_cases h2 : j < k + s.length
    · rw [if_pos h2, List.getElem?_append_left (by omega)]
    · rw [if_neg h2, List.getElem?_append_right (by omega), List.getElem?_drop]
      congr 1
      omega

theorem putAt_length (f s : Str) (k : Nat) :
    (putAt f k s).length = if s = [] then f.length else max f.length (k + s.length) := by
  unfold putAt
  by_cases h : s = []
  · simp [h]
  · simp only [if_neg h, List.length_append, List.length_take, List.length_replicate, List.length_drop]
    omega

section
variable {ι : Type} [DecidableEq ι]

/-! ## One step -/

theorem comps_name (a : ListText) : comps a.name = [a.name] := by
  cases a with
  | members ms => exact (by decide : comps py!"member-bags.tsv" = [py!"member-bags.tsv"])
  | lookup d => exact (by decide : comps py!"file-lookup.tsv" = [py!"file-lookup.tsv"])
  | deleted ps => exact (by decide : comps py!"deleted.txt" = [py!"deleted.txt"])

theorem removes_text {a : ListText} (h : a.removes = true) : a.text = [] := by
  cases a with
  | members ms => cases h
  | lookup d => cases h
  | deleted ps =>
    cases ps with
    | nil => rfl
    | cons x ps => cases h

theorem goes_self (w : Savers ι) (i : ι) (a : SavePc) : (w.goes i a).pc i = a := by simp [Savers.goes]

theorem goes_other (w : Savers ι) {i j : ι} (a : SavePc) (h : j ≠ i) : (w.goes i a).pc j = w.pc j := by
  simp [Savers.goes, h]

theorem unlinked_writing {a : SavePc} {k : Nat} : a.unlinked ≠ .writing k := by
  cases a <;> (intro e; cases e)

theorem unlinked_underway {a : SavePc} : (∃ k, a.unlinked = .writing k ∨ a.unlinked = .lost k) ↔ ∃ k, a = .writing k ∨ a = .lost k := by
  cases a <;> simp [SavePc.unlinked]

/-- A step of `i` leaves those that save another list where they are. -/
theorem step_other (info : Info) (c : ι → ListText) (w : Savers ι) {i j : ι} (n : Nat) (h : (c j).name ≠ (c i).name) :
    (w.step info c i n).pc j = w.pc j := by
  have hj : j ≠ i := fun e => h (by rw [e])
  unfold Savers.step
  simp only
  repeat' split
  all_goals first | rfl | exact goes_other _ _ hj | (simp only [if_neg hj, if_neg h])

/-- Everything a step of `i` can do. -/
inductive StepDoes (info : Info) (c : ι → ListText) (w : Savers ι) (i : ι) (n : Nat) (w' : Savers ι) : Prop
  | rest (h : w'.tree = w.tree) (hw : ∀ k, w.pc i ≠ .writing k ∨ w'.pc i = .writing k)
      (hn : ∀ k, w'.pc i = .writing k → w.pc i = .writing k) (hu : Underway w' i ↔ Underway w i)
      (ho : ∀ j, j ≠ i → w'.pc j = w.pc j)
  | dir (h : w'.tree = dset w.tree (comps (tagDir info)) .dir) (h0 : dget w.tree (comps (tagDir info)) = none)
      (hw : ¬ Underway w i) (hn : ¬ Underway w' i) (ho : ∀ j, j ≠ i → w'.pc j = w.pc j)
  | opened (h : w'.tree = dset w.tree (tagFile (tagDir info) (c i).name) (.file []))
      (hw : w.pc i = .ready) (hn : w'.pc i = .writing 0) (ho : ∀ j, j ≠ i → w'.pc j = w.pc j)
  | wrote (k : Nat) (f : Str) (hw : w.pc i = .writing k)
      (hf : dget w.tree (tagFile (tagDir info) (c i).name) = some (.file f))
      (h : w'.tree = dset w.tree (tagFile (tagDir info) (c i).name) (.file (putAt f k (((c i).text.drop k).take n))))
      (hn : w'.pc i = .writing (k + (((c i).text.drop k).take n).length)) (ho : ∀ j, j ≠ i → w'.pc j = w.pc j)
  | removed (h : w'.tree = ddel w.tree (tagFile (tagDir info) (c i).name))
      (hf : dget w.tree (tagFile (tagDir info) (c i).name) ≠ none)
      (hw : w.pc i = .emptying) (hn : w'.pc i = .looking)
      (ho : ∀ j, j ≠ i → (c j).name = (c i).name → w'.pc j = (w.pc j).unlinked)

omit [DecidableEq ι] in
theorem not_underway {w : Savers ι} {i : ι} {a : SavePc} (h : w.pc i = a) (h1 : ∀ k, a ≠ .writing k ∧ a ≠ .lost k) :
    ¬ Underway w i := by
  rintro ⟨k, e | e⟩
  · exact (h1 k).1 (h ▸ e)
  · exact (h1 k).2 (h ▸ e)

theorem goes_rest {info : Info} {c : ι → ListText} {w : Savers ι} {i : ι} {n : Nat} {a b : SavePc} (hpc : w.pc i = a)
    (ha : ∀ k, a ≠ .writing k ∧ a ≠ .lost k) (hb : ∀ k, b ≠ .writing k ∧ b ≠ .lost k) :
    StepDoes info c w i n (w.goes i b) :=
  .rest rfl (fun k => .inl (by rw [hpc]; exact (ha k).1)) (fun k e => by rw [goes_self] at e; exact absurd e (hb k).1)
    ⟨fun h => absurd h (not_underway (goes_self ..) hb), fun h => absurd h (not_underway hpc ha)⟩ (fun j hj => goes_other _ _ hj)

theorem step_does (info : Info) (c : ι → ListText) (w : Savers ι) (i : ι) (n : Nat) :
    StepDoes info c w i n (w.step info c i n) := by
  unfold Savers.step
  simp only
  cases hpc : w.pc i with
  | start =>
    simp only
    split
    all_goals exact goes_rest hpc (by simp) (by simp)
  | emptying =>
    simp only
    unfold Tree.remove
    by_cases h : w.tree.isfile (tagFile (tagDir info) (c i).name) = true
    · rw [if_pos h]
      refine .removed rfl ?_ hpc (by simp) (fun j hj e => by simp [hj, e])
      intro e
      unfold Tree.isfile at h
      rw [e] at h
      cases h
    · rw [if_neg h]
      exact goes_rest hpc (by simp) (by simp)
  | looking =>
    simp only
    split
    all_goals exact goes_rest hpc (by simp) (by simp)
  | missing =>
    simp only
    unfold Tree.mkdir
    by_cases h : (w.tree.exists (comps (tagDir info)) || !w.tree.isdir (comps (tagDir info)).dropLast) = true
    · rw [if_pos h]
      exact goes_rest hpc (by simp) (by simp)
    · rw [if_neg h]
      refine .dir rfl ?_ (not_underway hpc (by simp)) (not_underway (goes_self ..) (by simp)) (fun j hj => goes_other _ _ hj)
      simp only [Tree.exists, Bool.or_eq_true, not_or, Bool.not_eq_true] at h
      cases hg : dget w.tree (comps (tagDir info)) with
      | none => rfl
      | some a => rw [hg] at h; simp at h
  | ready =>
    simp only
    unfold Tree.write
    by_cases h : (w.tree.isdir (tagFile (tagDir info) (c i).name) ||
        !w.tree.isdir (tagFile (tagDir info) (c i).name).dropLast) = true
    · rw [if_pos h]
      exact goes_rest hpc (by simp) (by simp)
    · rw [if_neg h]
      exact .opened rfl hpc (goes_self ..) (fun j hj => goes_other _ _ hj)
  | writing k =>
    simp only
    split
    · rename_i f hf
      exact .wrote k f hpc hf rfl (goes_self ..) (fun j hj => goes_other _ _ hj)
    · exact .rest rfl (fun k' => by
        by_cases e : k = k'
        · exact .inr (by rw [hpc, e])
        · exact .inl (by rw [hpc]; intro z; cases z; exact e rfl)) (fun k' e => e) Iff.rfl (fun _ _ => rfl)
  | lost k =>
    exact .rest rfl (fun k' => .inl (by rw [hpc]; intro e; cases e)) (fun k' e => by rw [goes_self] at e; cases e)
      ⟨fun _ => ⟨k, .inr hpc⟩, fun _ => ⟨_, .inr (goes_self ..)⟩⟩ (fun j hj => goes_other _ _ hj)
  | failed e =>
    exact .rest rfl (fun k => .inl (by rw [hpc]; intro e; cases e)) (fun k e => e) Iff.rfl (fun _ _ => rfl)

theorem run_nil (info : Info) (c : ι → ListText) (w : Savers ι) : w.run info c [] = w := rfl

theorem run_cons (info : Info) (c : ι → ListText) (w : Savers ι) (x : ι × Nat) (l : List (ι × Nat)) :
    w.run info c (x :: l) = (w.step info c x.1 x.2).run info c l := rfl

theorem run_append (info : Info) (c : ι → ListText) (w : Savers ι) (l m : List (ι × Nat)) :
    w.run info c (l ++ m) = (w.run info c l).run info c m := List.foldl_append ..

theorem file_ne_dir (info : Info) (a : ListText) : tagFile (tagDir info) a.name ≠ comps (tagDir info) :=
  tagFile_ne_dir _ _ (comps_name a) rfl

/-- A step leaves the files it does not write as they are. -/
theorem step_same_at (info : Info) (c : ι → ListText) (w : Savers ι) (i : ι) (n : Nat) {p : Path}
    (h1 : p ≠ tagFile (tagDir info) (c i).name) (h2 : p ≠ comps (tagDir info)) :
    dget (w.step info c i n).tree p = dget w.tree p := by
  cases step_does info c w i n with
  | rest h => rw [h]
  | dir h => rw [h, dget_dset, if_neg (fun e => h2 e.symm)]
  | opened h => rw [h, dget_dset, if_neg (fun e => h1 e.symm)]
  | wrote k f _ _ h => rw [h, dget_dset, if_neg (fun e => h1 e.symm)]
  | removed h => rw [h, dget_ddel, if_neg (fun e => h1 e.symm)]

/-! ## Everybody writes the same text -/

/-- The processes in `S` all write `t` to the file of `a`.  None of them has opened it yet; or it holds what one of them,
the last that has opened it, has written, as far as this one has got; or one of them has removed it. -/
structure SameText (info : Info) (c : ι → ListText) (a : ListText) (t : Str) (S : ι → Prop) (w : Savers ι) : Prop where
  le : ∀ i k, S i → w.pc i = .writing k → k ≤ t.length
  rem : ∀ i, S i → w.pc i = .emptying → (c i).removes = true
  file : (∀ i, S i → ¬ Underway w i) ∨ (∃ q k f, S q ∧ w.pc q = .writing k ∧
    dget w.tree (tagFile (tagDir info) a.name) = some (.file f) ∧ f.length ≤ t.length ∧ ∀ j, j < k → f[j]? = t[j]?) ∨
    ((∃ i, S i ∧ (c i).removes = true) ∧ dget w.tree (tagFile (tagDir info) a.name) = none ∧ ∀ i k, S i → w.pc i ≠ .writing k)

theorem step_emptying {info : Info} {c : ι → ListText} {w : Savers ι} {i j : ι} {n : Nat}
    (h : (w.step info c i n).pc j = .emptying) : w.pc j = .emptying ∨ (c j).removes = true := by
  by_cases hji : j = i
  · subst hji
    unfold Savers.step at h
    simp only at h
    revert h
    cases hpc : w.pc j with
    | emptying => exact fun _ => .inl rfl
    | start =>
      simp only
      split
      · next e => exact fun _ => .inr (by simp at e; exact e.1)
      · intro h; rw [goes_self] at h; cases h
    | looking => simp only; split <;> (intro h; rw [goes_self] at h; cases h)
    | missing => simp only; split <;> (intro h; rw [goes_self] at h; cases h)
    | ready => simp only; split <;> (intro h; rw [goes_self] at h; cases h)
    | writing k =>
      simp only
      split
      · intro h; rw [goes_self] at h; cases h
      · intro h; rw [hpc] at h; cases h
    | lost k => simp only; intro h; rw [goes_self] at h; cases h
    | failed e => simp only; intro h; rw [hpc] at h; cases h
  · left
    cases step_does info c w i n with
    | rest _ _ _ _ ho => rw [← ho j hji]; exact h
    | dir _ _ _ _ ho => rw [← ho j hji]; exact h
    | opened _ _ _ ho => rw [← ho j hji]; exact h
    | wrote _ _ _ _ _ _ ho => rw [← ho j hji]; exact h
    | removed _ _ _ _ ho =>
      by_cases hn : (c j).name = (c i).name
      · rw [ho j hji hn] at h
        cases hp : w.pc j with
        | emptying => rfl
        | _ => rw [hp] at h; cases h
      · rw [step_other info c w n hn] at h; exact h

theorem sameText_step {info : Info} {c : ι → ListText} {a : ListText} {t : Str} {S : ι → Prop} {w : Savers ι} {i : ι} {n : Nat}
    (hS : ∀ j, S j → (c j).name = a.name ∧ (c j).text = t) (hi : S i ∨ (c i).name ≠ a.name)
    (v : SameText info c a t S w) :
    SameText info c a t S (w.step info c i n) := by
  have hfile : (c i).name ≠ a.name → tagFile (tagDir info) a.name ≠ tagFile (tagDir info) (c i).name := fun h =>
    tagFile_inj (comps_name a) (comps_name (c i)) (Ne.symm h)
  have hdir := file_ne_dir info a
  have hrem : ∀ j, S j → (w.step info c i n).pc j = .emptying → (c j).removes = true := fun j hj e =>
    (step_emptying e).elim (v.rem j hj) id
  by_cases hs : S i
  · obtain ⟨hn, ht⟩ := hS i hs
    cases step_does info c w i n with
    | rest h hw hk hu hpc =>
      refine ⟨fun j k hj e => ?_, hrem, ?_⟩
      · by_cases hji : j = i
        · subst hji; exact v.le j k hj (hk k e)
        · rw [hpc j hji] at e; exact v.le j k hj e
      · rcases v.file with v' | ⟨q, k, f, q1, q2, q3, q4⟩ | ⟨v1, v2, v3⟩
        · left
          intro j hj e
          by_cases hji : j = i
          · subst hji; exact v' j hj (hu.1 e)
          · unfold Underway at e; rw [hpc j hji] at e; exact v' j hj e
        · right; left
          refine ⟨q, k, f, q1, ?_, by rw [h]; exact q3, q4⟩
          by_cases hji : q = i
          · subst hji; exact (hw k).resolve_left (fun z => z q2)
          · rw [hpc q hji]; exact q2
        · right; right
          refine ⟨v1, by rw [h]; exact v2, fun j k hj e => ?_⟩
          by_cases hji : j = i
          · subst hji; exact v3 j k hj (hk k e)
          · rw [hpc j hji] at e; exact v3 j k hj e
    | dir h h0 hw hk hpc =>
      refine ⟨fun j k hj e => ?_, hrem, ?_⟩
      · by_cases hji : j = i
        · subst hji; exact absurd ⟨k, .inl e⟩ hk
        · rw [hpc j hji] at e; exact v.le j k hj e
      · rcases v.file with v' | ⟨q, k, f, q1, q2, q3, q4⟩ | ⟨v1, v2, v3⟩
        · left
          intro j hj e
          by_cases hji : j = i
          · subst hji; exact hk e
          · unfold Underway at e; rw [hpc j hji] at e; exact v' j hj e
        · right; left
          refine ⟨q, k, f, q1, ?_, by rw [h, dget_dset, if_neg (fun e => hdir e.symm)]; exact q3, q4⟩
          have hji : q ≠ i := fun e => hw ⟨k, .inl (e ▸ q2)⟩
          rw [hpc q hji]; exact q2
        · right; right
          refine ⟨v1, by rw [h, dget_dset, if_neg (fun e => hdir e.symm)]; exact v2, fun j k hj e => ?_⟩
          by_cases hji : j = i
          · subst hji; exact hk ⟨k, .inl e⟩
          · rw [hpc j hji] at e; exact v3 j k hj e
    | opened h hw hk hpc =>
      refine ⟨fun j k hj e => ?_, hrem, .inr (.inl ⟨i, 0, [], hs, hk, by rw [h, hn, dget_dset, if_pos rfl], Nat.zero_le _, fun j hj => absurd hj (Nat.not_lt_zero _)⟩)⟩
      by_cases hji : j = i
      · subst hji; rw [hk] at e; cases e; exact Nat.zero_le _
      · rw [hpc j hji] at e; exact v.le j k hj e
    | removed h hf hw hk hpc =>
      have hno : ∀ j k, S j → (w.step info c i n).pc j ≠ .writing k := by
        intro j k hj e
        by_cases hji : j = i
        · subst hji; rw [hk] at e; cases e
        · rw [hpc j hji (by rw [hn, (hS j hj).1])] at e
          exact unlinked_writing e
      exact ⟨fun j k hj e => absurd e (hno j k hj), hrem,
        .inr (.inr ⟨⟨i, hs, v.rem i hs hw⟩, by rw [h, hn, dget_ddel, if_pos rfl], hno⟩)⟩
    | wrote k f hw hf h hk hpc =>
      rw [hn] at hf h
      rw [ht] at h hk
      have hkt := v.le i k hs hw
      have hlen : k + ((t.drop k).take n).length ≤ t.length := by
        simp only [List.length_take, List.length_drop]; omega
      refine ⟨fun j k' hj e => ?_, hrem, ?_⟩
      · by_cases hji : j = i
        · subst hji; rw [hk] at e; cases e; exact hlen
        · rw [hpc j hji] at e; exact v.le j k' hj e
      · rcases v.file with v' | ⟨q, kq, f', q1, q2, q3, q4, q5⟩ | ⟨v1, v2, v3⟩
        · exact absurd ⟨k, .inl hw⟩ (v' i hs)
        · right; left
          rw [hf] at q3
          injection q3 with q3
          injection q3 with q3
          subst q3
          by_cases he : (t.drop k).take n = []
          · rw [he, putAt_nil] at h
            rw [he] at hk
            refine ⟨q, kq, f, q1, ?_, by rw [h, dget_dset, if_pos rfl], q4, q5⟩
            by_cases hji : q = i
            · subst hji; rw [hw] at q2; cases q2; exact hk
            · rw [hpc q hji]; exact q2
          · have hl : (putAt f k ((t.drop k).take n)).length ≤ t.length := by
              rw [putAt_length, if_neg he]; omega
            have hs' : ∀ j, k ≤ j → j < k + ((t.drop k).take n).length → ((t.drop k).take n)[j - k]? = t[j]? := by
              intro j h1 h2
              rw [List.getElem?_take, if_pos (by simp only [List.length_take] at h2; omega), List.getElem?_drop]
              congr 1
              omega
            have hq : ∀ j, j < kq → (putAt f k ((t.drop k).take n))[j]? = t[j]? := by
              intro j hj
              have hjf : j < f.length := by
                have h1 := q5 j hj
                have h2 := v.le q kq q1 q2
                rw [List.getElem?_eq_getElem (show j < t.length by omega)] at h1
                exact (List.getElem?_eq_some_iff.1 h1).1
              rw [putAt_get he]
              split
              · exact q5 j hj
              · split
                · exact hs' j (by omega) (by assumption)
                · exact q5 j hj
            by_cases hji : q = i
            · subst hji
              rw [hw] at q2
              cases q2
              refine ⟨q, _, _, q1, hk, by rw [h, dget_dset, if_pos rfl], hl, fun j hj => ?_⟩
              by_cases hjk : j < k
              · exact hq j hjk
              · rw [putAt_get he, if_neg hjk, if_pos hj]
                exact hs' j (by omega) hj
            · exact ⟨q, kq, _, q1, by rw [hpc q hji]; exact q2, by rw [h, dget_dset, if_pos rfl], hl, hq⟩
        · exact absurd hw (v3 i k hs)
  · have hne := hi.resolve_left hs
    have hpc : ∀ j, S j → (w.step info c i n).pc j = w.pc j := fun j hj =>
      step_other info c w n (by rw [(hS j hj).1]; exact Ne.symm hne)
    refine ⟨fun j k hj e => v.le j k hj (by rw [← hpc j hj]; exact e), hrem, ?_⟩
    rcases v.file with v' | ⟨q, k, f, q1, q2, q3, q4⟩ | ⟨v1, v2, v3⟩
    · left
      intro j hj e
      unfold Underway at e
      rw [hpc j hj] at e
      exact v' j hj e
    · right; left
      exact ⟨q, k, f, q1, by rw [hpc q q1]; exact q2, by rw [step_same_at info c w i n (hfile hne) hdir]; exact q3, q4⟩
    · right; right
      exact ⟨v1, by rw [step_same_at info c w i n (hfile hne) hdir]; exact v2,
        fun j k hj e => v3 j k hj (by rw [← hpc j hj]; exact e)⟩

theorem sameText_run {info : Info} {c : ι → ListText} {a : ListText} {t : Str} {S : ι → Prop}
    (hS : ∀ j, S j → (c j).name = a.name ∧ (c j).text = t) :
    ∀ (l : List (ι × Nat)) {w : Savers ι}, (∀ x ∈ l, S x.1 ∨ (c x.1).name ≠ a.name) → SameText info c a t S w →
    SameText info c a t S (w.run info c l)
  | [], _, _, v => v
  | x :: l, w, h, v => by
    rw [run_cons]
    exact sameText_run hS l (fun y hy => h y (List.mem_cons_of_mem _ hy))
      (sameText_step hS (h x (List.mem_cons_self ..)) v)

omit [DecidableEq ι] in
theorem sameText_end {info : Info} {c : ι → ListText} {a : ListText} {t : Str} {S : ι → Prop} {w : Savers ι}
    (hS : ∀ j, S j → (c j).name = a.name ∧ (c j).text = t) (v : SameText info c a t S w)
    (hd : ∀ i, S i → Underway w i → AllWritten c w i) (hone : ∃ i, S i ∧ AllWritten c w i) :
    dget w.tree (tagFile (tagDir info) a.name) = some (.file t) ∨
    (∃ i, S i ∧ (c i).removes = true) ∧ dget w.tree (tagFile (tagDir info) a.name) = none := by
  obtain ⟨i, hi, hdi⟩ := hone
  rcases v.file with v' | ⟨q, k, f, q1, q2, q3, q4, q5⟩ | ⟨v1, v2, v3⟩
  · exact absurd ⟨_, hdi⟩ (v' i hi)
  · left
    have hq : k = t.length := by
      rcases hd q q1 ⟨k, .inl q2⟩ with e | e
      · rw [q2, (hS q q1).2] at e
        cases e
        rfl
      · rw [q2] at e; cases e
    subst hq
    rw [q3]
    congr 2
    apply List.ext_getElem?
    intro j
    by_cases hj : j < t.length
    · exact q5 j hj
    · rw [List.getElem?_eq_none (by omega), List.getElem?_eq_none (by omega)]
  · exact .inr ⟨v1, v2⟩

end
end Verif

namespace Verif
open Spec

section
variable {ι : Type} [DecidableEq ι]

/-! ## One process alone -/

/-- The directory after an existing file is removed where this is to be done. -/
def emptiedBy (s : HeadBag) (a : ListText) : Except PyErr Tree :=
  if a.removes && s.tree.exists (tagFile (tagDir s.info) a.name) then s.tree.remove (tagFile (tagDir s.info) a.name)
  else .ok s.tree

/-- How far the call of `s` is, when nobody else acts. -/
def SavedAlone (s : HeadBag) (a : ListText) (w : Tree) : SavePc → Prop
  | .start => w = s.tree
  | .emptying => w = s.tree ∧ emptiedBy s a = s.tree.remove (tagFile (tagDir s.info) a.name)
  | .looking => emptiedBy s a = .ok w
  | .missing => emptiedBy s a = .ok w ∧ w.exists (comps (tagDir s.info)) = false
  | .ready => ∃ t0, emptiedBy s a = .ok t0 ∧ ({ s with tree := t0 } : HeadBag).ensureTagdir = (.ok (), { s with tree := w })
  | .writing k => ∃ t0 t, emptiedBy s a = .ok t0 ∧ ({ s with tree := t0 } : HeadBag).ensureTagdir = (.ok (), { s with tree := t }) ∧
      k ≤ a.text.length ∧ t.write (tagFile (tagDir s.info) a.name) (a.text.take k) = .ok w
  | .lost _ => False
  | .failed e => (emptiedBy s a = .error e ∧ w = s.tree) ∨
      (emptiedBy s a = .ok w ∧ ({ s with tree := w } : HeadBag).ensureTagdir = (.error e, { s with tree := w })) ∨
      ∃ t0, emptiedBy s a = .ok t0 ∧ ({ s with tree := t0 } : HeadBag).ensureTagdir = (.ok (), { s with tree := w }) ∧
        ∀ x, w.write (tagFile (tagDir s.info) a.name) x = .error e

theorem putAt_take (t : Str) (k n : Nat) (h : k ≤ t.length) :
    putAt (t.take k) k ((t.drop k).take n) = t.take (k + ((t.drop k).take n).length) := by
  by_cases he : (t.drop k).take n = []
  · rw [he]; rfl
  · unfold putAt
    rw [if_neg he]
    have h1 : (t.take k).length = k := by simp only [List.length_take]; omega
    have h2 : (t.take k).drop (k + ((t.drop k).take n).length) = [] := List.drop_eq_nil_of_le (by omega)
    rw [h2, h1, Nat.sub_self, List.take_of_length_le (Nat.le_of_eq h1), List.replicate_zero, List.append_nil,
      List.append_nil, List.take_add]
    congr 1
    rw [List.take_eq_take_iff]
    simp only [List.length_take, List.length_drop]
    omega

theorem write_eq_ok {t t' : Tree} {p : Path} {x : Str} (h : t.write p x = .ok t') :
    (t.isdir p || !t.isdir p.dropLast) = false ∧ t' = dset t p (.file x) := by
  unfold Tree.write at h
  split at h
  · cases h
  · rename_i hc
    injection h with h
    exact ⟨by simpa using hc, h.symm⟩

theorem write_of {t : Tree} {p : Path} {x : Str} (h : (t.isdir p || !t.isdir p.dropLast) = false) :
    t.write p x = .ok (dset t p (.file x)) := by
  unfold Tree.write
  rw [h]
  rfl

theorem write_failed {t : Tree} {p : Path} {x : Str} {e : PyErr} (h : t.write p x = .error e) (y : Str) :
    t.write p y = .error e := by
  unfold Tree.write at h ⊢
  split at h
  · rename_i hc; rw [if_pos hc]; exact h
  · cases h

theorem savedAlone_step {s : HeadBag} {c : ι → ListText} {i : ι} {w : Savers ι} (n : Nat)
    (v : SavedAlone s (c i) w.tree (w.pc i)) :
    SavedAlone s (c i) (w.step s.info c i n).tree ((w.step s.info c i n).pc i) := by
  unfold Savers.step
  simp only
  cases hpc : w.pc i with
  | start =>
    rw [hpc] at v
    have v : w.tree = s.tree := v
    simp only
    split
    · rename_i h
      rw [goes_self]
      rw [v] at h
      exact ⟨v, by unfold emptiedBy; rw [if_pos h]⟩
    · rename_i h
      rw [goes_self]
      rw [v] at h
      show emptiedBy s (c i) = .ok w.tree
      unfold emptiedBy
      rw [if_neg h, v]
  | emptying =>
    rw [hpc] at v
    obtain ⟨v1, v2⟩ : w.tree = s.tree ∧ emptiedBy s (c i) = s.tree.remove (tagFile (tagDir s.info) (c i).name) := v
    simp only
    cases hm : w.tree.remove (tagFile (tagDir s.info) (c i).name) with
    | error e =>
      simp only
      rw [goes_self]
      exact .inl ⟨by rw [v2, ← v1, hm], v1⟩
    | ok t =>
      simp only [if_pos]
      show emptiedBy s (c i) = .ok t
      rw [v2, ← v1, hm]
  | looking =>
    rw [hpc] at v
    have v : emptiedBy s (c i) = .ok w.tree := v
    simp only
    split
    · rename_i h
      rw [goes_self]
      exact ⟨w.tree, v, ensureTagdir_there (s := { s with tree := w.tree }) h⟩
    · rename_i h
      rw [goes_self]
      exact ⟨v, by simpa [Savers.goes] using h⟩
  | missing =>
    rw [hpc] at v
    obtain ⟨v1, v2⟩ : emptiedBy s (c i) = .ok w.tree ∧ w.tree.exists (comps (tagDir s.info)) = false := v
    simp only
    cases hm : w.tree.mkdir (comps (tagDir s.info)) with
    | error e =>
      simp only
      rw [goes_self]
      refine .inr (.inl ⟨v1, ?_⟩)
      unfold HeadBag.ensureTagdir
      simp [Savers.goes, v2, hm]
    | ok t =>
      simp only
      rw [goes_self]
      refine ⟨w.tree, v1, ?_⟩
      unfold HeadBag.ensureTagdir
      simp [Savers.goes, v2, hm]
  | ready =>
    rw [hpc] at v
    obtain ⟨t0, v0, v⟩ := v
    simp only
    cases hm : w.tree.write (tagFile (tagDir s.info) (c i).name) [] with
    | error e =>
      simp only
      rw [goes_self]
      exact .inr (.inr ⟨t0, v0, v, write_failed hm⟩)
    | ok t =>
      simp only
      rw [goes_self]
      exact ⟨t0, w.tree, v0, v, Nat.zero_le _, hm⟩
  | writing k =>
    rw [hpc] at v
    obtain ⟨t0, t, v0, v1, v2, v3⟩ := v
    obtain ⟨v3, v4⟩ := write_eq_ok v3
    have hg : dget w.tree (tagFile (tagDir s.info) (c i).name) = some (.file ((c i).text.take k)) := by
      rw [v4, dget_dset, if_pos rfl]
    simp only [hg]
    rw [goes_self]
    refine ⟨t0, t, v0, v1, ?_, ?_⟩
    · simp only [List.length_take, List.length_drop]; omega
    · rw [write_of v3, putAt_take _ _ _ v2]
      show Except.ok _ = Except.ok (dset w.tree _ _)
      rw [v4, dset_dset]
  | lost k => rw [hpc] at v; exact v.elim
  | failed e =>
    simp only
    rw [hpc] at v ⊢
    exact v

theorem savedAlone_run {s : HeadBag} {c : ι → ListText} {i : ι} :
    ∀ (l : List (ι × Nat)) {w : Savers ι}, (∀ x ∈ l, x.1 = i) → SavedAlone s (c i) w.tree (w.pc i) →
    SavedAlone s (c i) (w.run s.info c l).tree ((w.run s.info c l).pc i)
  | [], _, _, v => v
  | x :: l, w, h, v => by
    rw [run_cons]
    refine savedAlone_run l (fun y hy => h y (List.mem_cons_of_mem _ hy)) ?_
    rw [h x (List.mem_cons_self ..)]
    exact savedAlone_step x.2 v

/-! ## Where every character comes from -/

/-- Who has opened the file stays so. -/
theorem underway_step {info : Info} {c : ι → ListText} {w : Savers ι} {i : ι} {n : Nat} {j : ι} (h : Underway w j) :
    Underway (w.step info c i n) j := by
  have other : j ≠ i → (w.step info c i n).pc j = w.pc j → Underway (w.step info c i n) j := fun _ e => by
    unfold Underway; rw [e]; exact h
  cases step_does info c w i n with
  | rest _ _ _ hu ho =>
    by_cases hji : j = i
    · subst hji; exact hu.2 h
    · exact other hji (ho j hji)
  | dir _ _ hw _ ho =>
    by_cases hji : j = i
    · subst hji; exact absurd h hw
    · exact other hji (ho j hji)
  | opened _ _ hn ho =>
    by_cases hji : j = i
    · subst hji; exact ⟨_, .inl hn⟩
    · exact other hji (ho j hji)
  | wrote _ _ _ _ _ hn ho =>
    by_cases hji : j = i
    · subst hji; exact ⟨_, .inl hn⟩
    · exact other hji (ho j hji)
  | removed _ _ hw _ ho =>
    by_cases hji : j = i
    · subst hji; exact absurd h (not_underway hw (by simp))
    · by_cases hn : (c j).name = (c i).name
      · unfold Underway; rw [ho j hji hn, unlinked_underway]; exact h
      · exact other hji (step_other info c w n hn)

/-- Nobody has opened the file, and it is as in `t0`; or it is not there; or every character of it comes from somebody
who has opened it. -/
structure FromSome (info : Info) (c : ι → ListText) (a : ListText) (t0 : Tree) (w : Savers ι) : Prop where
  src : (dget w.tree (tagFile (tagDir info) a.name) = dget t0 (tagFile (tagDir info) a.name) ∧
      ∀ i, (c i).name = a.name → ¬ Underway w i) ∨
    dget w.tree (tagFile (tagDir info) a.name) = none ∨
    ∃ f, dget w.tree (tagFile (tagDir info) a.name) = some (.file f) ∧ ∀ (j : Nat) (ch : Char), f[j]? = some ch →
      ch = '\x00' ∨ ∃ i, (c i).name = a.name ∧ Underway w i ∧ (c i).text[j]? = some ch

theorem fromSome_step {info : Info} {c : ι → ListText} {a : ListText} {t0 : Tree} {w : Savers ι} {i : ι} {n : Nat}
    (v : FromSome info c a t0 w) : FromSome info c a t0 (w.step info c i n) := by
  have hdir := file_ne_dir info a
  have keep : ∀ f, dget (w.step info c i n).tree (tagFile (tagDir info) a.name) = some (.file f) →
      (∀ (j : Nat) (ch : Char), f[j]? = some ch →
        ch = '\x00' ∨ ∃ i, (c i).name = a.name ∧ Underway w i ∧ (c i).text[j]? = some ch) →
      FromSome info c a t0 (w.step info c i n) := fun f h1 h2 =>
    ⟨.inr (.inr ⟨f, h1, fun j ch hj => (h2 j ch hj).imp id (fun ⟨q, q1, q2, q3⟩ => ⟨q, q1, underway_step q2, q3⟩)⟩)⟩
  have unchanged : dget (w.step info c i n).tree (tagFile (tagDir info) a.name) = dget w.tree (tagFile (tagDir info) a.name) →
      (∀ j, (c j).name = a.name → Underway (w.step info c i n) j → Underway w j) → FromSome info c a t0 (w.step info c i n) := by
    intro e hu
    rcases v.src with ⟨v1, v2⟩ | v1 | ⟨f, v1, v2⟩
    · exact ⟨.inl ⟨e.trans v1, fun j hj h => v2 j hj (hu j hj h)⟩⟩
    · exact ⟨.inr (.inl (e.trans v1))⟩
    · exact keep f (e.trans v1) v2
  by_cases hn : (c i).name = a.name
  · have other : ∀ j, (w.step info c i n).pc j = w.pc j → Underway (w.step info c i n) j → Underway w j := fun j e h => by
      unfold Underway at h; rw [e] at h; exact h
    cases step_does info c w i n with
    | rest h hw hk hu ho =>
      refine unchanged (by rw [h]) (fun j _ hj => ?_)
      by_cases hji : j = i
      · subst hji; exact hu.1 hj
      · exact other j (ho j hji) hj
    | dir h h0 hw hk ho =>
      refine unchanged (by rw [h, dget_dset, if_neg (fun e => hdir e.symm)]) (fun j _ hj => ?_)
      by_cases hji : j = i
      · subst hji; exact absurd hj hk
      · exact other j (ho j hji) hj
    | opened h hw hk =>
      exact keep [] (by rw [h, hn, dget_dset, if_pos rfl]) (fun j ch hj => by simp at hj)
    | removed h => exact ⟨.inr (.inl (by rw [h, hn, dget_ddel, if_pos rfl]))⟩
    | wrote k f hw hf h hk =>
      rw [hn] at hf h
      rcases v.src with ⟨v1, v2⟩ | v1 | ⟨f', v1, v2⟩
      · exact absurd ⟨k, .inl hw⟩ (v2 i hn)
      · rw [hf] at v1; cases v1
      · rw [hf] at v1
        injection v1 with v1
        injection v1 with v1
        subst v1
        refine keep _ (by rw [h, dget_dset, if_pos rfl]) (fun j ch hj => ?_)
        by_cases he : ((c i).text.drop k).take n = []
        · rw [he, putAt_nil] at hj; exact v2 j ch hj
        · rw [putAt_get he] at hj
          split at hj
          · split at hj
            · exact v2 j ch hj
            · injection hj with hj; exact .inl hj.symm
          · split at hj
            · refine .inr ⟨i, hn, ⟨k, .inl hw⟩, ?_⟩
              rw [List.getElem?_take] at hj
              split at hj
              · rw [List.getElem?_drop] at hj
                rw [← hj]
                congr 1
                omega
              · cases hj
            · exact v2 j ch hj
  · have hne := tagFile_inj (dir := tagDir info) (comps_name a) (comps_name (c i)) (Ne.symm hn)
    refine unchanged (step_same_at info c w i n hne hdir) (fun j hj h => ?_)
    unfold Underway at h
    rw [step_other info c w n (by rw [hj]; exact Ne.symm hn)] at h
    exact h

theorem fromSome_run {info : Info} {c : ι → ListText} {a : ListText} {t0 : Tree} :
    ∀ (l : List (ι × Nat)) {w : Savers ι}, FromSome info c a t0 w → FromSome info c a t0 (w.run info c l)
  | [], _, v => v
  | x :: l, w, v => by rw [run_cons]; exact fromSome_run l (fromSome_step v)

/-! ## Nobody fails when the directory is there -/

/-- The tag directory is a directory, the files are not, and nobody removes a file, has missed the directory or has failed. -/
structure AllWell (info : Info) (c : ι → ListText) (w : Savers ι) : Prop where
  dir : w.tree.isdir (comps (tagDir info)) = true
  files : ∀ i, w.tree.isdir (tagFile (tagDir info) (c i).name) = false
  noremove : ∀ i, (c i).removes = false
  pc : ∀ i, w.pc i ≠ .missing ∧ w.pc i ≠ .emptying ∧ ∀ e, w.pc i ≠ .failed e

theorem allWell_step {info : Info} {c : ι → ListText} {w : Savers ι} (i : ι) (n : Nat) (v : AllWell info c w) :
    AllWell info c (w.step info c i n) := by
  have hlast : (tagFile (tagDir info) (c i).name).dropLast = comps (tagDir info) := by
    rw [tagFile_eq _ (comps_name (c i)), List.dropLast_concat]
  have hset : ∀ f a, AllWell info c ({ w with tree := dset w.tree (tagFile (tagDir info) (c i).name) (.file f) }.goes i a) ↔
      (a ≠ .missing ∧ a ≠ .emptying ∧ ∀ e, a ≠ .failed e) := by
    intro f a
    constructor
    · intro h
      have := h.pc i
      rwa [goes_self] at this
    · intro ha
      refine ⟨?_, fun j => ?_, v.noremove, fun j => ?_⟩
      · have := v.dir
        simp only [Tree.isdir, Savers.goes, dget_dset, if_neg (file_ne_dir info (c i))] at this ⊢
        exact this
      · have h1 := v.files j
        simp only [Tree.isdir, Savers.goes, dget_dset, Bool.or_eq_false_iff, decide_eq_false_iff_not] at h1 ⊢
        refine ⟨h1.1, ?_⟩
        split
        · intro e; cases e
        · exact h1.2
      · by_cases hj : j = i
        · subst hj; rw [goes_self]; exact ha
        · rw [goes_other _ _ hj]; exact v.pc j
  have hgo : ∀ a, (a ≠ .missing ∧ a ≠ .emptying ∧ ∀ e, a ≠ .failed e) → AllWell info c (w.goes i a) := fun a ha =>
    ⟨v.dir, v.files, v.noremove, fun j => by
      by_cases hj : j = i
      · subst hj; rw [goes_self]; exact ha
      · rw [goes_other _ _ hj]; exact v.pc j⟩
  unfold Savers.step
  simp only
  cases hpc : w.pc i with
  | start =>
    simp only
    rw [if_neg (by simp [v.noremove i])]
    exact hgo _ (by simp)
  | emptying => exact absurd hpc (v.pc i).2.1
  | looking =>
    simp only
    have : w.tree.exists (comps (tagDir info)) = true := by
      have := v.dir
      simp only [Tree.isdir, Tree.exists, Bool.or_eq_true, decide_eq_true_eq] at this ⊢
      rcases this with h | h
      · exact .inl h
      · exact .inr (by rw [h]; rfl)
    rw [if_pos this]
    exact hgo _ (by simp)
  | missing => exact absurd hpc (v.pc i).1
  | ready =>
    simp only
    rw [write_of (by rw [hlast, v.dir, v.files i]; rfl)]
    exact (hset _ _).2 (by simp)
  | writing k =>
    simp only
    split
    · exact (hset _ _).2 (by simp)
    · exact v
  | lost k => exact hgo _ (by simp)
  | failed e => exact absurd hpc ((v.pc i).2.2 e)

theorem allWell_run {info : Info} {c : ι → ListText} :
    ∀ (l : List (ι × Nat)) {w : Savers ι}, AllWell info c w → AllWell info c (w.run info c l)
  | [], _, v => v
  | x :: l, w, v => by rw [run_cons]; exact allWell_run l (allWell_step x.1 x.2 v)

end
end Verif
