import Verif.Lemmas.SaveStopped
import Verif.Props.HeadBag
/-!
# C129: saving a list of a head bag, stopped at any moment
-/

namespace Verif

open Spec

/-- What is at a path during the two steps of every save. -/
theorem steps_same {s : HeadBag} {x : Tree} {p : Path} {c : Str}
    (hx : x = s.tree ∨ x = s.ensureTagdir.2.tree ∨ x ∈ tornWrites s.ensureTagdir.2.tree p c) {q : Path}
    (h2 : q ≠ comps (tagDir s.info)) :
    (q ≠ p → dget x q = dget s.tree q) ∧ (dget x q = dget s.tree q ∨ ∃ k, dget x q = some (.file (c.take k))) := by
  have key : dget s.ensureTagdir.2.tree q = dget s.tree q := by
    cases h : s.ensureTagdir with
    | mk r s1 =>
      cases r with
      | ok u => obtain ⟨t, rfl, hf, _⟩ := ensureTagdir_ok h; exact hf q h2
      | error e =>
        unfold HeadBag.ensureTagdir at h
        simp only at h
        split at h
        · injection h with h; cases h
        · split at h
          · injection h with _ h; subst h; rfl
          · injection h with h; cases h
  rcases hx with rfl | rfl | hx
  · exact ⟨fun _ => rfl, .inl rfl⟩
  · exact ⟨fun _ => key, .inl key⟩
  · obtain ⟨k, _, hk⟩ := mem_tornWrites.1 hx
    obtain ⟨rfl, _⟩ := Tree.write_ok hk
    rw [dget_dset]
    by_cases hp : p = q
    · rw [if_pos hp]
      exact ⟨fun h => absurd hp.symm h, .inr ⟨k, rfl⟩⟩
    · rw [if_neg hp]
      exact ⟨fun _ => key, .inl key⟩

theorem emptied_same (s : HeadBag) (ps : List Str) (q : Path) (h : q ≠ deletedFile s.info) :
    dget (s.emptiedDeleted ps).tree q = dget s.tree q := by
  unfold HeadBag.emptiedDeleted
  split
  · split
    · rfl
    · rename_i t ht
      unfold Tree.remove at ht
      split at ht
      · injection ht with ht
        subst ht
        show dget (ddel s.tree (deletedFile s.info)) q = _
        rw [dget_ddel, if_neg (fun e => h e.symm)]
      · cases ht
  · rfl

/-- C129: at whatever moment the saving of the members, the lookup list or the deletions is stopped, also in the middle of a
file, everything in the bag is as before, except the file of that list; the tag directory may have been made. -/
theorem C129_elsewhere (s : HeadBag) (op : ListSave) (x : Tree) (hx : x ∈ op.states s) (p : Path)
    (h1 : p ≠ tagFile (tagDir s.info) (listFileName op)) (h2 : p ≠ comps (tagDir s.info)) :
    dget x p = dget s.tree p := by
  cases op with
  | members =>
    simp only [ListSave.states, HeadBag.saveMemberBagsStates] at hx
    cases hm : s.members with
    | none => rw [hm] at hx; rw [List.mem_singleton.1 hx]
    | some ms =>
      rw [hm] at hx
      simp only [List.mem_cons] at hx
      exact (steps_same hx h2).1 h1
  | lookup =>
    simp only [ListSave.states, HeadBag.saveFileLookupStates] at hx
    cases hm : s.lookup with
    | none => rw [hm] at hx; rw [List.mem_singleton.1 hx]
    | some d =>
      rw [hm] at hx
      simp only [List.mem_cons] at hx
      exact (steps_same hx h2).1 h1
  | deleted enum =>
    simp only [ListSave.states, HeadBag.saveDeletedStates] at hx
    cases hm : s.deleted with
    | none => rw [hm] at hx; rw [List.mem_singleton.1 hx]
    | some ps =>
      rw [hm] at hx
      simp only [List.mem_cons] at hx
      rcases hx with rfl | hx
      · rfl
      · obtain ⟨t, ht⟩ := emptied_eq s ps
        have hi : (s.emptiedDeleted ps).info = s.info := by rw [ht]
        rw [(steps_same hx (by rw [hi]; exact h2)).1 h1]
        exact emptied_same s ps p h1

theorem opt_cases {α : Type} (o : Option α) : o = none ∨ ∃ a, o = some a := by cases o <;> simp

theorem saveMembers_of_steps {s s1 : HeadBag} {ms : List MemberInfo} {t : Tree} (hm : s.members = some ms)
    (h1 : s.ensureTagdir = (.ok (), s1)) (h2 : (HeadBag.membersWritten ms).2 = .ok ())
    (h3 : s1.tree.write (tagFile (tagDir s1.info) py!"member-bags.tsv") (HeadBag.membersWritten ms).1 = .ok t) :
    s.saveMemberBags = (.ok (), { s1 with tree := t }) := by
  unfold HeadBag.saveMemberBags
  rw [hm]
  simp only
  rw [h1]
  simp only
  rw [h3, h2]

theorem saveLookup_of_steps {s s1 : HeadBag} {d : List (Str × Str)} {t : Tree} (hm : s.lookup = some d)
    (h1 : s.ensureTagdir = (.ok (), s1))
    (h3 : s1.tree.write (tagFile (tagDir s1.info) py!"file-lookup.tsv") (lookupText d) = .ok t) :
    s.saveFileLookup = (.ok (), { s1 with tree := t }) := by
  unfold HeadBag.saveFileLookup
  rw [hm]
  simp only
  rw [h1]
  simp only
  rw [h3]

/-- C129: if the object is still there, as after an exception or a full disk, saving again makes exactly the bag that a save
without interruption makes. -/
theorem C129_again (s s' : HeadBag) (op : ListSave) (h : op.run s = (.ok (), s')) (x : Tree) (hx : x ∈ op.states s) :
    op.run { s with tree := x } = (.ok (), s') := by
  cases op with
  | members =>
    simp only [ListSave.run, ListSave.states, HeadBag.saveMemberBagsStates] at h hx ⊢
    rcases opt_cases s.members with hm | ⟨ms, hm⟩
    · rw [hm] at hx; rw [List.mem_singleton.1 hx]; exact h
    · rw [hm] at hx
      simp only at hx
      obtain ⟨s1, t, e1, e2, e3, rfl⟩ := saveMembers_steps hm h
      rw [e1] at hx
      simp only [List.mem_cons] at hx
      obtain ⟨y, f1, f2⟩ := steps_again e1 e3 hx
      have := saveMembers_of_steps (s := { s with tree := x }) (s1 := { s with tree := y }) hm f1 e2 f2
      exact this
  | lookup =>
    simp only [ListSave.run, ListSave.states, HeadBag.saveFileLookupStates] at h hx ⊢
    rcases opt_cases s.lookup with hm | ⟨d, hm⟩
    · rw [hm] at hx; rw [List.mem_singleton.1 hx]; exact h
    · rw [hm] at hx
      simp only at hx
      obtain ⟨s1, t, e1, e3, rfl⟩ := saveLookup_steps hm h
      rw [e1] at hx
      simp only [List.mem_cons] at hx
      obtain ⟨y, f1, f2⟩ := steps_again e1 e3 hx
      have := saveLookup_of_steps (s := { s with tree := x }) (s1 := { s with tree := y }) hm f1 f2
      exact this
  | deleted enum =>
    simp only [ListSave.run, ListSave.states, HeadBag.saveDeletedStates] at h hx ⊢
    rcases opt_cases s.deleted with hm | ⟨ps, hm⟩
    · rw [hm] at hx; rw [List.mem_singleton.1 hx]; exact h
    · rw [hm] at hx
      simp only at hx
      have hr := saveDeleted_file hm h
      obtain ⟨s1, t, e1, e3, rfl⟩ := saveDeleted_steps hm h
      rw [e1] at hx
      simp only [List.mem_cons] at hx
      rcases hx with rfl | hx
      · exact h
      by_cases hps : ps = []
      · subst hps
        have e0 := emptied_nil (s := s) (hr rfl)
        have key : ∃ z, (z = (s.emptiedDeleted []).tree ∨ z = s1.tree ∨
              z ∈ tornWrites s1.tree (deletedFile s.info) (deletedText (enum []))) ∧
            ddel x (deletedFile s.info) = z ∧
            (Tree.exists x (deletedFile s.info) = true → Tree.isfile x (deletedFile s.info) = true) := by
          have g0 : dget (s.emptiedDeleted []).tree (deletedFile s.info) = none := by
            rw [e0]; show dget (ddel s.tree _) _ = none
            rw [dget_ddel, if_pos rfl]
          have g1 : dget s1.tree (deletedFile s.info) = none := by
            obtain ⟨t1, rfl, hf, _⟩ := ensureTagdir_ok e1
            have hi : (s.emptiedDeleted []).info = s.info := by rw [e0]
            rw [← g0]
            refine hf _ ?_
            rw [hi]
            unfold deletedFile
            exact tagFile_ne_dir _ _ (by decide) rfl
          have no : ∀ {z : Tree}, dget z (deletedFile s.info) = none → z.exists (deletedFile s.info) = true →
              z.isfile (deletedFile s.info) = true :=
            fun hz he => absurd hz ((exists_iff (deletedFile_ne _)).1 he)
          rcases hx with rfl | rfl | hx
          · exact ⟨_, .inl rfl, ddel_absent g0, no g0⟩
          · exact ⟨_, .inr (.inl rfl), ddel_absent g1, no g1⟩
          · obtain ⟨k, _, hk⟩ := mem_tornWrites.1 hx
            obtain ⟨rfl, _⟩ := Tree.write_ok hk
            refine ⟨s1.tree, .inr (.inl rfl), ?_, fun _ => ?_⟩
            · rw [ddel_dset, ddel_absent g1]
            · unfold Tree.isfile
              rw [dget_dset, if_pos rfl]
        obtain ⟨z, hz, hd, hf⟩ := key
        obtain ⟨y, f1, f2⟩ := steps_again e1 e3 hz
        rw [saveDeleted_eq { s with tree := x } [] enum hm (fun _ => hf), emptied_nil (s := { s with tree := x }) hf]
        show (match HeadBag.ensureTagdir { s with tree := ddel x (deletedFile s.info) } with
          | (.error e, s1) => (.error e, s1)
          | (.ok _, s1) =>
            match s1.tree.write (deletedFile s.info) (deletedText (enum [])) with
            | .error e => (.error e, s1)
            | .ok t => (.ok (), { s1 with tree := t }) : Res Unit) = _
        rw [e0] at f1
        have f1' : HeadBag.ensureTagdir { s with tree := z } = (.ok (), { s with tree := y }) := f1
        rw [hd, f1']
        simp only
        rw [f2]
      · rw [emptied_some s hps] at e1 hx
        obtain ⟨y, f1, f2⟩ := steps_again e1 e3 hx
        rw [saveDeleted_eq { s with tree := x } ps enum hm (fun e => absurd e hps), emptied_some _ hps, f1]
        simp only
        show (match Tree.write y (deletedFile s.info) (deletedText (enum ps)) with
            | .error e => (.error e, { s with tree := y })
            | .ok t => (.ok (), { s with tree := t }) : Res Unit) = _
        rw [f2]

theorem torn_getLast {t t' : Tree} {p : Path} {c : Str} (h : t.write p c = .ok t') : (tornWrites t p c).getLast? = some t' := by
  unfold tornWrites
  rw [List.range_succ, List.filterMap_append]
  simp only [List.filterMap_cons, List.take_length, h, List.filterMap_nil]
  simp [Except.toOption]

theorem last_cons {a b : Tree} {l : List Tree} (h : l.getLast? = some b) : (a :: l).getLast? = some b := by
  rw [List.getLast?_cons, h]; rfl

/-- C129: the moments start with the bag as it is and end with the bag as saved. -/
theorem C129_moments (s s' : HeadBag) (op : ListSave) (h : op.run s = (.ok (), s')) :
    (op.states s).head? = some s.tree ∧ (op.states s).getLast? = some s'.tree := by
  cases op with
  | members =>
    simp only [ListSave.run, ListSave.states, HeadBag.saveMemberBagsStates] at h ⊢
    cases hm : s.members with
    | none => unfold HeadBag.saveMemberBags at h; rw [hm] at h; cases h; exact ⟨rfl, rfl⟩
    | some ms =>
      obtain ⟨s1, t, e1, e2, e3, rfl⟩ := saveMembers_steps hm h
      rw [e1]
      exact ⟨rfl, last_cons (last_cons (torn_getLast e3))⟩
  | lookup =>
    simp only [ListSave.run, ListSave.states, HeadBag.saveFileLookupStates] at h ⊢
    cases hm : s.lookup with
    | none => unfold HeadBag.saveFileLookup at h; rw [hm] at h; cases h; exact ⟨rfl, rfl⟩
    | some ms =>
      obtain ⟨s1, t, e1, e3, rfl⟩ := saveLookup_steps hm h
      rw [e1]
      exact ⟨rfl, last_cons (last_cons (torn_getLast e3))⟩
  | deleted enum =>
    simp only [ListSave.run, ListSave.states, HeadBag.saveDeletedStates] at h ⊢
    cases hm : s.deleted with
    | none => unfold HeadBag.saveDeleted at h; rw [hm] at h; cases h; exact ⟨rfl, rfl⟩
    | some ms =>
      obtain ⟨s1, t, e1, e3, rfl⟩ := saveDeleted_steps hm h
      simp only
      rw [e1]
      exact ⟨rfl, last_cons (last_cons (last_cons (torn_getLast e3)))⟩

/-! ## What a new object finds -/

theorem bom_take {t : Str} (k : Nat) (h : t.head? ≠ some bom) : (t.take k).head? ≠ some bom := by
  cases k with
  | zero => simp
  | succ k => cases t with
    | nil => simp
    | cons x xs => simpa using h

theorem flatten_head {ls : List Str} (h : ∀ l ∈ ls, l ≠ []) :
    (ls.map (· ++ ['\n'])).flatten.head? = (ls.head?.getD []).head? := by
  cases ls with
  | nil => rfl
  | cons l ls =>
    cases hl : l with
    | nil => exact absurd hl (h l (by simp))
    | cons x xs => simp

theorem forall₂_each {α β : Type} {R : β → α → Prop} (f : α → β) : ∀ {l : List α}, (∀ a ∈ l, R (f a) a) → Forall₂ R (l.map f) l
  | [], _ => .nil
  | a :: l, h => .cons (h a (by simp)) (forall₂_each f (fun b hb => h b (by simp [hb])))

/-- Any beginning of the text of a member list is read as the first members, possibly with one more whose name is cut. -/
theorem members_text_cut (mode : TextMode) (ms : List MemberInfo) (h : ∀ m ∈ ms, CleanMember m)
    (hbom : ∀ m ∈ ms.head?, m.name.head? ≠ some bom) (k : Nat) :
    ∃ rs, readMembers03 mode ((HeadBag.membersWritten ms).1.take k) = .ok rs ∧
      CutShort (fun a b => b.name ≠ [] ∧ b.name <+: a.name) ms rs := by
  have hbody : ∀ m ∈ ms, (∀ c ∈ joinWith ['\t'] (fieldsOf m), isBreak c = false) ∧
      strip (joinWith ['\t'] (fieldsOf m) ++ ['\n']) ≠ [] ∧ joinWith ['\t'] (fieldsOf m) ≠ [] ∧
      (joinWith ['\t'] (fieldsOf m)).head? = m.name.head? ∧
      parseLine03 (joinWith ['\t'] (fieldsOf m) ++ ['\n']) = .ok m := by
    intro m hm
    have hc := h m hm
    obtain ⟨body, f1, f2, f3, f4, f5, f6⟩ := format_clean hc
    have hf := format_eq (m := m) (fun s hs => (hc.uri s hs).nonempty) (fun s hs => (hc.comment s hs).nonempty) hc.info
    rw [f1] at hf
    injection hf with hf
    have e : body = joinWith ['\t'] (fieldsOf m) := List.append_cancel_right hf
    subst e
    exact ⟨f2, by rw [f3]; exact f4, f4, f5, f6⟩
  rw [membersWritten_text (members_lines h)]
  obtain ⟨j, q, e1, e2⟩ := take_lines (ms.map (fun m => joinWith ['\t'] (fieldsOf m))) k
  simp only
  have hbom' : (((ms.map (fun m => joinWith ['\t'] (fieldsOf m))).map (· ++ ['\n'])).flatten.take k).head? ≠ some bom := by
    apply bom_take
    rw [flatten_head]
    · cases ms with
      | nil => simp
      | cons m ms =>
        simp only [List.map_cons, List.head?_cons, Option.getD_some]
        rw [(hbody m (by simp)).2.2.2.1]
        exact hbom m (by simp)
    · intro l hl
      obtain ⟨m, hm, rfl⟩ := List.mem_map.1 hl
      exact (hbody m hm).2.2.1
  rw [e1] at hbom' ⊢
  have hq : ∀ c ∈ q, isBreak c = false := by
    rcases e2 with rfl | ⟨l, hl, hp, _⟩
    · simp
    · intro c hc
      obtain ⟨m, hm, rfl⟩ := List.mem_map.1 (List.mem_of_getElem? hl)
      exact (hbody m hm).1 c (hp.subset hc)
  unfold readMembers03
  rw [textLines_cut mode _ q ?_ hq hbom', readRecords_cut (ms := ms) (forall₂_each _ (fun m hm => ⟨(hbody m hm).2.1, (hbody m hm).2.2.2.2⟩))]
  · unfold readCut
    rcases e2 with rfl | ⟨l, hl, hp, hne⟩
    · rw [if_pos strip_nil]
      exact ⟨_, rfl, j, .inl rfl⟩
    · rw [List.getElem?_map] at hl
      cases hmj : ms[j]? with
      | none => rw [hmj] at hl; cases hl
      | some m =>
        rw [hmj] at hl
        injection hl with hl
        subst hl
        obtain ⟨g1, m', g2, g3, g4⟩ := member_cut (h m (List.mem_of_getElem? hmj)) hp hne
        rw [if_neg g1, g2]
        exact ⟨_, rfl, j, .inr ⟨m, m', hmj, ⟨g3, g4⟩, rfl⟩⟩
  · intro l hl
    obtain ⟨m, hm, rfl⟩ := List.mem_map.1 (List.mem_of_mem_take hl)
    exact (hbody m hm).1

/-- A line of a lookup list that is cut cannot be read, or names the whole path and a beginning of the bag's name. -/
theorem lookup_cut {p b q : Str} (hp : Clean p) (hb : Clean b) (hq : q <+: p ++ '\t' :: b) (hne : q ≠ []) :
    strip q ≠ [] ∧ (parseFileLookup03 q = .error .multibagError ∨
      ∃ c, parseFileLookup03 q = .ok (p, c) ∧ c ≠ [] ∧ c <+: b) := by
  have hh : ∀ c ∈ q.head?, isSpace c = false := by
    intro c hc
    rw [head_of_prefix hq hne] at hc
    cases hm : p with
    | nil => exact absurd hm hp.nonempty
    | cons x xs =>
      have h0 := hp.noouter.1
      rw [hm] at hc h0
      exact h0 c (by simpa using hc)
  have hs := strip_visible hne hh
  refine ⟨hs, ?_⟩
  have hpre : strip q <+: p ++ '\t' :: b := (strip_prefix hh).trans hq
  unfold parseFileLookup03
  by_cases ht : '\t' ∈ strip q
  · right
    have hle : p ++ ['\t'] <+: strip q := by
      have h1 : p ++ ['\t'] <+: p ++ '\t' :: b := ⟨b, by simp⟩
      rcases List.prefix_or_prefix_of_prefix hpre h1 with k | k
      · obtain ⟨u, hu⟩ := k
        cases hul : u.reverse with
        | nil =>
          have : u = [] := by simpa using hul
          subst this
          rw [List.append_nil] at hu
          rw [hu]
          exact List.prefix_rfl
        | cons z zs =>
          exfalso
          have hu2 : u = zs.reverse ++ [z] := by rw [← List.reverse_reverse u, hul]; simp
          rw [hu2, ← List.append_assoc] at hu
          have := List.append_inj_left' hu rfl
          have hm : '\t' ∈ p := by rw [← this]; simp [ht]
          exact hp.notab hm
      · exact k
    obtain ⟨c, hc⟩ := hle
    have hcb : c <+: b := by
      rw [← hc] at hpre
      have : p ++ ['\t'] ++ c <+: p ++ ['\t'] ++ b := by simpa using hpre
      exact (List.prefix_append_right_inj _).1 this
    have hct : '\t' ∉ c := fun h => hb.notab (hcb.subset h)
    refine ⟨c, ?_, ?_, hcb⟩
    · rw [← hc, List.append_assoc, List.singleton_append, splitOn_append_sep _ hp.notab, splitOn_noSep hct]
    · rintro rfl
      have hl := (trimmed_strip q).2 '\t' (by rw [← hc]; simp)
      exact absurd hl (by decide)
  · left
    rw [splitOn_noSep ht]

/-- Any beginning of the text of a lookup list is read as the first lines, possibly with one more for which the bag's name is
cut, or cannot be read. -/
theorem lookup_text_cut (mode : TextMode) (d : List (Str × Str)) (h : ∀ p ∈ d, Clean p.1 ∧ Clean p.2)
    (hbom : ∀ p ∈ d.head?, p.1.head? ≠ some bom) (k : Nat) :
    readLookup03 mode ((lookupText d).take k) = .error .multibagError ∨
    ∃ rs, readLookup03 mode ((lookupText d).take k) = .ok rs ∧
      CutShort (fun a b => b.1 = a.1 ∧ b.2 ≠ [] ∧ b.2 <+: a.2) d rs := by
  have key : ∀ p ∈ d, parseFileLookup03 (p.1 ++ '\t' :: p.2 ++ ['\n']) = .ok p ∧
      strip (p.1 ++ '\t' :: p.2 ++ ['\n']) ≠ [] ∧ (∀ c ∈ p.1 ++ '\t' :: p.2, isBreak c = false) := by
    intro p hp
    obtain ⟨h1, h2⟩ := h p hp
    have ht : Trimmed (p.1 ++ '\t' :: p.2) := by
      apply trimmed_append h1.nonempty (by simp) h1.noouter.1
      intro c hc
      rw [List.getLast?_cons] at hc
      cases hq : p.2.getLast? with
      | none => simp at hq; exact absurd hq h2.nonempty
      | some q => exact h2.noouter.2 c (by simpa [hq] using hc)
    have hs : strip (p.1 ++ '\t' :: p.2 ++ ['\n']) = p.1 ++ '\t' :: p.2 := by
      rw [strip_append_space (by simp [isSpace]), strip_of_trimmed ht]
    refine ⟨?_, by rw [hs]; simp, ?_⟩
    · unfold parseFileLookup03
      rw [hs, splitOn_append_sep _ h1.notab, splitOn_noSep h2.notab]
    · intro c hc
      simp at hc
      rcases hc with hc | rfl | hc
      · exact h1.nobreak c hc
      · decide
      · exact h2.nobreak c hc
  have e : lookupText d = ((d.map (fun p => p.1 ++ '\t' :: p.2)).map (· ++ ['\n'])).flatten := by
    simp [lookupText, List.map_map, Function.comp_def]
  rw [e]
  obtain ⟨j, q, e1, e2⟩ := take_lines (d.map (fun p => p.1 ++ '\t' :: p.2)) k
  have hbom' : (((d.map (fun p => p.1 ++ '\t' :: p.2)).map (· ++ ['\n'])).flatten.take k).head? ≠ some bom := by
    apply bom_take
    rw [flatten_head]
    · cases d with
      | nil => simp
      | cons p d =>
        simp only [List.map_cons, List.head?_cons, Option.getD_some]
        cases hq : p.1 with
        | nil => exact absurd hq (h p (by simp)).1.nonempty
        | cons x xs =>
          have := hbom p (by simp)
          rw [hq] at this
          simpa using this
    · intro l hl
      obtain ⟨m, hm, rfl⟩ := List.mem_map.1 hl
      simp
  rw [e1] at hbom' ⊢
  have hq : ∀ c ∈ q, isBreak c = false := by
    rcases e2 with rfl | ⟨l, hl, hp, _⟩
    · simp
    · intro c hc
      obtain ⟨m, hm, rfl⟩ := List.mem_map.1 (List.mem_of_getElem? hl)
      exact (key m hm).2.2 c (hp.subset hc)
  unfold readLookup03
  rw [textLines_cut mode _ q ?_ hq hbom', readRecords_cut (ms := d) (forall₂_each _ (fun m hm => ⟨(key m hm).2.1, (key m hm).1⟩))]
  · unfold readCut
    rcases e2 with rfl | ⟨l, hl, hp, hne⟩
    · rw [if_pos strip_nil]
      exact .inr ⟨_, rfl, j, .inl rfl⟩
    · rw [List.getElem?_map] at hl
      cases hmj : d[j]? with
      | none => rw [hmj] at hl; cases hl
      | some m =>
        rw [hmj] at hl
        injection hl with hl
        subst hl
        obtain ⟨c1, c2⟩ := h m (List.mem_of_getElem? hmj)
        obtain ⟨g1, g | ⟨c, g2, g3, g4⟩⟩ := lookup_cut c1 c2 hp hne
        · rw [if_neg g1, g]
          exact .inl rfl
        · rw [if_neg g1, g2]
          exact .inr ⟨_, rfl, j, .inr ⟨m, (m.1, c), hmj, ⟨rfl, g3, g4⟩, rfl⟩⟩
  · intro l hl
    obtain ⟨m, hm, rfl⟩ := List.mem_map.1 (List.mem_of_mem_take hl)
    exact (key m hm).2.2

/-- Any beginning of the text of the deletions is read as the first paths, possibly with one more that is cut. -/
theorem deleted_text_cut (mode : TextMode) (ps : List Str) (h : ∀ p ∈ ps, Clean p)
    (hbom : ∀ p ∈ ps.head?, p.head? ≠ some bom) (k : Nat) :
    CutShort (fun a b => b ≠ [] ∧ b <+: a) ps (readDeleted mode ((deletedText ps).take k)) := by
  have key : ∀ p ∈ ps, strip (p ++ ['\n']) = p := by
    intro p hp
    rw [strip_append_space (by simp [isSpace]), strip_of_trimmed (h p hp).noouter]
  unfold deletedText
  obtain ⟨j, q, e1, e2⟩ := take_lines ps k
  have hbom' : ((ps.map (· ++ ['\n'])).flatten.take k).head? ≠ some bom := by
    apply bom_take
    rw [flatten_head (fun l hl => (h l hl).nonempty)]
    cases ps with
    | nil => simp
    | cons p ps => exact hbom p (by simp)
  rw [e1] at hbom' ⊢
  have hq : ∀ c ∈ q, isBreak c = false := by
    rcases e2 with rfl | ⟨l, hl, hp, _⟩
    · simp
    · intro c hc
      exact (h l (List.mem_of_getElem? hl)).nobreak c (hp.subset hc)
  unfold readDeleted
  rw [textLines_cut mode _ q (fun l hl => (h l (List.mem_of_mem_take hl)).nobreak) hq hbom', List.filterMap_append,
    List.filterMap_map]
  have hself : (ps.take j).filterMap ((fun line => if strip line ≠ [] then some (parseDeleted04 line) else none) ∘
      (· ++ ['\n'])) = ps.take j := by
    apply filterMap_self
    intro p hp
    have hp := List.mem_of_mem_take hp
    simp only [Function.comp, parseDeleted04, key p hp, ne_eq, (h p hp).nonempty, not_false_eq_true, if_true]
  rw [hself]
  rcases e2 with rfl | ⟨l, hl, hp, hne⟩
  · exact ⟨j, .inl (by simp)⟩
  · have hc := h l (List.mem_of_getElem? hl)
    have hh : ∀ c ∈ q.head?, isSpace c = false := by
      intro c hc'
      rw [head_of_prefix hp hne] at hc'
      exact hc.noouter.1 c hc'
    have hs := strip_visible hne hh
    refine ⟨j, .inr ⟨l, strip q, hl, ⟨hs, (strip_prefix hh).trans hp⟩, ?_⟩⟩
    simp [hne, hs, parseDeleted04]

/-- C129: stopped at any moment, saving the members leaves the old list, or a list that can be read and has the first of the
new members, possibly followed by one whose name is cut.  Missing: that it is the old or the new list (`C129_negation_lost`,
`C129_negation_wrong`); bags of profile versions before 0.3 or with several tag directories; members whose fields do not fit
into the format. -/
theorem C129_members_left_partial (mode : TextMode) (s : HeadBag) (ms : List MemberInfo) (hm : s.members = some ms)
    (hc : ∀ m ∈ ms, CleanMember m) (hbom : ∀ m ∈ ms.head?, m.name.head? ≠ some bom)
    (hd : readerTagDir s.info = .ok (tagDir s.info)) (hv : verLt (profileVersion s.info) py!"0.3" = false)
    (x : Tree) (hx : x ∈ ListSave.members.states s) :
    iterMembers mode x s.info = iterMembers mode s.tree s.info ∨
    ∃ rs, iterMembers mode x s.info = .ok rs ∧ CutShort (fun a b => b.name ≠ [] ∧ b.name <+: a.name) ms rs := by
  simp only [ListSave.states, HeadBag.saveMemberBagsStates, hm, List.mem_cons] at hx
  unfold iterMembers membersFileName
  rw [hd, hv]
  simp only [Bool.false_eq_true, if_false]
  rcases (steps_same hx (tagFile_ne_dir (n := py!"member-bags.tsv") _ _ (by decide) rfl)).2 with h | ⟨k, h⟩
  · left
    rw [read_of_dget h]
  · right
    rw [read_eq, h]
    exact members_text_cut mode ms hc hbom k

/-- C129: stopped at any moment, saving the lookup list leaves the old list, or a list that has the first of the new lines,
possibly followed by one with the right path and the name of the bag cut, or a list that cannot be read.  Missing: that it is
the old or the new list (`C129_negation_wrong`), and the same cases as in `C129_members_left_partial`. -/
theorem C129_lookup_left_partial (mode : TextMode) (s : HeadBag) (d : List (Str × Str)) (hm : s.lookup = some d)
    (hc : ∀ p ∈ d, Clean p.1 ∧ Clean p.2) (hbom : ∀ p ∈ d.head?, p.1.head? ≠ some bom)
    (hd : readerTagDir s.info = .ok (tagDir s.info)) (hv : verLt (profileVersion s.info) py!"0.3" = false)
    (x : Tree) (hx : x ∈ ListSave.lookup.states s) :
    iterLookup mode x s.info = iterLookup mode s.tree s.info ∨ iterLookup mode x s.info = .error .multibagError ∨
    ∃ rs, iterLookup mode x s.info = .ok rs ∧ CutShort (fun a b => b.1 = a.1 ∧ b.2 ≠ [] ∧ b.2 <+: a.2) d rs := by
  simp only [ListSave.states, HeadBag.saveFileLookupStates, hm, List.mem_cons] at hx
  unfold iterLookup lookupFileName
  rw [hd, hv]
  simp only [Bool.false_eq_true, if_false]
  rcases (steps_same hx (tagFile_ne_dir (n := py!"file-lookup.tsv") _ _ (by decide) rfl)).2 with h | ⟨k, h⟩
  · left
    rw [read_of_dget h]
  · right
    rw [read_eq, h]
    exact lookup_text_cut mode d hc hbom k

/-- C129: stopped at any moment, saving the deletions leaves the old list, or one that has the first of the new paths,
possibly followed by one that is cut.  Missing: that it is the old or the new list (`C129_negation_wrong`); paths that do not
fit on a line. -/
theorem C129_deleted_left_partial (mode : TextMode) (s : HeadBag) (ps : List Str) (enum : List Str → List Str)
    (hm : s.deleted = some ps) (hc : ∀ p ∈ enum ps, Clean p) (hbom : ∀ p ∈ (enum ps).head?, p.head? ≠ some bom)
    (x : Tree) (hx : x ∈ (ListSave.deleted enum).states s) :
    iterDeleted mode x s.info = iterDeleted mode s.tree s.info ∨
    ∃ left, iterDeleted mode x s.info = .ok left ∧ CutShort (fun a b => b ≠ [] ∧ b <+: a) (enum ps) left := by
  simp only [ListSave.states, HeadBag.saveDeletedStates, hm, List.mem_cons] at hx
  unfold iterDeleted
  have nodir : deletedFile s.info ≠ comps (tagDir s.info) := by
    unfold deletedFile; exact tagFile_ne_dir _ _ (by decide) rfl
  have hempty : dget (s.emptiedDeleted ps).tree (deletedFile s.info) = dget s.tree (deletedFile s.info) ∨
      dget (s.emptiedDeleted ps).tree (deletedFile s.info) = none := by
    unfold HeadBag.emptiedDeleted
    split
    · split
      · exact .inl rfl
      · rename_i t ht
        unfold Tree.remove at ht
        split at ht
        · injection ht with ht
          subst ht
          right
          show dget (ddel s.tree (deletedFile s.info)) _ = none
          rw [dget_ddel, if_pos rfl]
        · cases ht
    · exact .inl rfl
  rcases hx with rfl | hx
  · exact .inl rfl
  obtain ⟨t, ht⟩ := emptied_eq s ps
  have hi : (s.emptiedDeleted ps).info = s.info := by rw [ht]
  rcases (steps_same hx (q := deletedFile s.info) (by rw [hi]; exact nodir)).2 with h | ⟨k, h⟩
  · rw [h]
    rcases hempty with h | h
    · rw [h]; exact .inl rfl
    · rw [h]; exact .inr ⟨[], rfl, 0, .inl rfl⟩
  · right
    rw [h]
    exact ⟨_, rfl, deleted_text_cut mode _ hc hbom k⟩

/-- C129 fails as stated: whenever there are members to save, there is a moment at which the bag has neither the old nor the
new members: the list is empty. -/
theorem C129_negation_lost (mode : TextMode) (s s' : HeadBag) (ms : List MemberInfo) (hm : s.members = some ms)
    (hd : readerTagDir s.info = .ok (tagDir s.info)) (hv : verLt (profileVersion s.info) py!"0.3" = false)
    (h : ListSave.members.run s = (.ok (), s')) :
    ∃ x ∈ ListSave.members.states s, iterMembers mode x s.info = .ok [] := by
  obtain ⟨s1, t, e1, _, e3, rfl⟩ := saveMembers_steps hm h
  refine ⟨dset s1.tree (tagFile (tagDir s.info) py!"member-bags.tsv") (.file []), ?_, ?_⟩
  · simp only [ListSave.states, HeadBag.saveMemberBagsStates, hm]
    rw [e1]
    have := torn_of_write e3 0 (Nat.zero_le _)
    exact List.mem_cons_of_mem _ (List.mem_cons_of_mem _ this)
  · unfold iterMembers membersFileName
    rw [hd, hv]
    simp only [Bool.false_eq_true, if_false]
    rw [read_eq, dget_dset, if_pos rfl]
    cases mode <;> rfl

/-! ## Cases -/

/-- The sample head bag with a third member and a longer list of deletions. -/
def Sample.saving : HeadBag :=
  { HeadBag.open Sample.tree Sample.info with
    members := some [⟨py!"b1", some py!"ark:/1", none, []⟩, ⟨py!"b2", none, none, []⟩, ⟨py!"b2-new", none, none, []⟩]
    lookup := some [(py!"data/x", py!"b2"), (py!"data/y", py!"b2-new")]
    deleted := some [py!"data/x.bak", py!"data/old"] }

/-- C129 fails as stated: a member, a bag of a file and a deletion that are in neither list, and a lookup list that cannot be
read any more. -/
theorem C129_negation_wrong :
    (∃ x ∈ ListSave.members.states Sample.saving, ∃ rs, iterMembers .codecs x Sample.saving.info = .ok rs ∧
      py!"b2-n" ∈ rs.map (·.name)) ∧
    (∃ x ∈ ListSave.lookup.states Sample.saving, iterLookup .codecs x Sample.saving.info = .error .multibagError) ∧
    (∃ x ∈ ListSave.lookup.states Sample.saving,
      iterLookup .codecs x Sample.saving.info = .ok [(py!"data/x", py!"b2"), (py!"data/y", py!"b")]) ∧
    (∃ x ∈ (ListSave.deleted id).states Sample.saving, iterDeleted .codecs x Sample.saving.info = .ok [py!"data/x"]) := by
  refine ⟨?_, ?_, ?_, ?_⟩
  · exact ⟨dset Sample.tree [py!"multibag", py!"member-bags.tsv"] (.file py!"b1\tark:/1\nb2\nb2-n"), by decide +kernel, _, rfl,
      by decide +kernel⟩
  · exact ⟨dset Sample.tree [py!"multibag", py!"file-lookup.tsv"] (.file py!"data/x\tb2\ndat"), by decide +kernel,
      by decide +kernel⟩
  · exact ⟨dset Sample.tree [py!"multibag", py!"file-lookup.tsv"] (.file py!"data/x\tb2\ndata/y\tb"), by decide +kernel,
      by decide +kernel⟩
  · exact ⟨dset Sample.tree [py!"multibag", py!"deleted.txt"] (.file py!"data/x"), by decide +kernel, by decide +kernel⟩

/-- A case of `C129_again` and `C129_moments`: each of the three saves of the sample can be made. -/
example : ∀ op ∈ [ListSave.members, .lookup, .deleted id, .deleted List.reverse], ∃ s', op.run Sample.saving = (.ok (), s') ∧
    20 < (op.states Sample.saving).length := by
  intro op h
  simp only [List.mem_cons, List.not_mem_nil, or_false] at h
  rcases h with rfl | rfl | rfl | rfl <;> exact ⟨_, Prod.ext (by decide +kernel) rfl, by decide +kernel⟩

/-- A case of `C129_again` with nothing deleted, where the old list is removed first. -/
example : ∃ s', (ListSave.deleted id).run { Sample.saving with deleted := some [] } = (.ok (), s') ∧
    s'.tree.read [py!"multibag", py!"deleted.txt"] = some [] :=
  ⟨_, Prod.ext (by decide +kernel) rfl, by decide +kernel⟩

/-- A case of `C129_elsewhere`: the first members while the list is written; the lookup list is as before. -/
example : ∃ x ∈ ListSave.members.states Sample.saving, x ≠ Sample.tree ∧
    dget x [py!"multibag", py!"file-lookup.tsv"] = dget Sample.tree [py!"multibag", py!"file-lookup.tsv"] :=
  ⟨dset Sample.tree [py!"multibag", py!"member-bags.tsv"] (.file py!"b1"), by decide +kernel, by decide +kernel,
    C129_elsewhere Sample.saving .members _ (by decide +kernel) _ (by decide) (by decide)⟩

/-- A case of `C129_members_left_partial`, `C129_lookup_left_partial` and `C129_deleted_left_partial`: their hypotheses hold of
the sample. -/
example : (∀ m ∈ Sample.saving.members.getD [], CleanMember m) ∧ (∀ p ∈ Sample.saving.lookup.getD [], Clean p.1 ∧ Clean p.2) ∧
    (∀ p ∈ Sample.saving.deleted.getD [], Clean p) ∧ readerTagDir Sample.saving.info = .ok (tagDir Sample.saving.info) ∧
    verLt (profileVersion Sample.saving.info) py!"0.3" = false := by
  refine ⟨?_, ?_, ?_, by decide, by decide⟩
  · intro m hm
    simp only [Sample.saving, Option.getD_some, List.mem_cons, List.not_mem_nil, or_false] at hm
    rcases hm with rfl | rfl | rfl
    · exact ⟨clean_of_check (by decide), fun u h => by injection h with h; subst h; exact clean_of_check (by decide),
        (fun u h => by cases h), by simp, rfl⟩
    · exact ⟨clean_of_check (by decide), (fun u h => by cases h), (fun u h => by cases h), by simp, rfl⟩
    · exact ⟨clean_of_check (by decide), (fun u h => by cases h), (fun u h => by cases h), by simp, rfl⟩
  · intro p hp
    simp only [Sample.saving, Option.getD_some, List.mem_cons, List.not_mem_nil, or_false] at hp
    rcases hp with rfl | rfl <;> exact ⟨clean_of_check (by decide), clean_of_check (by decide)⟩
  · intro p hp
    simp only [Sample.saving, Option.getD_some, List.mem_cons, List.not_mem_nil, or_false] at hp
    rcases hp with rfl | rfl <;> exact clean_of_check (by decide)

end Verif
