import Verif.Spec.SaveStopped
import Verif.Lemmas.AmendStopped
import Verif.Lemmas.TagFiles
/-!
# Saves of the lists of a head bag that are stopped
-/

namespace Verif

open Spec

theorem dset_dset {K V : Type} [DecidableEq K] (d : List (K × V)) (k : K) (v w : V) :
    dset (dset d k v) k w = dset d k w := by
  induction d with
  | nil => simp [dset]
  | cons e r ih =>
    obtain ⟨k', v'⟩ := e
    by_cases h : k' = k
    · simp [dset, h]
    · simp [dset, h, ih]

/-! ## Saving again -/

theorem isdir_dset_file {t : Tree} {p q : Path} {c : Str} (h : q ≠ p) : Tree.isdir (dset t p (.file c)) q = t.isdir q := by
  unfold Tree.isdir
  rw [dget_dset, if_neg (fun e => h e.symm)]

/-- Writing a file over what is left of an earlier write. -/
theorem write_torn {t t' : Tree} {p : Path} {a c : Str} (h : t.write p c = .ok t') :
    Tree.write (dset t p (.file a)) p c = .ok t' := by
  obtain ⟨rfl, h1, h2⟩ := Tree.write_ok h
  have hp : p ≠ [] := by rintro rfl; simp [Tree.isdir] at h1
  have hd : p.dropLast ≠ p := by
    intro e
    have := congrArg List.length e
    have h0 : 0 < p.length := List.length_pos_iff.2 hp
    simp at this
    omega
  have h3 : Tree.isdir (dset t p (.file a)) p = false := by
    unfold Tree.isdir
    rw [dget_dset, if_pos rfl]
    simp [hp]
  unfold Tree.write
  rw [h3, isdir_dset_file hd, h2, dset_dset]
  rfl

theorem ensureTagdir_exists {s s1 : HeadBag} (h : s.ensureTagdir = (.ok (), s1)) :
    s1.tree.exists (comps (tagDir s.info)) = true := by
  unfold HeadBag.ensureTagdir at h
  simp only at h
  split at h
  · rename_i he
    injection h with _ h
    subst h
    exact he
  · split at h
    · injection h with h; cases h
    · rename_i t ht
      injection h with _ h
      subst h
      obtain ⟨e, _⟩ := mkdir_ok ht
      subst e
      unfold Tree.exists
      simp only [dget_dset, if_true]
      simp

theorem ensureTagdir_there {s : HeadBag} (h : s.tree.exists (comps (tagDir s.info)) = true) :
    s.ensureTagdir = (.ok (), s) := by
  unfold HeadBag.ensureTagdir
  simp only
  rw [if_pos h]

/-- The two steps of every save, repeated on what is left of them. -/
theorem steps_again {s s1 : HeadBag} {t x : Tree} {p : Path} {c : Str} (h1 : s.ensureTagdir = (.ok (), s1))
    (h2 : s1.tree.write p c = .ok t) (hx : x = s.tree ∨ x = s1.tree ∨ x ∈ tornWrites s1.tree p c) :
    ∃ y, ({ s with tree := x } : HeadBag).ensureTagdir = (.ok (), { s with tree := y }) ∧ y.write p c = .ok t := by
  obtain ⟨t1, rfl, _⟩ := ensureTagdir_ok h1
  have he := ensureTagdir_exists h1
  rcases hx with hx | hx | hx
  · subst hx; exact ⟨t1, h1, h2⟩
  · have hx : x = t1 := hx
    subst hx
    exact ⟨x, ensureTagdir_there he, h2⟩
  · obtain ⟨k, _, hk⟩ := mem_tornWrites.1 hx
    obtain ⟨rfl, _⟩ := Tree.write_ok hk
    refine ⟨_, ensureTagdir_there ?_, write_torn h2⟩
    show Tree.exists (dset t1 p (.file (c.take k))) (comps (tagDir s.info)) = true
    unfold Tree.exists at he ⊢
    rw [dget_dset]
    by_cases hq : p = comps (tagDir s.info)
    · simp [hq]
    · rw [if_neg hq]; exact he

theorem saveMembers_steps {s s' : HeadBag} {ms : List MemberInfo} (hm : s.members = some ms)
    (h : s.saveMemberBags = (.ok (), s')) :
    ∃ s1 t, s.ensureTagdir = (.ok (), s1) ∧ (HeadBag.membersWritten ms).2 = .ok () ∧
      s1.tree.write (tagFile (tagDir s.info) py!"member-bags.tsv") (HeadBag.membersWritten ms).1 = .ok t ∧
      s' = { s with tree := t } := by
  unfold HeadBag.saveMemberBags at h
  rw [hm] at h
  simp only at h
  cases he : s.ensureTagdir with
  | mk r s1 =>
    rw [he] at h
    cases r with
    | error e => injection h with h; cases h
    | ok u =>
      obtain ⟨t1, rfl, _⟩ := ensureTagdir_ok he
      simp only at h
      cases ht : HeadBag.membersWritten ms with
      | mk text r =>
        rw [ht] at h
        simp only at h
        split at h
        · injection h with h; cases h
        · rename_i t hw
          injection h with h0 h
          exact ⟨_, t, rfl, h0, hw, h.symm⟩

theorem saveLookup_steps {s s' : HeadBag} {d : List (Str × Str)} (hm : s.lookup = some d)
    (h : s.saveFileLookup = (.ok (), s')) :
    ∃ s1 t, s.ensureTagdir = (.ok (), s1) ∧
      s1.tree.write (tagFile (tagDir s.info) py!"file-lookup.tsv") (lookupText d) = .ok t ∧ s' = { s with tree := t } := by
  unfold HeadBag.saveFileLookup at h
  rw [hm] at h
  simp only at h
  cases he : s.ensureTagdir with
  | mk r s1 =>
    rw [he] at h
    cases r with
    | error e => injection h with h; cases h
    | ok u =>
      obtain ⟨t1, rfl, _⟩ := ensureTagdir_ok he
      simp only at h
      split at h
      · injection h with h; cases h
      · rename_i t hw
        injection h with h0 h
        exact ⟨_, t, rfl, hw, h.symm⟩

theorem emptied_eq (s : HeadBag) (ps : List Str) : ∃ t, s.emptiedDeleted ps = { s with tree := t } := by
  unfold HeadBag.emptiedDeleted
  split
  · split
    · exact ⟨_, rfl⟩
    · exact ⟨_, rfl⟩
  · exact ⟨_, rfl⟩

/-- Removing the list of deletions, if that is possible. -/
theorem saveDeleted_eq (s : HeadBag) (ps : List Str) (enum : List Str → List Str) (hm : s.deleted = some ps)
    (hr : ps = [] → s.tree.exists (deletedFile s.info) = true → s.tree.isfile (deletedFile s.info) = true) :
    s.saveDeleted enum = match (s.emptiedDeleted ps).ensureTagdir with
      | (.error e, s1) => (.error e, s1)
      | (.ok _, s1) =>
        match s1.tree.write (deletedFile s.info) (deletedText (enum ps)) with
        | .error e => (.error e, s1)
        | .ok t => (.ok (), { s1 with tree := t }) := by
  unfold HeadBag.saveDeleted HeadBag.emptiedDeleted
  rw [hm]
  simp only
  by_cases hc : ps = [] ∧ s.tree.exists (deletedFile s.info) = true
  · have hf := hr hc.1 hc.2
    rw [if_pos hc, if_pos hc]
    unfold Tree.remove
    rw [if_pos hf]
    simp only
    cases h : HeadBag.ensureTagdir _ with
    | mk r s1 => cases r <;> rfl
  · rw [if_neg hc, if_neg hc]
    simp only
    cases h : s.ensureTagdir with
    | mk r s1 => cases r <;> rfl

theorem saveDeleted_file {s s' : HeadBag} {ps : List Str} {enum : List Str → List Str} (hm : s.deleted = some ps)
    (h : s.saveDeleted enum = (.ok (), s')) :
    ps = [] → s.tree.exists (deletedFile s.info) = true → s.tree.isfile (deletedFile s.info) = true := by
  intro h1 h2
  cases hf : s.tree.isfile (deletedFile s.info) with
  | true => rfl
  | false =>
    unfold HeadBag.saveDeleted at h
    rw [hm] at h
    simp only at h
    rw [if_pos ⟨h1, h2⟩] at h
    unfold Tree.remove at h
    rw [hf] at h
    simp at h

theorem saveDeleted_steps {s s' : HeadBag} {ps : List Str} {enum : List Str → List Str} (hm : s.deleted = some ps)
    (h : s.saveDeleted enum = (.ok (), s')) :
    ∃ s1 t, (s.emptiedDeleted ps).ensureTagdir = (.ok (), s1) ∧
      s1.tree.write (deletedFile s.info) (deletedText (enum ps)) = .ok t ∧ s' = { s with tree := t } := by
  rw [saveDeleted_eq s ps enum hm (saveDeleted_file hm h)] at h
  obtain ⟨t0, e0⟩ := emptied_eq s ps
  rw [e0] at h ⊢
  cases he : HeadBag.ensureTagdir { s with tree := t0 } with
  | mk r s1 =>
    rw [he] at h
    cases r with
    | error e => injection h with h; cases h
    | ok u =>
      obtain ⟨t1, rfl, _⟩ := ensureTagdir_ok he
      simp only at h
      split at h
      · injection h with h; cases h
      · rename_i t hw
        injection h with h0 h
        exact ⟨_, t, rfl, hw, h.symm⟩

theorem ddel_dset {K V : Type} [DecidableEq K] (d : List (K × V)) (k : K) (v : V) :
    ddel (dset d k v) k = ddel d k := by
  induction d with
  | nil => simp [dset, ddel]
  | cons e r ih =>
    obtain ⟨k', v'⟩ := e
    unfold ddel at ih ⊢
    by_cases h : k' = k
    · simp [dset, h]
    · simp only [dset, h, if_false, List.filter_cons, ne_eq, not_false_eq_true, decide_true, if_true]
      rw [ih]

theorem ddel_absent {K V : Type} [DecidableEq K] {d : List (K × V)} {k : K} (h : dget d k = none) : ddel d k = d := by
  unfold ddel
  rw [List.filter_eq_self]
  intro e he
  have := dget_eq_none_iff.1 h
  simp only [ne_eq, decide_eq_true_eq]
  intro hk
  exact this (List.mem_map.2 ⟨e, he, hk⟩)

theorem deletedFile_ne (info : Info) : deletedFile info ≠ [] := by
  unfold deletedFile
  rw [tagFile_eq _ (by decide)]
  simp

/-- Removing the list of deletions from what is left of a save of no deletions. -/
theorem emptied_nil {s : HeadBag} (hr : s.tree.exists (deletedFile s.info) = true → s.tree.isfile (deletedFile s.info) = true) :
    s.emptiedDeleted [] = { s with tree := ddel s.tree (deletedFile s.info) } := by
  unfold HeadBag.emptiedDeleted
  by_cases hc : s.tree.exists (deletedFile s.info) = true
  · rw [if_pos ⟨rfl, hc⟩]
    unfold Tree.remove
    rw [if_pos (hr hc)]
  · rw [if_neg (fun h => hc h.2)]
    have : dget s.tree (deletedFile s.info) = none := by
      cases h : dget s.tree (deletedFile s.info) with
      | none => rfl
      | some n => exact absurd ((exists_iff (deletedFile_ne _)).2 (by rw [h]; simp)) hc
    rw [ddel_absent this]

theorem emptied_some (s : HeadBag) {ps : List Str} (h : ps ≠ []) : s.emptiedDeleted ps = s := by
  unfold HeadBag.emptiedDeleted
  rw [if_neg (fun k => h k.1)]

/-! ## Lines that are cut -/

/-- Any beginning of a text made of lines is whole lines and a beginning of the next line. -/
theorem take_lines (ls : List Str) (k : Nat) :
    ∃ j q, (ls.map (· ++ ['\n'])).flatten.take k = ((ls.take j).map (· ++ ['\n'])).flatten ++ q ∧
      (q = [] ∨ ∃ l, ls[j]? = some l ∧ q <+: l ∧ q ≠ []) := by
  induction ls generalizing k with
  | nil => exact ⟨0, [], by simp, .inl rfl⟩
  | cons l ls ih =>
    by_cases hk : k ≤ l.length
    · refine ⟨0, l.take k, ?_, ?_⟩
      · simp only [List.map_cons, List.flatten_cons, List.take_zero, List.map_nil, List.flatten_nil, List.nil_append]
        rw [List.append_assoc, List.take_append_of_le_length hk]
      · by_cases hq : l.take k = []
        · exact .inl hq
        · exact .inr ⟨l, rfl, List.take_prefix _ _, hq⟩
    · obtain ⟨j, q, h1, h2⟩ := ih (k - (l.length + 1))
      refine ⟨j + 1, q, ?_, by simpa using h2⟩
      simp only [List.map_cons, List.flatten_cons, List.take_succ_cons]
      rw [List.append_assoc (l ++ ['\n']), ← h1, List.take_append, List.take_of_length_le (by simp; omega)]
      simp

theorem linesOf_cut {brk : Char → Bool} (hn : brk '\n') (ls : List Str) (q : Str)
    (h : ∀ l ∈ ls, ∀ c ∈ l, brk c = false) (hq : ∀ c ∈ q, brk c = false) :
    linesOf brk ((ls.map (· ++ ['\n'])).flatten ++ q) = ls.map (· ++ ['\n']) ++ (if q = [] then [] else [q]) := by
  induction ls with
  | nil =>
    by_cases e : q = []
    · subst e; simp [linesOf]
    · simp [e, linesOf_last e hq]
  | cons l ls ih =>
    simp only [List.map_cons, List.flatten_cons, List.cons_append]
    rw [List.append_assoc, List.append_assoc, List.singleton_append, linesOf_line hn _ (h l (by simp)),
      ih (fun l hl => h l (by simp [hl]))]

theorem textLines_cut (mode : TextMode) (ls : List Str) (q : Str) (h : ∀ l ∈ ls, ∀ c ∈ l, isBreak c = false)
    (hq : ∀ c ∈ q, isBreak c = false) (hbom : ((ls.map (· ++ ['\n'])).flatten ++ q).head? ≠ some bom) :
    textLines mode ((ls.map (· ++ ['\n'])).flatten ++ q) = ls.map (· ++ ['\n']) ++ (if q = [] then [] else [q]) := by
  have nl : ∀ c, isBreak c = false → isNl c = false := by
    intro c hc
    cases e : isNl c with
    | false => rfl
    | true => have := isNl_isBreak e; rw [hc] at this; cases this
  cases mode with
  | codecs =>
    simp only [textLines]
    have : dropBom ((ls.map (· ++ ['\n'])).flatten ++ q) = (ls.map (· ++ ['\n'])).flatten ++ q := by
      generalize (ls.map (· ++ ['\n'])).flatten ++ q = z at hbom ⊢
      cases z with
      | nil => rfl
      | cons x xs => simp at hbom; simp [dropBom, hbom]
    rw [this]
    exact linesOf_cut (by decide) ls q h hq
  | universal =>
    simp only [textLines]
    rw [translateNl_clean, linesOf_cut (by decide) ls q (fun l hl c hc => nl c (h l hl c hc)) (fun c hc => nl c (hq c hc))]
    intro hc
    rcases List.mem_append.1 hc with hc | hc
    · obtain ⟨l, hl, hcl⟩ := List.mem_flatten.1 hc
      obtain ⟨e, he, rfl⟩ := List.mem_map.1 hl
      rcases List.mem_append.1 hcl with h' | h'
      · exact absurd (h e he _ h') (by decide)
      · simp at h'
    · exact absurd (hq _ hc) (by decide)

/-- What is read from whole lines and the beginning of a line. -/
def readCut {α : Type} (parse : Str → Except PyErr α) (ms : List α) (q : Str) : Except PyErr (List α) :=
  if strip q = [] then .ok ms
  else match parse q with
    | .error e => .error e
    | .ok r => .ok (ms ++ [r])

theorem readRecords_cut {α : Type} {parse : Str → Except PyErr α} {ls : List Str} {ms : List α}
    (h : Forall₂ (fun l m => strip (l ++ ['\n']) ≠ [] ∧ parse (l ++ ['\n']) = .ok m) ls ms) (j : Nat) (q : Str) :
    readRecords parse ((ls.take j).map (· ++ ['\n']) ++ (if q = [] then [] else [q])) = readCut parse (ms.take j) q := by
  have base : readRecords parse (if q = [] then [] else [q]) = readCut parse [] q := by
    unfold readCut
    by_cases e : q = []
    · subst e; simp [readRecords, strip_nil]
    · rw [if_neg e]
      by_cases b : strip q = []
      · simp [readRecords, b]
      · simp only [readRecords, ne_eq, b, not_false_eq_true, if_true, if_false]
        cases parse q <;> rfl
  induction h generalizing j with
  | nil => simpa using base
  | cons hlm _ ih =>
    cases j with
    | zero => simpa using base
    | succ j =>
      simp only [List.take_succ_cons, List.map_cons, List.cons_append, readRecords, hlm.1, ne_eq, not_false_eq_true, if_true,
        hlm.2, ih]
      unfold readCut
      by_cases b : strip q = []
      · simp [b]
      · simp only [b, if_false]
        cases parse q <;> rfl

/-- A text that starts with a visible character loses only its end. -/
theorem strip_prefix {q : Str} (h : ∀ c ∈ q.head?, isSpace c = false) : strip q <+: q := by
  unfold strip
  have : lstripBy isSpace q = q := dropWhile_eq_self_of_head h
  rw [this]
  obtain ⟨t, ht, _⟩ := rstripBy_prefix isSpace q
  exact ⟨t, ht.symm⟩

theorem strip_visible {q : Str} (hne : q ≠ []) (h : ∀ c ∈ q.head?, isSpace c = false) : strip q ≠ [] := by
  intro e
  cases q with
  | nil => exact hne rfl
  | cons x xs =>
    have h1 := strip_eq_nil_iff.1 e x (by simp)
    rw [h x (by simp)] at h1
    cases h1

theorem head_of_prefix {q l : Str} (h : q <+: l) (hne : q ≠ []) : q.head? = l.head? := by
  obtain ⟨t, rfl⟩ := h
  cases q with
  | nil => exact absurd rfl hne
  | cons => rfl

/-- A beginning without tab of a text ends before the first tab. -/
theorem prefix_before_tab {a n r : Str} (h : a <+: n ++ r) (ha : '\t' ∉ a) (hr : r = [] ∨ r.head? = some '\t') : a <+: n := by
  rcases List.prefix_or_prefix_of_prefix h (List.prefix_append n r) with k | ⟨u, hu⟩
  · exact k
  · subst hu
    have h2 : u <+: r := (List.prefix_append_right_inj n).1 h
    cases u with
    | nil => simp
    | cons x xs =>
      obtain ⟨t, rfl⟩ := h2
      rcases hr with hr | hr
      · cases hr
      · simp at hr
        subst hr
        simp at ha

theorem splitOn_head_prefix {c : Char} {s a : Str} {fs : List Str} (h : splitOn c s = a :: fs) : a <+: s := by
  have := joinWith_splitOn c s
  rw [h] at this
  rw [← this]
  cases fs with
  | nil => simp [joinWith]
  | cons b fs => rw [joinWith_cons (by simp), List.append_assoc]; exact List.prefix_append _ _

theorem parseLine03_name {l : Str} {m : MemberInfo} (h : parseLine03 l = .ok m) :
    m.name ≠ [] ∧ ∃ fs, splitOn '\t' (strip l) = m.name :: fs := by
  unfold parseLine03 at h
  split at h
  · cases h
  · rename_i name fields hs
    split at h
    · cases h
    · rename_i hn
      have : m.name = name := by
        revert h
        cases hl : fields.getLast? with
        | none =>
          simp only
          cases fields with
          | nil => intro h; cases h; rfl
          | cons u i => intro h; cases h; rfl
        | some l =>
          simp only
          by_cases hh : startsWith ['#'] l = true
          · simp only [hh, if_true]
            cases fields.dropLast with
            | nil => intro h; cases h; rfl
            | cons u i => intro h; cases h; rfl
          · simp only [hh]
            cases fields with
            | nil => intro h; cases h; rfl
            | cons u i => intro h; cases h; rfl
      rw [this]
      exact ⟨hn, fields, hs⟩

theorem member_cut {m : MemberInfo} (h : CleanMember m) {q : Str} (hq : q <+: joinWith ['\t'] (fieldsOf m)) (hne : q ≠ []) :
    strip q ≠ [] ∧ ∃ m', parseLine03 q = .ok m' ∧ m'.name ≠ [] ∧ m'.name <+: m.name := by
  have hb : ∃ r, joinWith ['\t'] (fieldsOf m) = m.name ++ r ∧ (r = [] ∨ r.head? = some '\t') := by
    unfold fieldsOf
    generalize (m.uri.toList ++ (m.comment.map (fun c => py!"# " ++ c)).toList) = fs
    cases fs with
    | nil => exact ⟨[], by simp [joinWith], .inl rfl⟩
    | cons y ys => exact ⟨['\t'] ++ joinWith ['\t'] (y :: ys), by rw [joinWith_cons (by simp), List.append_assoc], .inr rfl⟩
  obtain ⟨r, hr, hr2⟩ := hb
  rw [hr] at hq
  have hh : ∀ c ∈ q.head?, isSpace c = false := by
    intro c hc
    rw [head_of_prefix hq hne] at hc
    have hn := h.name.nonempty
    have h0 := h.name.noouter.1
    cases hm : m.name with
    | nil => exact absurd hm hn
    | cons x xs =>
      rw [hm] at hc h0
      exact h0 c (by simpa using hc)
  have hs := strip_visible hne hh
  refine ⟨hs, ?_⟩
  cases hp : parseLine03 q with
  | error e => exact absurd (blank_iff.1 ((parseLine03_error_iff q).1 ⟨e, hp⟩)) hs
  | ok m' =>
    obtain ⟨h1, fs, h2⟩ := parseLine03_name hp
    refine ⟨m', rfl, h1, prefix_before_tab (((splitOn_head_prefix h2).trans (strip_prefix hh)).trans hq) ?_ hr2⟩
    exact sep_not_mem_splitOn (by rw [h2]; simp)

theorem membersWritten_text : ∀ {ms : List MemberInfo} {t : Str}, membersText ms = .ok t →
    HeadBag.membersWritten ms = (t, .ok ())
  | [], t, h => by cases h; rfl
  | m :: ms, t, h => by
    unfold membersText at h
    unfold HeadBag.membersWritten
    cases hf : m.format with
    | error e => rw [hf] at h; cases h
    | ok l =>
      rw [hf] at h
      simp only at h ⊢
      cases hm : membersText ms with
      | error e => rw [hm] at h; cases h
      | ok t' =>
        rw [hm] at h
        cases h
        rw [membersWritten_text hm]

/-- The text of clean members, line by line. -/
theorem members_lines {ms : List MemberInfo} (h : ∀ m ∈ ms, CleanMember m) :
    membersText ms = .ok ((ms.map (fun m => joinWith ['\t'] (fieldsOf m))).map (· ++ ['\n'])).flatten := by
  induction ms with
  | nil => rfl
  | cons m ms ih =>
    have hm := h m (by simp)
    have hf := format_eq (m := m) (fun s hs => (hm.uri s hs).nonempty) (fun s hs => (hm.comment s hs).nonempty) hm.info
    unfold membersText
    rw [hf, ih (fun m hm => h m (by simp [hm]))]
    simp

end Verif
