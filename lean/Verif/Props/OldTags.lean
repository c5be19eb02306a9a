import Verif.Spec.OldTags
import Verif.Spec.Amend
import Verif.Props.HeadBag
import Verif.Props.Version
/-!
# Reading head bags of profile versions before 0.3: C11
-/

namespace Verif

open Spec

theorem spaced_parts {s : Str} {ws : List Str} (h : Spaced s ws) :
    (∀ b, splitRunsAux ' ' b s = ws) ∧ Trimmed s ∧ s ≠ [] ∧ (∀ c ∈ s, isBreak c = false) ∧
      ∃ w r, ws = w :: r ∧ Word w ∧ s.head? = w.head? := by
  have hw : ∀ {w : Str}, Word w → ' ' ∉ w := fun h hc => by have := h.2 _ hc; revert this; decide
  have hb : ∀ {w : Str}, Word w → ∀ c ∈ w, isBreak c = false := by
    intro w h c hc
    rw [Bool.eq_false_iff]
    intro e
    have := isBreak_isSpace e
    rw [h.2 c hc] at this
    cases this
  induction h with
  | @last w h =>
    exact ⟨fun b => splitRunsAux_noSep b (hw h),
      ⟨fun c hc => h.2 c (List.mem_of_mem_head? hc), fun c hc => h.2 c (List.mem_of_getLast? hc)⟩, h.1, hb h, w, [], rfl, h, rfl⟩
  | @cons w s ws n h hs ih =>
    obtain ⟨i1, i2, i3, i4, _⟩ := ih
    refine ⟨fun b => ?_, ?_, by simp, ?_, w, ws, rfl, h, ?_⟩
    · rw [splitRunsAux_sep b n s (.inl h.1) (hw h), i1]
    · rw [List.append_assoc]
      refine trimmed_append h.1 (by simp) (fun c hc => h.2 c (List.mem_of_mem_head? hc)) ?_
      intro c hc
      rw [List.getLast?_append] at hc
      cases hq : s.getLast? with
      | none => simp at hq; exact absurd hq i3
      | some q => rw [hq] at hc; simp at hc; subst hc; exact i2.2 _ hq
    · intro c hc
      rcases List.mem_append.1 hc with hc | hc
      · rcases List.mem_append.1 hc with hc | hc
        · exact hb h c hc
        · rw [List.eq_of_mem_replicate hc]; decide
      · exact i4 c hc
    · cases hq : w with
      | nil => exact absurd hq h.1
      | cons x xs => rfl

/-- C11: the first word of a line of group-members.txt is the name of the bag and the second one, if there is one,
its identifier. -/
theorem C11_members_words (s a b name : Str) (more : List Str) (h : Spaced s (name :: more)) (ha : Blank a) (hb : Blank b) :
    parseLine02 (a ++ s ++ b) = .ok ⟨name, more.head?, none, []⟩ := by
  obtain ⟨h1, h2, _, _, w, r, e, hw, _⟩ := spaced_parts h
  injection e with e1 e2
  subst e1
  unfold parseLine02
  rw [strip_surround ha hb, strip_of_trimmed h2, splitRuns, h1]
  simp [hw.1]

example : parseLine02 py!"  b1   ark:/1 x\n" = .ok ⟨py!"b1", some py!"ark:/1", none, []⟩ :=
  C11_members_words py!"b1   ark:/1 x" py!"  " py!"\n" py!"b1" [py!"ark:/1", py!"x"]
    (.cons (w := py!"b1") 2 ⟨by decide, by decide⟩ (.cons (w := py!"ark:/1") 0 ⟨by decide, by decide⟩
      (.last ⟨by decide, by decide⟩))) (by unfold Blank; decide) (by unfold Blank; decide)

/-- C11: the first word of a line of group-directory.txt is the path and the second one the name of the bag; a line
with only one word is an error. -/
theorem C11_directory_words (s a b path : Str) (more : List Str) (h : Spaced s (path :: more)) (ha : Blank a) (hb : Blank b) :
    parseGroupDirectory (a ++ s ++ b) = match more with
      | bag :: _ => .ok (path, bag)
      | [] => .error .multibagError := by
  obtain ⟨h1, h2, _⟩ := spaced_parts h
  unfold parseGroupDirectory
  rw [strip_surround ha hb, strip_of_trimmed h2, splitRuns, h1]
  cases more <;> rfl

example : parseGroupDirectory py!"data/a b1\n" = .ok (py!"data/a", py!"b1") :=
  C11_directory_words py!"data/a b1" [] py!"\n" py!"data/a" [py!"b1"]
    (.cons (w := py!"data/a") 0 ⟨by decide, by decide⟩ (.last ⟨by decide, by decide⟩))
    (by unfold Blank; decide) (by unfold Blank; decide)

theorem forall₂_map_right {α β γ : Type} {R : α → γ → Prop} {f : β → γ} {as : List α} {bs : List β}
    (h : Forall₂ (fun a b => R a (f b)) as bs) : Forall₂ R as (bs.map f) := by
  induction h with
  | nil => exact .nil
  | cons h _ ih => exact .cons h ih

theorem old_records {α : Type} {parse : Str → Except PyErr α} (mode : TextMode) {ls : List Str} {rs : List α}
    (hl : ∀ l ∈ ls, ∃ ws, Spaced l ws) (hbom : ∀ l ∈ ls.head?, l.head? ≠ some bom)
    (h : Forall₂ (fun l r => parse (l ++ ['\n']) = .ok r) ls rs) :
    readRecords parse (textLines mode (textOf ls)) = .ok rs := by
  unfold textOf
  rw [textLines_flatten, readRecords_eq_mapM, filter_nonblank_lines]
  · exact forall₂_map_left h
  · intro l hm
    obtain ⟨ws, hs⟩ := hl l hm
    obtain ⟨_, h2, h3, _⟩ := spaced_parts hs
    exact ⟨by rw [strip_append_space (by simp [isSpace]), strip_of_trimmed h2], h3⟩
  · intro l hm
    obtain ⟨ws, hs⟩ := hl l hm
    exact (spaced_parts hs).2.2.2.1
  · exact hbom

theorem below_03 {info : Info} (h : LexLt (versionNumbers (profileVersion info)) [0, 3]) :
    verLt (profileVersion info) py!"0.3" = true :=
  (C01_older _ _).2 (by
    have : versionNumbers py!"0.3" = [0, 3] := by decide
    rw [this]; exact h)

/-- C11: an opened head bag whose profile version is below 0.3 reports the members listed in group-members.txt, in
the order of the lines. -/
theorem C11_members_reported (tree : Tree) (info : Info) (ls : List Str) (rows : List (Str × List Str))
    (ht : ∀ l, dget info py!"Multibag-Tag-Directory" ≠ some (.many l))
    (hv : LexLt (versionNumbers (profileVersion info)) [0, 3])
    (hf : tree.read (comps (tagDir info) ++ [py!"group-members.txt"]) = some (textOf ls))
    (hl : Forall₂ (fun l r => Spaced l (r.1 :: r.2)) ls rows) (hbom : ∀ l ∈ ls.head?, l.head? ≠ some bom) :
    ((HeadBag.open tree info).memberBags).1 = .ok (rows.map (fun r => ⟨r.1, r.2.head?, none, []⟩)) := by
  have hi : iterMembers .codecs tree info = .ok (rows.map (fun r => ⟨r.1, r.2.head?, none, []⟩)) := by
    unfold iterMembers
    have hrt : readerTagDir info = .ok (tagDir info) := by
      unfold readerTagDir tagDir
      cases hg : dget info py!"Multibag-Tag-Directory" with
      | none => rfl
      | some v =>
        cases v with
        | one v => rfl
        | many l => exact absurd hg (ht l)
    rw [hrt]
    simp only [membersFileName, below_03 hv, if_true]
    rw [tagFile_eq _ (by decide), hf]
    simp only
    unfold readMembers02
    refine old_records _ (fun l hm => ?_) hbom ?_
    · obtain ⟨r, _, hr⟩ := forall₂_mem_left hl hm
      exact ⟨_, hr⟩
    · refine forall₂_map_right (forall₂_imp ?_ hl)
      intro l r hr
      have := C11_members_words l [] ['\n'] r.1 r.2 hr (by unfold Blank; decide) (by unfold Blank; decide)
      simpa using this
  rw [memberBags_fst, membersView]
  simp only [HeadBag.open, hi]

/-- C11: an opened head bag whose profile version is below 0.3 looks up files in group-directory.txt; the last line
for a path counts. -/
theorem C11_lookup_reported (tree : Tree) (info : Info) (ls : List Str) (rows : List (Str × Str × List Str))
    (ht : ∀ l, dget info py!"Multibag-Tag-Directory" ≠ some (.many l))
    (hv : LexLt (versionNumbers (profileVersion info)) [0, 3])
    (hf : tree.read (comps (tagDir info) ++ [py!"group-directory.txt"]) = some (textOf ls))
    (hl : Forall₂ (fun l r => Spaced l (r.1 :: r.2.1 :: r.2.2)) ls rows) (hbom : ∀ l ∈ ls.head?, l.head? ≠ some bom) (q : Str) :
    ((HeadBag.open tree info).lookupFile q).1 = .ok (lastFor (rows.map (fun r => (r.1, r.2.1))) q) := by
  have hi : iterLookup .codecs tree info = .ok (rows.map (fun r => (r.1, r.2.1))) := by
    unfold iterLookup
    have hrt : readerTagDir info = .ok (tagDir info) := by
      unfold readerTagDir tagDir
      cases hg : dget info py!"Multibag-Tag-Directory" with
      | none => rfl
      | some v =>
        cases v with
        | one v => rfl
        | many l => exact absurd hg (ht l)
    rw [hrt]
    simp only [lookupFileName, below_03 hv, if_true]
    rw [tagFile_eq _ (by decide), hf]
    simp only
    unfold readLookup02
    refine old_records _ (fun l hm => ?_) hbom ?_
    · obtain ⟨r, _, hr⟩ := forall₂_mem_left hl hm
      exact ⟨_, hr⟩
    · refine forall₂_map_right (forall₂_imp ?_ hl)
      intro l r hr
      have := C11_directory_words l [] ['\n'] r.1 _ hr (by unfold Blank; decide) (by unfold Blank; decide)
      simpa using this
  have hview : lookupView (HeadBag.open tree info) = .ok (dofPairs (rows.map (fun r => (r.1, r.2.1)))) := by
    rw [lookupView]
    simp only [HeadBag.open, hi]
  rw [(lookupFile_spec _ _).1, hview]
  unfold lastFor
  rw [dofPairs, Except.map, dget_foldl_dset]
  simp [dget]

namespace Sample

/-- The metadata and contents of a head bag of profile 0.2. -/
def info02 : Info := [(py!"Multibag-Version", .one py!"0.2")]

def lines02 : List Str := [py!"b1  ark:/1", py!"b2"]

def index02 : List Str := [py!"data/x b1", py!"data/y b2", py!"data/x  b2"]

def tree02 : Tree :=
  [([py!"multibag"], .dir), ([py!"multibag", py!"group-members.txt"], .file py!"b1  ark:/1\nb2\n"),
   ([py!"multibag", py!"group-directory.txt"], .file py!"data/x b1\ndata/y b2\ndata/x  b2\n")]

end Sample

example : ((HeadBag.open Sample.tree02 Sample.info02).memberBags).1 =
    .ok [⟨py!"b1", some py!"ark:/1", none, []⟩, ⟨py!"b2", none, none, []⟩] :=
  C11_members_reported Sample.tree02 Sample.info02 Sample.lines02 [(py!"b1", [py!"ark:/1"]), (py!"b2", [])]
    (by intro l; simp [dget, Sample.info02]) (.tail 0 (.head [] [] (by decide))) (by decide)
    (.cons (.cons (w := py!"b1") 1 ⟨by decide, by decide⟩ (.last ⟨by decide, by decide⟩))
      (.cons (.last ⟨by decide, by decide⟩) .nil)) (by decide)

example : ((HeadBag.open Sample.tree02 Sample.info02).lookupFile py!"data/x").1 = .ok (some py!"b2") :=
  C11_lookup_reported Sample.tree02 Sample.info02 Sample.index02
    [(py!"data/x", py!"b1", []), (py!"data/y", py!"b2", []), (py!"data/x", py!"b2", [])]
    (by intro l; simp [dget, Sample.info02]) (.tail 0 (.head [] [] (by decide))) (by decide)
    (.cons (.cons (w := py!"data/x") 0 ⟨by decide, by decide⟩ (.last ⟨by decide, by decide⟩))
      (.cons (.cons (w := py!"data/y") 0 ⟨by decide, by decide⟩ (.last ⟨by decide, by decide⟩))
        (.cons (.cons (w := py!"data/x") 1 ⟨by decide, by decide⟩ (.last ⟨by decide, by decide⟩)) .nil))) (by decide) _

end Verif
