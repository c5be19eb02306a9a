import Verif.Model.MemberFetch
import Verif.Spec.MemberFetch
import Verif.Props.RestoreFetch
/-!
# Fetch entries collected while member bags are restored one by one: C116
-/

namespace Verif

open Spec

theorem fetchKey_line {e : FetchEntry} (he : e.Plain) : fetchKey e.line = .ok e.source := by
  obtain ⟨hu, hs, hp⟩ := he
  have hl : e.line = (e.url ++ ' ' :: (e.size ++ ' ' :: e.path)) ++ ['\n'] := rfl
  have ht : Trimmed (e.url ++ ' ' :: (e.size ++ ' ' :: e.path)) := by
    constructor
    · intro c hc
      cases hx : e.url with
      | nil => exact absurd hx hu.1
      | cons a w =>
        rw [hx] at hc
        simp only [List.cons_append, List.head?_cons, Option.some.injEq] at hc
        exact hu.2 c (by rw [hx, hc]; exact List.mem_cons_self)
    · intro c hc
      have : (e.url ++ ' ' :: (e.size ++ ' ' :: e.path)) = (e.url ++ ' ' :: (e.size ++ [' '])) ++ e.path := by simp
      rw [this, List.getLast?_append] at hc
      cases hx : e.path.getLast? with
      | none => exact absurd (List.getLast?_eq_none_iff.1 hx) hp.1
      | some y =>
        rw [hx, Option.some_or] at hc
        cases hc
        exact hp.2 _ (List.mem_of_getLast? hx)
  have hstrip : strip e.line = e.url ++ ' ' :: (e.size ++ ' ' :: e.path) := by
    rw [hl, strip_append_space (by decide), strip_of_trimmed ht]
  have hrev : (e.url ++ ' ' :: (e.size ++ ' ' :: e.path)).reverse = e.path.reverse ++ ' ' :: (e.size.reverse ++ ' ' :: e.url.reverse) := by
    simp
  have hdw : (e.path.reverse ++ ' ' :: (e.size.reverse ++ ' ' :: e.url.reverse)).dropWhile (fun c => !isSpace c) =
      ' ' :: (e.size.reverse ++ ' ' :: e.url.reverse) := by
    rw [List.dropWhile_append_of_pos]
    · rw [List.dropWhile_cons_of_neg (by decide)]
    · intro c hc
      rw [hp.2 c (List.mem_reverse.1 hc)]; rfl
  have hsz : (e.size.reverse ++ ' ' :: e.url.reverse).dropWhile isSpace = e.size.reverse ++ ' ' :: e.url.reverse := by
    refine dropWhile_eq_self_of_head ?_
    intro c hc
    cases hx : e.size.reverse with
    | nil => exact absurd (List.reverse_eq_nil_iff.1 hx) hs.1
    | cons a w =>
      rw [hx] at hc
      simp only [List.cons_append, List.head?_cons, Option.some.injEq] at hc
      exact hs.2 c (List.mem_reverse.1 (by rw [hx, hc]; exact List.mem_cons_self))
  unfold fetchKey
  simp only [hstrip, hrev]
  rw [if_neg (by simp), hdw, if_neg (by simp), List.dropWhile_cons_of_pos (by decide), hsz]
  simp [FetchEntry.source]

/-- What is collected from lists of plain entries. -/
theorem noteFetch_spec {es : List FetchEntry} (h : ∀ e ∈ es, e.Plain) : ∀ f : List (Str × Str),
    ∃ f', noteFetch (es.map FetchEntry.line) f = .ok f' ∧
      ∀ k, dget f' k = (dget f k).or ((es.find? (fun e => e.source = k)).map FetchEntry.line) := by
  induction es with
  | nil => intro f; exact ⟨f, rfl, fun k => by simp⟩
  | cons e es ih =>
    intro f
    simp only [List.map_cons, noteFetch, fetchKey_line (h e List.mem_cons_self)]
    obtain ⟨f', h1, h2⟩ := ih (fun x hx => h x (List.mem_cons_of_mem _ hx))
      (if (dget f e.source).isSome then f else dset f e.source e.line)
    refine ⟨f', h1, fun k => ?_⟩
    rw [h2 k]
    by_cases hk : e.source = k
    · rw [List.find?_cons_of_pos (by simpa using hk)]
      subst hk
      cases hd : dget f e.source with
      | some v => simp [hd]
      | none => simp [dget_dset]
    · rw [List.find?_cons_of_neg (by simpa using hk)]
      congr 1
      split
      · rfl
      · rw [dget_dset, if_neg hk]

/-- Restoring the members is the same with and without a dictionary for fetch entries. -/
theorem restoreMembersNoting_spec {E : RestoreEnv} {skip : List Str} {names : List Str} {srcs : List RSource}
    (hf : Forall₂ (fun n s => E.find n = some s) names srcs) {ls : List (List FetchEntry)}
    (hl : Forall₂ (fun s l => HasFetch s.tree l) srcs ls) (ho : ∀ s ∈ srcs, s.path ≠ E.base.bagpath) :
    ∀ {d out : Tree} (f : List (Str × Str)), restoreMembers E skip names d = .ok out →
      ∃ f', restoreMembersNoting E skip false names (d, f) = .ok (out, f') ∧
        ∀ k, dget f' k = (dget f k).or ((ls.flatten.find? (fun e => e.source = k)).map FetchEntry.line) := by
  induction hf generalizing ls with
  | nil =>
    intro d out f h
    cases hl
    cases h
    exact ⟨f, rfl, fun k => by simp⟩
  | @cons n s names srcs hn hf ih =>
    intro d out f h
    cases hl with
    | @cons _ l _ ls hsl hl =>
      simp only [restoreMembers, restoreMember, hn] at h
      cases h1 : restoreFrom E s skip false d with
      | error e => rw [h1] at h; cases h
      | ok d1 =>
        rw [h1] at h
        simp only at h
        obtain ⟨sb, _, hb, _⟩ := restoreFrom_parts h1 (ho s List.mem_cons_self)
        have hone : ∃ f1, restoreMemberNoting E n skip false (d, f) = .ok (d1, f1) ∧
            ∀ k, dget f1 k = (dget f k).or ((l.find? (fun e => e.source = k)).map FetchEntry.line) := by
          unfold restoreMemberNoting
          simp only [hn, h1, hb]
          cases hr : s.tree.read [py!"fetch.txt"] with
          | none =>
            have := hsl.1
            rw [hr] at this
            rw [fetchText_eq_nil (es := l) this.symm]
            exact ⟨f, rfl, fun k => by simp⟩
          | some text =>
            have := hsl.1
            rw [hr] at this
            simp only [Option.getD_some] at this
            subst this
            simp only
            rw [lines_fetchText hsl.2]
            obtain ⟨f1, k1, k2⟩ := noteFetch_spec hsl.2 f
            rw [k1]
            exact ⟨f1, rfl, k2⟩
        obtain ⟨f1, k1, k2⟩ := hone
        obtain ⟨f', k3, k4⟩ := ih hl (fun s hs => ho s (List.mem_cons_of_mem _ hs)) f1 h
        refine ⟨f', ?_, fun k => ?_⟩
        · simp only [restoreMembersNoting, k1]; exact k3
        · rw [k4 k, k2 k, List.flatten_cons, List.find?_append]
          cases dget f k with
          | some v => rfl
          | none => cases l.find? (fun e => e.source = k) <;> simp

/-- C116, what is collected: restoring member bags one by one with one dictionary restores what it does without, and the
dictionary has for each source and size the line of the first entry with them, in the order the bags were restored;
what the dictionary had before stays. -/
theorem C116_by_source {E : RestoreEnv} {skip : List Str} {names : List Str} {srcs : List RSource}
    (hf : Forall₂ (fun n s => E.find n = some s) names srcs) {ls : List (List FetchEntry)}
    (hl : Forall₂ (fun s l => HasFetch s.tree l) srcs ls) (ho : ∀ s ∈ srcs, s.path ≠ E.base.bagpath) {d out : Tree}
    (f : List (Str × Str)) (h : restoreMembers E skip names d = .ok out) :
    ∃ f', restoreMembersNoting E skip false names (d, f) = .ok (out, f') ∧
      ∀ k, dget f' k = (dget f k).or ((ls.flatten.find? (fun e => e.source = k)).map FetchEntry.line) :=
  restoreMembersNoting_spec hf hl ho f h

theorem find?_congr_mem {α : Type} {l : List α} {p q : α → Bool} (h : ∀ x ∈ l, p x = q x) : l.find? p = l.find? q := by
  induction l with
  | nil => rfl
  | cons a l ih =>
    rw [List.find?_cons, List.find?_cons, h a List.mem_cons_self, ih (fun x hx => h x (List.mem_cons_of_mem _ hx))]

theorem nodup_noteFetch {lines : List Str} : ∀ {f f' : List (Str × Str)}, (dkeys f).Nodup → noteFetch lines f = .ok f' →
    (dkeys f').Nodup := by
  induction lines with
  | nil => intro f f' hn h; cases h; exact hn
  | cons l rest ih =>
    intro f f' hn h
    simp only [noteFetch] at h
    cases hk : fetchKey l with
    | error e => rw [hk] at h; cases h
    | ok k =>
      rw [hk] at h
      refine ih ?_ h
      split
      · exact hn
      · exact nodup_dset hn _ _

theorem nodup_noting {E : RestoreEnv} {skip : List Str} {ow : Bool} {names : List Str} :
    ∀ {d out : Tree} {f f' : List (Str × Str)}, (dkeys f).Nodup →
      restoreMembersNoting E skip ow names (d, f) = .ok (out, f') → (dkeys f').Nodup := by
  induction names with
  | nil => intro d out f f' hn h; cases h; exact hn
  | cons n rest ih =>
    intro d out f f' hn h
    simp only [restoreMembersNoting] at h
    cases h1 : restoreMemberNoting E n skip ow (d, f) with
    | error e => rw [h1] at h; cases h
    | ok st =>
      rw [h1] at h
      obtain ⟨d1, f1⟩ := st
      refine ih (d := d1) ?_ h
      unfold restoreMemberNoting at h1
      cases hs : E.find n with
      | none => rw [hs] at h1; cases h1
      | some src =>
        rw [hs] at h1
        simp only at h1
        cases h2 : restoreFrom E src skip ow d with
        | error e => rw [h2] at h1; cases h1
        | ok d2 =>
          rw [h2] at h1
          simp only at h1
          cases h3 : openBag { E.base with bagpath := src.path } src.tree with
          | error e => rw [h3] at h1; cases h1
          | ok b =>
            rw [h3] at h1
            simp only at h1
            cases h4 : src.tree.read [py!"fetch.txt"] with
            | none => rw [h4] at h1; cases h1; exact hn
            | some text =>
              rw [h4] at h1
              simp only at h1
              cases h5 : noteFetch (textLines .universal text) f with
              | error e => rw [h5] at h1; cases h1
              | ok f2 => rw [h5] at h1; cases h1; exact nodup_noteFetch hn h5

/-- C116 for lists in which entries are for the same file exactly if they have the same source and size: restoring member
bags one by one with an empty dictionary collects for each file the line of the first entry for it, in the order the bags
were restored, and nothing else.  Missing: other lists, for which it is false (`C116_negation_two`, `C116_negation_lost`),
and ways of writing lists other than one space between the parts (`C116_negation_blank`). -/
theorem C116_first_partial {E : RestoreEnv} {skip : List Str} {names : List Str} {srcs : List RSource}
    (hf : Forall₂ (fun n s => E.find n = some s) names srcs) {ls : List (List FetchEntry)}
    (hl : Forall₂ (fun s l => HasFetch s.tree l) srcs ls) (ho : ∀ s ∈ srcs, s.path ≠ E.base.bagpath)
    (hu : ∀ e ∈ ls.flatten, ∀ e' ∈ ls.flatten, e.path = e'.path ↔ e.source = e'.source) {d out : Tree}
    (h : restoreMembers E skip names d = .ok out) :
    ∃ f, restoreMembersNoting E skip false names (d, []) = .ok (out, f) ∧ FirstByPath ls.flatten f := by
  obtain ⟨f, h1, h2⟩ := C116_by_source hf hl ho [] h
  have hn : (dkeys f).Nodup := nodup_noting (by simp [dkeys]) h1
  refine ⟨f, h1, fun l => ?_⟩
  have hfind : ∀ e ∈ ls.flatten, ls.flatten.find? (fun x => x.path = e.path) = ls.flatten.find? (fun x => x.source = e.source) := by
    intro e he
    exact find?_congr_mem (fun x hx => by rw [decide_eq_decide]; exact hu x hx e he)
  constructor
  · intro hm
    obtain ⟨⟨k, v⟩, hkv, rfl⟩ := List.mem_map.1 hm
    have hd := dget_of_mem hn hkv
    rw [h2 k] at hd
    have hd : (ls.flatten.find? (fun e => e.source = k)).map FetchEntry.line = some v := hd
    obtain ⟨e, he, rfl⟩ := Option.map_eq_some_iff.1 hd
    have hem := List.mem_of_find?_eq_some he
    have hes : e.source = k := by simpa using List.find?_some he
    refine ⟨e, hem, ?_, rfl⟩
    rw [hfind e hem, hes]
    exact he
  · rintro ⟨e, he, hfe, rfl⟩
    rw [hfind e he] at hfe
    have := h2 e.source
    rw [hfe] at this
    exact List.mem_map.2 ⟨(e.source, e.line), mem_of_dget this, rfl⟩

/-! ## Samples -/

namespace Sample

/-- Another file from the same place as `far`. -/
def farCopy : FetchEntry := ⟨py!"http://e.x/far", py!"9", py!"data/copy"⟩

theorem plain_farCopy : farCopy.Plain := ⟨⟨by decide, by decide⟩, ⟨by decide, by decide⟩, ⟨by decide, by decide⟩⟩

/-- Restoring both members into a bag made from the head bag. -/
def noting (es1 es2 : List FetchEntry) : Except PyErr (Tree × List (Str × Str)) :=
  restoreMembersNoting (env3 es1 es2) [] false [py!"m2", py!"m1"] (hb, [])

theorem hasFetch_noting {es1 es2 : List FetchEntry} (hp : ∀ e ∈ es1 ++ es2, e.Plain) :
    Forall₂ (fun s l => HasFetch (RSource.tree s) l) (srcs3 es1 es2).reverse [es2, es1] :=
  .cons ⟨rfl, fun e he => hp e (by simp [he])⟩ (.cons ⟨rfl, fun e he => hp e (by simp [he])⟩ .nil)

theorem found_noting (es1 es2 : List FetchEntry) :
    Forall₂ (fun n s => (env3 es1 es2).find n = some s) [py!"m2", py!"m1"] (srcs3 es1 es2).reverse :=
  .cons rfl (.cons rfl .nil)

theorem outside_noting (es1 es2 : List FetchEntry) : ∀ s ∈ (srcs3 es1 es2).reverse, s.path ≠ (env3 es1 es2).base.bagpath := by
  intro s hs
  have : s = ⟨py!"/store/m1", withFetch m1 es1⟩ ∨ s = ⟨py!"/store/m2", withFetch m2 es2⟩ := by
    have := List.mem_reverse.1 hs
    simpa [srcs3] using this
  rcases this with rfl | rfl
  · exact (by decide : py!"/store/m1" ≠ py!"/out")
  · exact (by decide : py!"/store/m2" ≠ py!"/out")

end Sample

/-- The hypotheses of `C116_first_partial` hold where both members list the same entry and one lists another. -/
example : ∃ f, restoreMembersNoting (Sample.env3 [Sample.far] [Sample.far, Sample.gone]) [] false [py!"m2", py!"m1"] (Sample.hb, []) =
      .ok f ∧ FirstByPath [Sample.far, Sample.gone, Sample.far] f.2 ∧ f.2.map Prod.snd = [Sample.far.line, Sample.gone.line] := by
  obtain ⟨out, h, _⟩ := Sample.ok_of_check
    (r := restoreMembers (Sample.env3 [Sample.far] [Sample.far, Sample.gone]) [] [py!"m2", py!"m1"] Sample.hb) (f := fun _ => true)
    (by decide +kernel)
  obtain ⟨f, h1, h2⟩ := C116_first_partial (Sample.found_noting _ _) (Sample.hasFetch_noting (by
      intro e he
      have : e = Sample.far ∨ e = Sample.gone := by simpa using he
      rcases this with rfl | rfl
      · exact Sample.plain_far
      · exact Sample.plain_gone)) (Sample.outside_noting _ _) (by
      intro e he e' he'
      have h1 : e = Sample.far ∨ e = Sample.gone := by simpa [or_assoc, or_comm] using he
      have h2 : e' = Sample.far ∨ e' = Sample.gone := by simpa [or_assoc, or_comm] using he'
      rcases h1 with rfl | rfl <;> rcases h2 with rfl | rfl <;> decide) h
  obtain ⟨x, k1, k2⟩ := Sample.ok_of_check
    (r := restoreMembersNoting (Sample.env3 [Sample.far] [Sample.far, Sample.gone]) [] false [py!"m2", py!"m1"] (Sample.hb, []))
    (f := fun x => decide (x.2.map Prod.snd = [Sample.far.line, Sample.gone.line])) (by decide +kernel)
  have e : x = (out, f) := Except.ok.inj (k1.symm.trans h1)
  exact ⟨x, k1, by rw [e]; exact h2, of_decide_eq_true k2⟩

/-! ## Where the property fails -/

/-- C116 is false of the code: entries of two bags for the same file are both collected if they differ in the source. -/
theorem C116_negation_two : ∃ (E : RestoreEnv) (names : List Str) (srcs : List RSource) (ls : List (List FetchEntry))
    (d out : Tree) (f : List (Str × Str)), Forall₂ (fun n s => E.find n = some s) names srcs ∧
    Forall₂ (fun s l => HasFetch s.tree l) srcs ls ∧ (∀ s ∈ srcs, s.path ≠ E.base.bagpath) ∧
    restoreMembersNoting E [] false names (d, []) = .ok (out, f) ∧
    f.map Prod.snd = [Sample.far.line, Sample.farther.line] ∧ Sample.far.path = Sample.farther.path ∧
    ¬ FirstByPath ls.flatten f := by
  obtain ⟨⟨out, f⟩, k1, k2⟩ := Sample.ok_of_check (r := Sample.noting [Sample.farther] [Sample.far])
    (f := fun x => decide (x.2.map Prod.snd = [Sample.far.line, Sample.farther.line])) (by decide +kernel)
  have k2 := of_decide_eq_true k2
  refine ⟨_, _, _, _, _, out, f, Sample.found_noting _ _, Sample.hasFetch_noting ?_, Sample.outside_noting _ _, k1, k2, rfl, ?_⟩
  · intro e he
    have : e = Sample.farther ∨ e = Sample.far := by simpa using he
    rcases this with rfl | rfl
    · exact Sample.plain_farther
    · exact Sample.plain_far
  · intro h
    obtain ⟨e, he, hfe, hl⟩ := (h Sample.farther.line).1 (by rw [k2]; simp)
    have he : e = Sample.far ∨ e = Sample.farther := by simpa using he
    rcases he with rfl | rfl
    · exact absurd hl (by decide)
    · exact absurd hfe (by decide)

/-- C116 is false of the code: of two files from the same source only one entry is collected. -/
theorem C116_negation_lost : ∃ (E : RestoreEnv) (names : List Str) (srcs : List RSource) (ls : List (List FetchEntry))
    (d out : Tree) (f : List (Str × Str)), Forall₂ (fun n s => E.find n = some s) names srcs ∧
    Forall₂ (fun s l => HasFetch s.tree l) srcs ls ∧ (∀ s ∈ srcs, s.path ≠ E.base.bagpath) ∧
    restoreMembersNoting E [] false names (d, []) = .ok (out, f) ∧
    ls.flatten = [Sample.far, Sample.farCopy] ∧ f.map Prod.snd = [Sample.far.line] ∧ ¬ FirstByPath ls.flatten f := by
  obtain ⟨⟨out, f⟩, k1, k2⟩ := Sample.ok_of_check (r := Sample.noting [] [Sample.far, Sample.farCopy])
    (f := fun x => decide (x.2.map Prod.snd = [Sample.far.line])) (by decide +kernel)
  have k2 := of_decide_eq_true k2
  refine ⟨_, _, _, _, _, out, f, Sample.found_noting _ _, Sample.hasFetch_noting ?_, Sample.outside_noting _ _, k1, rfl, k2, ?_⟩
  · intro e he
    have : e = Sample.far ∨ e = Sample.farCopy := by simpa using he
    rcases this with rfl | rfl
    · exact Sample.plain_far
    · exact Sample.plain_farCopy
  · intro h
    have := (h Sample.farCopy.line).2 ⟨Sample.farCopy, by simp, by decide, rfl⟩
    rw [k2] at this
    exact absurd this (by decide)

/-- C116: a blank line in a fetch file of a member makes `restore_member` with a dictionary raise an error, after the
files are copied, although the bag can be read and `restore` does with the line. -/
theorem C116_negation_blank : ∃ (E : RestoreEnv) (name : Str) (src : RSource) (d out : Tree),
    E.find name = some src ∧ src.tree.read [py!"fetch.txt"] = some (Sample.far.line ++ ['\n']) ∧
    restoreMember E name [] false d = .ok out ∧ (∃ out', restoreFetch E [name] d = .ok out') ∧
    restoreMemberNoting E name [] false (d, []) = .error .indexError := by
  let E : RestoreEnv := { Sample.renv with find := fun _ => some ⟨py!"/store/m2",
    Sample.m2 ++ [([py!"fetch.txt"], .file (Sample.far.line ++ ['\n']))]⟩ }
  obtain ⟨out, h, _⟩ := Sample.ok_of_check (r := restoreMember E py!"m2" [] false Sample.hb) (f := fun _ => true) (by decide +kernel)
  obtain ⟨out', h', _⟩ := Sample.ok_of_check (r := restoreFetch E [py!"m2"] Sample.hb) (f := fun _ => true) (by decide +kernel)
  exact ⟨E, py!"m2", _, Sample.hb, out, rfl, by decide, h, ⟨out', h'⟩, by decide +kernel⟩

end Verif
