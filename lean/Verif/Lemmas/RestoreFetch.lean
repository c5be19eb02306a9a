import Verif.Lemmas.RestoreWhole
import Verif.Props.RestoreInfo
/-!
# Lemmas on fetch lists
-/

namespace Verif

open Spec

theorem finishRestore_fetch {E : RestoreEnv} {us rm : Bool} {d out : Tree} (h : finishRestore E us rm d = .ok out) :
    dget out [py!"fetch.txt"] = dget d [py!"fetch.txt"] := by
  have ns : ∀ (b : RBag), TagName b.tagFile → ¬ Saved b [py!"fetch.txt"] := by
    rintro b hb (e | ⟨a, e⟩)
    · rcases hb with h | h <;> rw [h] at e <;> simp at e
    · unfold manPath at e; simp at e
  unfold finishRestore at h
  cases hb : openBag E.base d with
  | error e => rw [hb] at h; cases h
  | ok b =>
    rw [hb] at h
    simp only at h
    obtain ⟨hbt, hbl, htf, _⟩ := openBag_parts hb
    have hb0 : SaveOk E b := ⟨tagFileName_cases htf, algorithms_sub hbl⟩
    cases h1 : (if rm = true then removeTags E b else .ok b) with
    | error e => rw [h1] at h; cases h
    | ok b1 =>
      rw [h1] at h
      simp only at h
      have r1 : SaveOk E b1 ∧ dget b1.tree [py!"fetch.txt"] = dget d [py!"fetch.txt"] := by
        by_cases hr : rm = true
        · rw [if_pos hr] at h1
          unfold removeTags at h1
          cases ht : b.tree.rmtree [py!"multibag"] with
          | error e => rw [ht] at h1; cases h1
          | ok t =>
            rw [ht] at h1
            simp only at h1
            have hs : SaveOk E { b with tree := t, info := multibagKeys.foldl ddel b.info } := ⟨hb0.tag, hb0.algs⟩
            obtain ⟨s1, s2, s3, s4, s5, s6, s7⟩ := saveBag_spec h1 hs
            refine ⟨s1, ?_⟩
            rw [s4 _ (ns _ hs.tag), rmtree_dget ht, if_neg (by decide), hbt]
        · rw [if_neg hr] at h1
          cases h1
          exact ⟨hb0, by rw [hbt]⟩
      cases h2 : (if us = true then updateSizes E b1 else .ok b1) with
      | error e => rw [h2] at h; cases h
      | ok b2 =>
        rw [h2] at h
        cases h
        rw [← r1.2]
        by_cases hu : us = true
        · rw [if_pos hu] at h2
          unfold updateSizes at h2
          cases h3 : saveBag E { b1 with info := dset b1.info py!"Payload-Oxum" (.one (oxumText E.blen b1.tree)) } with
          | error e => rw [h3] at h2; cases h2
          | ok b3 =>
            rw [h3] at h2
            simp only at h2
            obtain ⟨s1, s2, s3, s4, s5, s6, s7⟩ := saveBag_spec h3 ⟨r1.1.tag, r1.1.algs⟩
            obtain ⟨u1, u2, u3, u4, u5, u6, u7⟩ := saveBag_spec h2 ⟨s1.tag, s1.algs⟩
            rw [u4 _ (ns _ s1.tag), s4 _ (ns _ r1.1.tag)]
        · rw [if_neg hu] at h2
          cases h2; rfl

/-! ## Entries -/

/-- Replacing or appending an entry, as `dset` does. -/
def setFetch : List FetchEntry → FetchEntry → List FetchEntry
  | [], e => [e]
  | x :: r, e => if x.path = e.path then e :: r else x :: setFetch r e

def FetchEntry.pair (e : FetchEntry) : Str × Str := (e.path, e.line)

theorem dset_pairs (es : List FetchEntry) (e : FetchEntry) :
    dset (es.map FetchEntry.pair) e.path e.line = (setFetch es e).map FetchEntry.pair := by
  induction es with
  | nil => rfl
  | cons x es ih =>
    simp only [List.map_cons, dset, FetchEntry.pair, setFetch]
    split
    · rename_i hx; rw [hx]; rfl
    · rw [List.map_cons]
      congr 1

theorem lastEntry_append (a b : List FetchEntry) (p : Str) :
    lastEntry (a ++ b) p = (lastEntry b p).or (lastEntry a p) := by
  induction a with
  | nil => simp [lastEntry]
  | cons x a ih => simp only [List.cons_append, lastEntry, ih, Option.or_assoc]

theorem lastEntry_some {es : List FetchEntry} {p : Str} {e : FetchEntry} (h : lastEntry es p = some e) :
    e ∈ es ∧ e.path = p := by
  induction es with
  | nil => cases h
  | cons x es ih =>
    simp only [lastEntry] at h
    cases hx : lastEntry es p with
    | none =>
      rw [hx, Option.none_or] at h
      split at h
      · rename_i hp; cases h; exact ⟨List.mem_cons_self, hp⟩
      · cases h
    | some y =>
      rw [hx, Option.some_or] at h
      cases h
      exact ⟨List.mem_cons_of_mem _ (ih hx).1, (ih hx).2⟩

theorem lastEntry_none {es : List FetchEntry} {p : Str} : lastEntry es p = none ↔ ∀ e ∈ es, e.path ≠ p := by
  induction es with
  | nil => simp [lastEntry]
  | cons x es ih =>
    simp only [lastEntry, Option.or_eq_none_iff, ih, List.forall_mem_cons]
    constructor
    · rintro ⟨h1, h2⟩
      refine ⟨fun e => ?_, h1⟩
      rw [if_pos e] at h2; cases h2
    · rintro ⟨h1, h2⟩
      exact ⟨h2, by rw [if_neg h1]⟩

/-- Where all entries for a path are the same, the last one is any of them. -/
theorem lastEntry_of_mem {es : List FetchEntry} {e : FetchEntry} (he : e ∈ es)
    (h : ∀ x ∈ es, x.path = e.path → x = e) : lastEntry es e.path = some e := by
  cases hx : lastEntry es e.path with
  | none => exact absurd rfl (lastEntry_none.1 hx e he)
  | some y =>
    obtain ⟨h1, h2⟩ := lastEntry_some hx
    rw [h y h1 h2]

theorem mem_setFetch {es : List FetchEntry} {e x : FetchEntry} (h : x ∈ setFetch es e) : x ∈ es ∨ x = e := by
  induction es with
  | nil => simp only [setFetch, List.mem_singleton] at h; exact .inr h
  | cons y es ih =>
    simp only [setFetch] at h
    split at h
    · rcases List.mem_cons.1 h with h' | h'
      · exact .inr h'
      · exact .inl (List.mem_cons_of_mem _ h')
    · rcases List.mem_cons.1 h with h' | h'
      · exact .inl (h' ▸ List.mem_cons_self)
      · rcases ih h' with h' | h'
        · exact .inl (List.mem_cons_of_mem _ h')
        · exact .inr h'

theorem lastEntry_setFetch {es : List FetchEntry} {e : FetchEntry} (hn : (es.map FetchEntry.path).Nodup) (p : Str) :
    lastEntry (setFetch es e) p = if e.path = p then some e else lastEntry es p := by
  induction es with
  | nil => simp [setFetch, lastEntry]
  | cons x es ih =>
    simp only [List.map_cons, List.nodup_cons] at hn
    simp only [setFetch]
    by_cases hx : x.path = e.path
    · rw [if_pos hx]
      simp only [lastEntry]
      by_cases hp : e.path = p
      · rw [if_pos hp]
        have : lastEntry es p = none := lastEntry_none.2 (fun y hy hyp => hn.1 (by
          rw [hx, hp, ← hyp]; exact List.mem_map.2 ⟨y, hy, rfl⟩))
        rw [this, if_pos hp]; rfl
      · have hxp : x.path ≠ p := by rw [hx]; exact hp
        simp [hp, hxp]
    · rw [if_neg hx]
      simp only [lastEntry, ih hn.2]
      by_cases hp : e.path = p
      · simp [hp]
      · simp [hp]

theorem nodup_setFetch {es : List FetchEntry} {e : FetchEntry} (hn : (es.map FetchEntry.path).Nodup) :
    ((setFetch es e).map FetchEntry.path).Nodup := by
  induction es with
  | nil => simp [setFetch]
  | cons x es ih =>
    simp only [List.map_cons, List.nodup_cons] at hn
    simp only [setFetch]
    split
    · rename_i hx
      simp only [List.map_cons, List.nodup_cons]
      rw [← hx]; exact hn
    · rename_i hx
      simp only [List.map_cons, List.nodup_cons]
      refine ⟨fun hm => ?_, ih hn.2⟩
      obtain ⟨y, hy, hyp⟩ := List.mem_map.1 hm
      rcases mem_setFetch hy with h | h
      · exact hn.1 (List.mem_map.2 ⟨y, h, hyp⟩)
      · subst h; exact hx hyp.symm

def setFetches (es0 es : List FetchEntry) : List FetchEntry := es.foldl setFetch es0

theorem setFetches_spec {es0 : List FetchEntry} (hn : (es0.map FetchEntry.path).Nodup) (es : List FetchEntry) :
    ((setFetches es0 es).map FetchEntry.path).Nodup ∧ ∀ p, lastEntry (setFetches es0 es) p = lastEntry (es0 ++ es) p := by
  induction es generalizing es0 with
  | nil => exact ⟨hn, fun p => by rw [List.append_nil]; rfl⟩
  | cons e es ih =>
    obtain ⟨h1, h2⟩ := ih (nodup_setFetch (e := e) hn)
    refine ⟨h1, fun p => ?_⟩
    have : setFetches es0 (e :: es) = setFetches (setFetch es0 e) es := rfl
    rw [this, h2 p, lastEntry_append, lastEntry_append, lastEntry_setFetch hn]
    simp only [lastEntry]
    by_cases hp : e.path = p
    · simp [hp]
    · simp [hp]

/-! ## Lines -/

theorem lastWord_line {e : FetchEntry} (he : e.Plain) : lastWord e.line = some e.path := by
  obtain ⟨hu, hs, hp⟩ := he
  have hl : e.line = (e.url ++ ' ' :: (e.size ++ ' ' :: e.path)) ++ ['\n'] := rfl
  have ht : Trimmed (e.url ++ ' ' :: (e.size ++ ' ' :: e.path)) := by
    constructor
    · intro c hc
      cases hx : e.url with
      | nil => exact absurd hx hu.1
      | cons a w =>
        rw [hx] at hc
        simp only [List.cons_append, List.head?_cons, Option.some.injEq] at hc
        exact hu.2 c (by rw [hx, hc]; exact List.mem_cons_self)
    · intro c hc
      have : (e.url ++ ' ' :: (e.size ++ ' ' :: e.path)) = (e.url ++ ' ' :: (e.size ++ [' '])) ++ e.path := by simp
      rw [this, List.getLast?_append] at hc
      cases hx : e.path.getLast? with
      | none => exact absurd (List.getLast?_eq_none_iff.1 hx) hp.1
      | some y =>
        rw [hx, Option.some_or] at hc
        cases hc
        exact hp.2 _ (List.mem_of_getLast? hx)
  have hstrip : strip e.line = e.url ++ ' ' :: (e.size ++ ' ' :: e.path) := by
    rw [hl, strip_append_space (by decide), strip_of_trimmed ht]
  unfold lastWord
  rw [hstrip]
  have hrev : (e.url ++ ' ' :: (e.size ++ ' ' :: e.path)).reverse = e.path.reverse ++ ' ' :: (e.size.reverse ++ ' ' :: e.url.reverse) := by
    simp
  have htw : (e.url ++ ' ' :: (e.size ++ ' ' :: e.path)).reverse.takeWhile (fun c => !isSpace c) = e.path.reverse := by
    rw [hrev, List.takeWhile_append_of_pos]
    · have : List.takeWhile (fun c => !isSpace c) (' ' :: (e.size.reverse ++ ' ' :: e.url.reverse)) = [] := by
        rw [List.takeWhile_cons_of_neg (by decide)]
      rw [this, List.append_nil]
    · intro c hc
      rw [hp.2 c (List.mem_reverse.1 hc)]; rfl
  simp only [htw]
  rw [if_neg, List.reverse_reverse]
  intro h
  have := congrArg List.length h
  simp at this

theorem line_no_nl {e : FetchEntry} (he : e.Plain) : ∀ c ∈ e.url ++ ' ' :: (e.size ++ ' ' :: e.path), isNl c = false := by
  obtain ⟨hu, hs, hp⟩ := he
  have key : ∀ c, isSpace c = false → isNl c = false := by
    intro c hc
    cases hn : isNl c with
    | false => rfl
    | true =>
      have : c = '\n' ∨ c = '\r' := by simpa [isNl] using hn
      rcases this with rfl | rfl <;> exact absurd hc (by decide)
  intro c hc
  simp only [List.mem_append, List.mem_cons] at hc
  rcases hc with h | h | h | h | h
  · exact key c (hu.2 c h)
  · subst h; decide
  · exact key c (hs.2 c h)
  · subst h; decide
  · exact key c (hp.2 c h)

theorem fetchText_no_cr {es : List FetchEntry} (h : ∀ e ∈ es, e.Plain) : '\r' ∉ fetchText es := by
  intro hc
  obtain ⟨l, hl, hcl⟩ := List.mem_flatten.1 hc
  obtain ⟨e, he, rfl⟩ := List.mem_map.1 hl
  rcases List.mem_append.1 hcl with h' | h'
  · exact absurd (line_no_nl (h e he) _ h') (by decide)
  · simp at h'

theorem lines_fetchText {es : List FetchEntry} (h : ∀ e ∈ es, e.Plain) :
    textLines .universal (fetchText es) = es.map FetchEntry.line := by
  have e : es.map FetchEntry.line = (es.map (fun e : FetchEntry => e.url ++ ' ' :: (e.size ++ ' ' :: e.path))).map (· ++ ['\n']) := by
    rw [List.map_map]; rfl
  unfold fetchText
  rw [e]
  refine textLines_universal _ ?_
  intro l hl c hc
  obtain ⟨x, hx, rfl⟩ := List.mem_map.1 hl
  exact line_no_nl (h x hx) c hc

theorem addFetch_text {es es0 : List FetchEntry} (h : ∀ e ∈ es, e.Plain) :
    addFetch (fetchText es) (es0.map FetchEntry.pair) = (setFetches es0 es).map FetchEntry.pair := by
  unfold addFetch
  rw [lines_fetchText h, List.foldl_map]
  induction es generalizing es0 with
  | nil => rfl
  | cons e es ih =>
    simp only [List.foldl_cons]
    rw [lastWord_line (h e List.mem_cons_self)]
    simp only
    rw [dset_pairs, ih (fun x hx => h x (List.mem_cons_of_mem _ hx))]
    rfl

theorem fetchText_eq_nil {es : List FetchEntry} (h : fetchText es = []) : es = [] := by
  cases es with
  | nil => rfl
  | cons e es =>
    unfold fetchText at h
    simp [FetchEntry.line] at h

theorem collectFetch_spec {E : RestoreEnv} {names : List Str} {srcs : List RSource} {ls : List (List FetchEntry)}
    (hf : Forall₂ (fun n s => E.find n = some s) names srcs)
    (hl : Forall₂ (fun s l => HasFetch s.tree l) srcs ls) {es0 : List FetchEntry} {f : List (Str × Str)}
    (h : collectFetch E names (es0.map FetchEntry.pair) = .ok f) :
    f = (setFetches es0 ls.flatten).map FetchEntry.pair := by
  induction hf generalizing es0 ls with
  | nil => cases hl; cases h; rfl
  | @cons n s names srcs hn hf ih =>
    cases hl with
    | @cons _ l _ ls hsl hl =>
      simp only [collectFetch, hn] at h
      split at h
      · cases h
      · have hnext : collectFetch E names ((setFetches es0 l).map FetchEntry.pair) = .ok f := by
          cases hr : s.tree.read [py!"fetch.txt"] with
          | none =>
            have := hsl.1
            rw [hr] at this
            rw [hr] at h
            rw [fetchText_eq_nil (es := l) this.symm]
            exact h
          | some text =>
            have := hsl.1
            rw [hr] at this
            simp only [Option.getD_some] at this
            subst this
            rw [hr] at h
            rw [← addFetch_text hsl.2]
            exact h
        have := ih hl hnext
        rw [this, List.flatten_cons]
        unfold setFetches
        rw [List.foldl_append]

theorem flatten_pairs (es : List FetchEntry) : ((es.map FetchEntry.pair).map Prod.snd).flatten = fetchText es := by
  rw [List.map_map]; rfl

end Verif
