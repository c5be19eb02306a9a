import Verif.Spec.ReadBag
import Verif.Lemmas.Paths
/-!
# Lemmas about reading a bag
-/

namespace Verif
open Spec

/-! ## Words -/

theorem splitWsMax_nil (n : Nat) : splitWsMax n [] = [] := by
  cases n <;> rfl

theorem mem_takeWhile {p : Char → Bool} {l : Str} {c : Char} (h : c ∈ l.takeWhile p) : p c = true := by
  induction l with
  | nil => simp at h
  | cons x l ih =>
    rw [List.takeWhile_cons] at h
    split at h
    · next hx =>
      rcases List.mem_cons.1 h with rfl | h
      · exact hx
      · exact ih h
    · simp at h

theorem getLast?_app {a b : Str} (hb : b ≠ []) : (a ++ b).getLast? = b.getLast? := by
  rw [List.getLast?_append]
  cases hc : b.getLast? with
  | none => exact absurd (List.getLast?_eq_none_iff.1 hc) hb
  | some x => rfl

theorem lstripBy_of_head {s : Str} (h : ∀ c ∈ s.head?, isSpace c = false) : lstripBy isSpace s = s :=
  dropWhile_eq_self_of_head h

theorem splitWsMax_zero {s : Str} (hne : s ≠ []) (h : ∀ c ∈ s.head?, isSpace c = false) :
    splitWsMax 0 s = [s] := by
  unfold splitWsMax
  simp only [lstripBy_of_head h]
  cases s with
  | nil => exact absurd rfl hne
  | cons => rfl

theorem splitWsMax_lstrip (n : Nat) (s : Str) : splitWsMax n (lstripBy isSpace s) = splitWsMax n s := by
  have h : lstripBy isSpace (lstripBy isSpace s) = lstripBy isSpace s := by
    refine lstripBy_of_head ?_
    intro c hc
    exact dropWhile_head_not c hc
  cases n <;> (unfold splitWsMax; simp only [h])

theorem splitWsMax_succ {n : Nat} {s : Str} (hne : s ≠ []) (h : ∀ c ∈ s.head?, isSpace c = false) :
    splitWsMax (n + 1) s = s.takeWhile (fun c => !isSpace c) ::
      splitWsMax n (s.dropWhile (fun c => !isSpace c)) := by
  conv => lhs; unfold splitWsMax
  simp only [lstripBy_of_head h]
  cases s with
  | nil => exact absurd rfl hne
  | cons => rfl

theorem word_head {w r : Str} (hw : Word w) : ∀ c ∈ (w ++ r).head?, isSpace c = false := by
  intro c hc
  cases w with
  | nil => exact absurd rfl hw.1
  | cons x w => simp only [List.cons_append, List.head?_cons, Option.mem_some] at hc; subst hc; exact hw.2 _ (by simp)

theorem takeWhile_word {w r : Str} (hw : Word w) (hr : ∀ c ∈ r.head?, isSpace c = true) :
    (w ++ r).takeWhile (fun c => !isSpace c) = w ∧ (w ++ r).dropWhile (fun c => !isSpace c) = r := by
  have h : ∀ c ∈ w, (!isSpace c) = true := by intro c hc; simp [hw.2 c hc]
  rw [List.takeWhile_append_of_pos h, List.dropWhile_append_of_pos h]
  cases r with
  | nil => simp
  | cons x r =>
    have hx : isSpace x = true := hr x (by simp)
    simp [hx]

/-- Splitting off a word. -/
theorem splitWsMax_word {n : Nat} {w gap r : Str} (hw : Word w) (hg : Gap gap) :
    splitWsMax (n + 1) (w ++ (gap ++ r)) = w :: splitWsMax n r := by
  have hh : ∀ c ∈ (gap ++ r).head?, isSpace c = true := by
    intro c hc
    cases gap with
    | nil => exact absurd rfl hg.1
    | cons x g => simp only [List.cons_append, List.head?_cons, Option.mem_some] at hc; subst hc; exact hg.2 _ (by simp)
  obtain ⟨e1, e2⟩ := takeWhile_word hw hh
  rw [splitWsMax_succ (by simp [hw.1]) (word_head hw), e1, e2, ← splitWsMax_lstrip]
  have : lstripBy isSpace (gap ++ r) = lstripBy isSpace r := dropWhile_append_all hg.2
  rw [this, splitWsMax_lstrip]

/-- Taking a word off a string that does not start with whitespace. -/
theorem word_split {s : Str} (hne : s ≠ []) (h : ∀ c ∈ s.head?, isSpace c = false) :
    ∃ w r, s = w ++ r ∧ Word w ∧ (∀ c ∈ r.head?, isSpace c = true) := by
  refine ⟨s.takeWhile (fun c => !isSpace c), s.dropWhile (fun c => !isSpace c), List.takeWhile_append_dropWhile.symm, ⟨?_, ?_⟩, ?_⟩
  · cases s with
    | nil => exact absurd rfl hne
    | cons x s =>
      have : isSpace x = false := h x (by simp)
      simp [this]
  · intro c hc
    simpa using mem_takeWhile hc
  · intro c hc
    have := dropWhile_head_not c hc
    simpa using this

/-- Taking the whitespace off a string that is empty or starts with whitespace. -/
theorem gap_split {r : Str} (h : ∀ c ∈ r.head?, isSpace c = true) :
    r = [] ∨ ∃ gap r', r = gap ++ r' ∧ Gap gap ∧ (∀ c ∈ r'.head?, isSpace c = false) ∧ r' = lstripBy isSpace r := by
  cases r with
  | nil => exact .inl rfl
  | cons x r =>
    right
    have hx : isSpace x = true := h x (by simp)
    refine ⟨(x :: r).takeWhile isSpace, (x :: r).dropWhile isSpace, List.takeWhile_append_dropWhile.symm,
      ⟨by simp [hx], fun c hc => mem_takeWhile hc⟩, fun c hc => dropWhile_head_not c hc, rfl⟩

theorem trimmed_head {s : Str} (h : Trimmed s) : ∀ c ∈ s.head?, isSpace c = false := h.1

theorem trimmed_tail {a b : Str} (h : Trimmed (a ++ b)) (hb : ∀ c ∈ b.head?, isSpace c = false) : Trimmed b := by
  refine ⟨hb, ?_⟩
  intro c hc
  refine h.2 c ?_
  cases b with
  | nil => simp at hc
  | cons x b => rw [getLast?_app (by simp)]; exact hc

/-- Splitting a trimmed string that is not empty into a word and the rest. -/
theorem splitWsMax_trimmed {s : Str} (hne : s ≠ []) (h : Trimmed s) :
    (Word s ∧ ∀ n, splitWsMax (n + 1) s = [s]) ∨
    ∃ w gap r, s = w ++ (gap ++ r) ∧ Word w ∧ Gap gap ∧ Value r ∧ ∀ n, splitWsMax (n + 1) s = w :: splitWsMax n r := by
  obtain ⟨w, r, rfl, hw, hr⟩ := word_split hne h.1
  rcases gap_split hr with rfl | ⟨gap, r', rfl, hg, hr', _⟩
  · left
    rw [List.append_nil] at h ⊢
    refine ⟨hw, fun n => ?_⟩
    obtain ⟨e1, e2⟩ := takeWhile_word (r := []) hw (by simp)
    rw [List.append_nil] at e1 e2
    rw [splitWsMax_succ hw.1 (by simpa using word_head (r := []) hw), e1, e2, splitWsMax_nil]
  · right
    refine ⟨w, gap, r', rfl, hw, hg, ⟨?_, ?_⟩, fun n => splitWsMax_word hw hg⟩
    · rintro rfl
      rw [List.append_nil] at h
      obtain ⟨g, x, rfl⟩ := exists_concat hg.1
      have := h.2 x (by simp [← List.append_assoc])
      rw [hg.2 x (by simp)] at this
      cases this
    · rw [← List.append_assoc] at h
      exact trimmed_tail h hr'

theorem value_split {s : Str} (h : Value s) : splitWsMax 0 s = [s] := splitWsMax_zero h.1 h.2.1

theorem trimmed_words {w gap r : Str} (hw : Word w) (hr : Value r) : Trimmed (w ++ gap ++ r) := by
  refine ⟨?_, ?_⟩
  · rw [List.append_assoc]; exact word_head hw
  · intro c hc
    refine hr.2.2 c ?_
    rwa [getLast?_app hr.1] at hc

theorem word_value {w : Str} (h : Word w) : Value w :=
  ⟨h.1, trimmed_of_no_space h.2⟩

/-! ## Manifest lines -/

theorem manifestLine_iff {line h p : Str} : manifestLine line = some (h, p) ↔ Lists line h p := by
  unfold manifestLine
  simp only
  constructor
  · intro e
    split at e
    · cases e
    · next hc =>
      simp only [Bool.or_eq_true, decide_eq_true_eq, not_or] at hc
      obtain ⟨a, b, hl, ha, hb⟩ := strip_decomp line
      split at e
      · next h' q hs =>
        rcases splitWsMax_trimmed hc.1 (trimmed_strip line) with ⟨_, hn⟩ | ⟨w, gap, r, hw, h1, h2, h3, hn⟩
        · rw [hn 0] at hs; cases hs
        · rw [hn 0, value_split h3] at hs
          cases hs
          cases e
          refine ⟨a, gap, _, b, ?_, ha, hb, h1, ?_, h2, h3, rfl⟩
          · rw [← List.append_assoc] at hw; rw [← hw]; exact hl
          · have := hc.2
            rw [hw] at this
            cases hh : h with
            | nil => exact absurd hh h1.1
            | cons x w' => rw [hh] at this; simpa using this
      · cases e
  · rintro ⟨a, gap, path, b, rfl, ha, hb, hw, hh, hg, hv, rfl⟩
    have ht := trimmed_words (gap := gap) hw hv
    rw [strip_surround ha hb, strip_of_trimmed ht]
    have hne : h ++ gap ++ path ≠ [] := by simp [hw.1]
    have hhd : (h ++ gap ++ path).head? ≠ some '#' := by
      cases h with
      | nil => exact absurd rfl hw.1
      | cons x h => simpa using hh
    rw [if_neg (by simpa [hw.1] using hhd), List.append_assoc, splitWsMax_word hw hg, value_split hv]
    rfl

theorem lists_unique {line h p h' p' : Str} (a : Lists line h p) (b : Lists line h' p') : h = h' ∧ p = p' := by
  have := (manifestLine_iff.2 a).symm.trans (manifestLine_iff.2 b)
  cases this
  exact ⟨rfl, rfl⟩

/-! ## Loading -/

/-- What `addEntry` does to a lookup. -/
theorem addEntry_ok {dangerous : Str → Bool} {v1 : Bool} {alg : Str} {es : Entries} {h p : Str} :
    (∃ es', addEntry dangerous v1 alg es (h, p) = .ok es') ↔
      dangerous p = false ∧ ∀ h', es.look p alg = some h' → h' = h ∧ v1 = false := by
  unfold addEntry Entries.look
  simp only
  cases hd : dangerous p with
  | true => simp
  | false =>
    simp only [Bool.false_eq_true, if_false, true_and]
    cases hl : dget ((dget es p).getD []) alg with
    | none => simp
    | some h' =>
      simp only [Option.some.injEq, forall_eq']
      by_cases e : h' = h
      · rw [if_pos e]
        cases v1 <;> simp [e]
      · rw [if_neg e]; simp [e]

theorem addEntry_look {dangerous : Str → Bool} {v1 : Bool} {alg : Str} {es es' : Entries} {h p : Str}
    (e : addEntry dangerous v1 alg es (h, p) = .ok es') (q a : Str) :
    es'.look q a = if q = p ∧ a = alg then some h else es.look q a := by
  have key : es' = dset es p (dset ((dget es p).getD []) alg h) := by
    unfold addEntry at e
    simp only at e
    split at e
    · cases e
    · split at e
      · cases e; rfl
      · split at e
        · split at e
          · cases e
          · cases e; rfl
        · cases e
  subst key
  unfold Entries.look
  rw [dget_dset]
  by_cases hq : q = p
  · subst hq
    simp only [if_true, Option.getD_some, dget_dset, true_and]
    by_cases e : a = alg
    · rw [if_pos e.symm, if_pos e]
    · rw [if_neg (Ne.symm e), if_neg e]
  · rw [if_neg (Ne.symm hq), if_neg (fun h => hq h.1)]

/-- Records in reading order: algorithm, checksum, path. -/
def records (ls : List (Str × Str)) : List (Str × Str × Str) :=
  ls.filterMap (fun al => (manifestLine al.2).map (fun e => (al.1, e)))

/-- Adding records one by one. -/
def addAll (dangerous : Str → Bool) (v1 : Bool) : List (Str × Str × Str) → Entries → Except PyErr Entries
  | [], es => .ok es
  | (alg, e) :: rest, es =>
    match addEntry dangerous v1 alg es e with
    | .error x => .error x
    | .ok es => addAll dangerous v1 rest es

theorem addAll_append (dangerous : Str → Bool) (v1 : Bool) (a b : List (Str × Str × Str)) (es : Entries) :
    addAll dangerous v1 (a ++ b) es =
      match addAll dangerous v1 a es with
      | .error x => .error x
      | .ok es => addAll dangerous v1 b es := by
  induction a generalizing es with
  | nil => rfl
  | cons r a ih =>
    obtain ⟨alg, e⟩ := r
    simp only [List.cons_append, addAll]
    cases addEntry dangerous v1 alg es e with
    | error x => rfl
    | ok es' => exact ih es'

theorem loadLines_eq (dangerous : Str → Bool) (v1 : Bool) (alg : Str) (ls : List Str) (es : Entries) :
    loadLines dangerous v1 alg ls es = addAll dangerous v1 (records (ls.map (fun l => (alg, l)))) es := by
  induction ls generalizing es with
  | nil => rfl
  | cons l ls ih =>
    unfold loadLines records
    rw [List.map_cons]
    cases hm : manifestLine l with
    | none =>
      rw [List.filterMap_cons_none (by simp [hm])]
      exact ih es
    | some e =>
      rw [List.filterMap_cons_some (b := (alg, e)) (by simp [hm])]
      simp only [addAll]
      cases addEntry dangerous v1 alg es e with
      | error x => rfl
      | ok es' => exact ih es'

theorem loadFiles_eq (dangerous : Str → Bool) (v1 : Bool) (enc : Str) (t : Tree) (fs : List (Str × Path)) (es : Entries) :
    loadFiles dangerous v1 enc t fs es =
      addAll dangerous v1 (records (fs.flatMap (fun f =>
        (manifestLines enc ((t.read f.2).getD [])).map (fun l => (f.1, l))))) es := by
  induction fs generalizing es with
  | nil => rfl
  | cons f fs ih =>
    obtain ⟨alg, p⟩ := f
    unfold loadFiles
    rw [List.flatMap_cons, records, List.filterMap_append, addAll_append, loadLines_eq]
    unfold records
    cases addAll dangerous v1 _ es with
    | error x => rfl
    | ok es' => exact ih es'

theorem isfile_eq_isSome (t : Tree) (p : Path) : t.isfile p = (t.read p).isSome := by
  unfold Tree.isfile Tree.read
  cases dget t p with
  | none => rfl
  | some n => cases n <;> rfl

theorem flatMap_filter_read (enc kind : Str) (t : Tree) (algs : List Str) :
    ((algs.map (fun a => (a, [kind ++ '-' :: a ++ py!".txt"]))).filter (fun e => t.isfile e.2)).flatMap (fun f =>
        (manifestLines enc ((t.read f.2).getD [])).map (fun l => (f.1, l))) =
    algs.flatMap (fun alg =>
      match t.read [kind ++ '-' :: alg ++ py!".txt"] with
      | some text => (manifestLines enc text).map (fun l => (alg, l))
      | none => []) := by
  induction algs with
  | nil => rfl
  | cons a algs ih =>
    rw [List.map_cons, List.flatMap_cons]
    cases hr : t.read [kind ++ '-' :: a ++ py!".txt"] with
    | none =>
      rw [List.filter_cons_of_neg (by rw [isfile_eq_isSome, hr]; simp), ih]
      rfl
    | some text =>
      rw [List.filter_cons_of_pos (by rw [isfile_eq_isSome, hr]; rfl), List.flatMap_cons, ih, hr]
      rfl

theorem loadManifests_eq (cfg : ReadCfg) (v : List Int) (enc : Str) (t : Tree) :
    (loadManifests cfg v enc t).map Prod.snd =
      addAll (isDangerous cfg.env cfg.bagpath) (tupLe [1] v) (records (manifestText cfg v enc t)) [] := by
  unfold loadManifests
  simp only
  rw [loadFiles_eq]
  have e : (manifestFiles cfg py!"manifest" t ++
      (if tupLe [0, 97] v then manifestFiles cfg py!"tagmanifest" t else [])).flatMap (fun f =>
        (manifestLines enc ((t.read f.2).getD [])).map (fun l => (f.1, l))) = manifestText cfg v enc t := by
    unfold manifestFiles manifestText
    rw [List.flatMap_append, flatMap_filter_read]
    have e1 : ∀ (kind : Str) (a : Str), kind ++ '-' :: a ++ py!".txt" = (kind ++ ['-']) ++ a ++ py!".txt" := by
      intro k a; simp
    congr 1
    unfold tupLe
    cases tupLt v [0, 97] with
    | true => rfl
    | false => exact flatMap_filter_read enc py!"tagmanifest" t cfg.algs
  rw [e]
  cases addAll (isDangerous cfg.env cfg.bagpath) (tupLe [1] v) (records (manifestText cfg v enc t)) [] <;> rfl

theorem addAll_ok {dangerous : Str → Bool} {v1 : Bool} {rs : List (Str × Str × Str)} {es : Entries} :
    (∃ es', addAll dangerous v1 rs es = .ok es') ↔
      (∀ r ∈ rs, dangerous r.2.2 = false) ∧
      rs.Pairwise (fun a b => a.1 = b.1 → a.2.2 = b.2.2 → a.2.1 = b.2.1 ∧ v1 = false) ∧
      (∀ r ∈ rs, ∀ h, es.look r.2.2 r.1 = some h → h = r.2.1 ∧ v1 = false) := by
  induction rs generalizing es with
  | nil => simp [addAll]
  | cons r rs ih =>
    obtain ⟨alg, h, p⟩ := r
    simp only [addAll]
    cases ha : addEntry dangerous v1 alg es (h, p) with
    | error x =>
      have hn : ¬ ∃ es', addEntry dangerous v1 alg es (h, p) = .ok es' := by
        rintro ⟨es', e⟩; rw [ha] at e; cases e
      rw [addEntry_ok] at hn
      simp only [reduceCtorEq, exists_false, false_iff]
      rintro ⟨h1, _, h3⟩
      exact hn ⟨h1 _ List.mem_cons_self, h3 _ List.mem_cons_self⟩
    | ok es' =>
      have hok := addEntry_ok.1 ⟨es', ha⟩
      have hl := addEntry_look ha
      simp only [ih, List.mem_cons, forall_eq_or_imp, List.pairwise_cons]
      constructor
      · rintro ⟨h1, h2, h3⟩
        refine ⟨⟨hok.1, h1⟩, ⟨?_, h2⟩, hok.2, ?_⟩
        · rintro ⟨alg', h', p'⟩ hm e1 e2
          simp only at e1 e2 ⊢
          subst e1; subst e2
          exact h3 _ hm h (by rw [hl]; simp)
        · rintro ⟨alg', h', p'⟩ hm h0 e0
          simp only at e0 ⊢
          by_cases e : p' = p ∧ alg' = alg
          · obtain ⟨rfl, rfl⟩ := e
            obtain ⟨rfl, hv⟩ := hok.2 h0 e0
            exact ⟨(h3 _ hm h0 (by rw [hl]; simp)).1, hv⟩
          · exact h3 _ hm h0 (by rw [hl, if_neg e]; exact e0)
      · rintro ⟨⟨_, h1⟩, ⟨h2, h2'⟩, h3, h3'⟩
        refine ⟨h1, h2', ?_⟩
        rintro ⟨alg', h', p'⟩ hm h0 e0
        simp only at e0 ⊢
        rw [hl] at e0
        split at e0
        · next e =>
          obtain ⟨rfl, rfl⟩ := e
          cases e0
          exact h2 _ hm rfl rfl
        · exact h3' _ hm h0 e0

theorem addAll_look {dangerous : Str → Bool} {v1 : Bool} {rs : List (Str × Str × Str)} {es es' : Entries}
    (h : addAll dangerous v1 rs es = .ok es') (p alg v : Str) :
    es'.look p alg = some v ↔ es.look p alg = some v ∨ (alg, v, p) ∈ rs := by
  induction rs generalizing es with
  | nil => simp only [addAll] at h; cases h; simp
  | cons r rs ih =>
    have hok := addAll_ok.1 ⟨es', h⟩
    obtain ⟨alg', v', p'⟩ := r
    simp only [addAll] at h
    cases ha : addEntry dangerous v1 alg' es (v', p') with
    | error x => rw [ha] at h; cases h
    | ok es1 =>
      rw [ha] at h
      rw [ih h, addEntry_look ha]
      simp only [List.mem_cons, Prod.mk.injEq]
      by_cases e : p = p' ∧ alg = alg'
      · obtain ⟨rfl, rfl⟩ := e
        simp only [and_self, if_true, Option.some.injEq, and_true, true_and]
        constructor
        · rintro (rfl | hm)
          · exact .inr (.inl rfl)
          · exact .inr (.inr hm)
        · rintro (hm | rfl | hm)
          · left; exact ((hok.2.2 _ List.mem_cons_self v hm).1).symm
          · exact .inl rfl
          · exact .inr hm
      · rw [if_neg e]
        constructor
        · rintro (h | h)
          · exact .inl h
          · exact .inr (.inr h)
        · rintro (h | ⟨rfl, rfl, rfl⟩ | h)
          · exact .inl h
          · exact absurd ⟨rfl, rfl⟩ e
          · exact .inr h

theorem mem_records {ls : List (Str × Str)} {alg h p : Str} :
    (alg, h, p) ∈ records ls ↔ ∃ line, (alg, line) ∈ ls ∧ Lists line h p := by
  unfold records
  rw [List.mem_filterMap]
  constructor
  · rintro ⟨⟨a, l⟩, hm, e⟩
    simp only [Option.map_eq_some_iff] at e
    obtain ⟨⟨h', p'⟩, e1, e2⟩ := e
    cases e2
    exact ⟨l, hm, manifestLine_iff.1 e1⟩
  · rintro ⟨l, hm, hl⟩
    exact ⟨(alg, l), hm, by simp [manifestLine_iff.2 hl]⟩

theorem pairwise_records {ls : List (Str × Str)} {R : Str × Str × Str → Str × Str × Str → Prop} :
    (records ls).Pairwise R ↔ ls.Pairwise (fun a b => ∀ h p h' p', Lists a.2 h p → Lists b.2 h' p' →
      R (a.1, h, p) (b.1, h', p')) := by
  unfold records
  rw [List.pairwise_filterMap]
  constructor
  · intro h
    refine h.imp ?_
    intro a b hab h p h' p' l l'
    exact hab _ (by simp [manifestLine_iff.2 l]) _ (by simp [manifestLine_iff.2 l'])
  · intro h
    refine h.imp ?_
    intro a b hab x hx y hy
    simp only [Option.map_eq_some_iff] at hx hy
    obtain ⟨⟨h1, p1⟩, e1, rfl⟩ := hx
    obtain ⟨⟨h2, p2⟩, e2, rfl⟩ := hy
    exact hab _ _ _ _ (manifestLine_iff.1 e1) (manifestLine_iff.1 e2)

end Verif
