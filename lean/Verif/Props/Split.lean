import Verif.Lemmas.Plan
/-!
# Properties of split plans (C24–C35)

`w` are the characters of the regular expression class `\w`; `listing` is the list of
files in whatever order the file system gives it.
-/

namespace Verif

open Spec

/-! ## Naming -/

/-- What naming leaves alone. -/
def Manifest.body (m : Manifest) : List Str × Nat := (m.contents, m.total)

theorem nameLoop_body (names : Nat → Option Str) (n : Nat) (ms : List Manifest) :
    (nameLoop names n ms).2.map Manifest.body = ms.map Manifest.body := by
  induction ms generalizing n with
  | nil => rfl
  | cons m ms ih =>
    simp only [nameLoop]
    split
    · rfl
    · simp only [List.map_cons, ih]; rfl

theorem nameOutputBags_body (names : Nat → Option Str) (rev : Bool) (ms : List Manifest) :
    (nameOutputBags names rev ms).2.map Manifest.body = ms.map Manifest.body := by
  unfold nameOutputBags
  split
  · simp only [List.map_reverse, nameLoop_body, List.reverse_reverse]
  · exact nameLoop_body _ _ _

theorem nameLoop_ok (names : Nat → Option Str) (n : Nat) (ms : List Manifest)
    (h : ∀ i, i < ms.length → (names (n + i)).isSome = true) :
    (nameLoop names n ms).1 = .ok () ∧
    (nameLoop names n ms).2.map (·.name) = (List.range ms.length).map (fun i => names (n + i)) := by
  induction ms generalizing n with
  | nil => exact ⟨rfl, rfl⟩
  | cons m ms ih =>
    have h0 := h 0 (by simp)
    simp only [nameLoop]
    cases hn : names n with
    | none => simp [hn] at h0
    | some name =>
      have := ih (n + 1) (fun i hi => by
        have := h (i + 1) (by simpa using hi)
        rwa [show n + (i + 1) = n + 1 + i by omega] at this)
      refine ⟨this.1, ?_⟩
      simp only [List.map_cons, this.2, List.length_cons, List.range_succ_eq_map, Nat.add_zero, hn, List.map_map]
      congr 1
      apply List.map_congr_left
      intro i _
      simp only [Function.comp]
      congr 1; omega

theorem nameLoop_short (names : Nat → Option Str) (n : Nat) (ms : List Manifest) (i : Nat) (hi : i < ms.length)
    (hlt : ∀ j, j < i → (names (n + j)).isSome = true) (hnone : names (n + i) = none) :
    (nameLoop names n ms).1 = .error (if n + i = 0 then .unboundLocalError else .runtimeError) := by
  induction ms generalizing n i with
  | nil => simp at hi
  | cons m ms ih =>
    simp only [nameLoop]
    cases i with
    | zero =>
      simp only [Nat.add_zero] at hnone
      rw [hnone]; rfl
    | succ i =>
      have h0 := hlt 0 (by omega)
      cases hn : names n with
      | none => simp [hn] at h0
      | some name =>
        have := ih (n + 1) i (by simpa using hi)
          (fun j hj => by
            have := hlt (j + 1) (by omega)
            rwa [show n + (j + 1) = n + 1 + j by omega] at this)
          (by rwa [show n + (i + 1) = n + 1 + i by omega] at hnone)
        simp only [this]
        rw [if_neg (by omega), if_neg (by omega)]

theorem plan_body (s : Splitter) (w : Char → Bool) (bagName : Str) (size : Str → Nat) (t : Tree)
    (listing : List FInfo) (names : Nat → Option Str) :
    (s.plan w bagName size t listing names).2.map Manifest.body =
      (s.createPlan w bagName size t listing).map Manifest.body := nameOutputBags_body _ _ _

theorem contents_of_body {a b : List Manifest} (h : a.map Manifest.body = b.map Manifest.body) :
    a.map (·.contents) = b.map (·.contents) := by
  have := congrArg (List.map Prod.fst) h
  rw [List.map_map, List.map_map] at this
  exact this

theorem contentsOf_of_body {a b : List Manifest} (h : a.map Manifest.body = b.map Manifest.body) :
    contentsOf a = contentsOf b := by
  have := congrArg List.flatten (contents_of_body h)
  simpa [contentsOf, List.flatMap] using this

theorem body_mem {a b : List Manifest} (h : a.map Manifest.body = b.map Manifest.body) {m : Manifest} (hm : m ∈ a) :
    ∃ m' ∈ b, m'.contents = m.contents ∧ m'.total = m.total := by
  have : m.body ∈ b.map Manifest.body := h ▸ List.mem_map_of_mem hm
  obtain ⟨m', h1, h2⟩ := List.mem_map.1 this
  simp [Manifest.body] at h2
  exact ⟨m', h1, h2.1, h2.2⟩

/-! ## C24 -/

/-- No file of the bag looks like one of BagIt's own files to the code's patterns without
being one. -/
def NoLookalike (w : Char → Bool) (t : Tree) : Prop := ∀ f, t.isfile [f] = true → TakenForReserved w f → Reserved w f

/-- No path asked for the head bag ends in a reserved name. -/
def HeadOrdinary (w : Char → Bool) (t : Tree) (forhead : List Str) : Prop :=
  ∀ d f, t.isfile (d ++ [f]) = true → ('/' :: joinPath (d ++ [f])) ∈ forhead → ¬ TakenForReserved w f

theorem mem_createPlan (s : Splitter) (w : Char → Bool) (hw : w '/' = false) (bagName : Str) (size : Str → Nat)
    {t : Tree} {listing : List FInfo} (h : WfTree t) (hl : listing.Perm (treeListing size t))
    (look : NoLookalike w t) (head : HeadOrdinary w t s.forhead) {x : Str} :
    x ∈ contentsOf (s.createPlan w bagName size t listing) ↔ ∃ p, ToPlace w t p ∧ x = joinPath p := by
  unfold Splitter.createPlan
  rw [contentsOf_completePlan, List.mem_append, mem_missing, mem_main s w size h hl, mem_nonstandard h]
  constructor
  · rintro (⟨q, hf, hs, _, rfl⟩ | ⟨⟨d, f, hf, hs, rfl⟩ | ⟨d, hd, rfl⟩, _⟩)
    · refine ⟨q, .inl ⟨hf, ?_⟩, rfl⟩
      rintro ⟨f, rfl, hr⟩
      rw [show joinPath [f] = f from rfl, reserved_special hr] at hs
      cases hs
    · refine ⟨_, .inl ⟨hf, ?_⟩, rfl⟩
      rintro ⟨f', e, hr⟩
      have := congrArg List.getLast? e
      simp at this
      subst this
      rw [reserved_special hr] at hs
      cases hs
    · exact ⟨d, .inr hd, rfl⟩
  · rintro ⟨p, hp | hp, rfl⟩
    · obtain ⟨hf, hr⟩ := hp
      have hne : p ≠ [] := (isfile_good h hf).1
      by_cases hs : specialName w (joinPath p) = false
      · by_cases hh : ('/' :: joinPath p) ∈ s.forhead
        · right
          obtain ⟨d, f, rfl⟩ := exists_concat hne
          refine ⟨.inl ⟨d, f, hf, not_special_iff.2 (head d f hf hh), rfl⟩, ?_⟩
          rintro ⟨q, hq, _, hn, e⟩
          rw [e] at hh
          exact hn hh
        · exact .inl ⟨p, hf, hs, hh, rfl⟩
      · right
        have hs' : specialName w (joinPath p) = true := by simpa using hs
        obtain ⟨d, f, rfl⟩ := exists_concat hne
        have hd : d ≠ [] := by
          rintro rfl
          exact hr ⟨f, rfl, look f hf (special_iff.1 hs')⟩
        rw [joinPath_snoc hd] at hs'
        refine ⟨.inl ⟨d, f, hf, specialName_slash hw hs', rfl⟩, ?_⟩
        rintro ⟨q, _, hq, _, e⟩
        rw [← e] at hq
        exact hs hq
    · right
      refine ⟨.inr ⟨p, hp, rfl⟩, ?_⟩
      rintro ⟨q, hq, _, _, e⟩
      have gp : GoodOrRoot p := by
        by_cases e : p = []
        · exact .inl e
        · exact .inr (isdir_good h hp.1 e)
      have := joinPath_inj' gp (.inr (isfile_good h hq)) e
      subst this
      have h1 := hp.1
      rw [isfile_not_isdir hq (isfile_good h hq).1] at h1
      cases h1

/-- C24: for every source tree, both splitters, all limits and every listing order, each
file of the source that is not one of BagIt's own, and each empty directory, is listed in
the plan exactly once, and nothing else is.  Missing: files that only look reserved to the
code's patterns (`C24_negation_lookalike`) and files with a reserved base name asked for
the head bag (`C30_negation_lost`). -/
theorem C24_exactly_once_partial (s : Splitter) (w : Char → Bool) (hw : w '/' = false) (bagName : Str)
    (size : Str → Nat) (t : Tree) (listing : List FInfo) (names : Nat → Option Str) (h : WfTree t)
    (hl : listing.Perm (treeListing size t)) (look : NoLookalike w t) (head : HeadOrdinary w t s.forhead) :
    let contents := (s.plan w bagName size t listing names).2.map (·.contents)
    (∀ p, ToPlace w t p → occurrences contents (joinPath p) = 1) ∧
    (∀ x, occurrences contents x ≠ 0 → ∃ p, ToPlace w t p ∧ x = joinPath p) := by
  simp only
  have hb := plan_body s w bagName size t listing names
  have hn := plan_nodup s w bagName size (t := t) h hl
  rw [contents_of_body hb]
  constructor
  · intro p hp
    rw [occurrences_eq, hn.count, if_pos ((mem_createPlan s w hw bagName size h hl look head).2 ⟨p, hp, rfl⟩)]
  · intro x hx
    rw [occurrences_eq, hn.count] at hx
    split at hx
    · exact (mem_createPlan s w hw bagName size h hl look head).1 ‹_›
    · exact absurd rfl hx

/-- C24, without conditions on names: whatever the tree, the limits and the head-bag list,
no path is listed twice, and whatever is listed is a file or an empty directory of the
source. -/
theorem C24_at_most_once (s : Splitter) (w : Char → Bool) (bagName : Str)
    (size : Str → Nat) (t : Tree) (listing : List FInfo) (names : Nat → Option Str) (h : WfTree t)
    (hl : listing.Perm (treeListing size t)) (x : Str) :
    let contents := (s.plan w bagName size t listing names).2.map (·.contents)
    occurrences contents x ≤ 1 ∧
    (occurrences contents x ≠ 0 → ∃ p, (t.isfile p = true ∨ EmptyDir t p) ∧ x = joinPath p) := by
  simp only
  have hb := plan_body s w bagName size t listing names
  have hn := plan_nodup s w bagName size (t := t) h hl
  rw [contents_of_body hb, occurrences_eq, hn.count]
  constructor
  · split <;> omega
  · intro hx
    split at hx
    · rename_i hm
      unfold Splitter.createPlan at hm
      rw [contentsOf_completePlan, List.mem_append, mem_missing, mem_main s w size h hl, mem_nonstandard h] at hm
      rcases hm with (⟨q, hf, hs, _, rfl⟩ | ⟨⟨d, f, hf, hs, rfl⟩ | ⟨d, hd, rfl⟩, _⟩)
      · exact ⟨q, .inl hf, rfl⟩
      · exact ⟨_, .inl hf, rfl⟩
      · exact ⟨d, .inr hd, rfl⟩
    · exact absurd rfl hx

namespace Sample

/-- ASCII word characters. -/
def word (c : Char) : Bool := c.isAlphanum || c = '_'

/-- A source bag with a tag file called `fetch-txt`. -/
def lookalike : Tree :=
  [([py!"bagit.txt"], .file []), ([py!"fetch-txt"], .file []), ([py!"data"], .dir),
   ([py!"data", py!"a"], .file py!"x")]

/-- A source bag with an empty directory and payload files of reserved names. -/
def source : Tree :=
  [([py!"bagit.txt"], .file []), ([py!"manifest-md5.txt"], .file []), ([py!"about.txt"], .file []),
   ([py!"data"], .dir), ([py!"data", py!"a"], .file py!"x"), ([py!"data", py!"bagit.txt"], .file py!"x"),
   ([py!"data", py!"e"], .dir)]

theorem wf_lookalike : WfTree lookalike := wf_of_check (by decide)
theorem wf_source : WfTree source := wf_of_check (by decide)

theorem not_special (w : Char → Bool) (f : Str) (h : f ∈ [py!"about.txt", py!"data", py!"a", py!"b", py!"e"]) :
    specialName w f = false := by
  simp at h
  rcases h with rfl | rfl | rfl | rfl | rfl <;> rfl

theorem source_noLookalike (w : Char → Bool) (hw : ∀ c ∈ py!"md5", w c = true) : NoLookalike w source := by
  intro f hf hs
  have : [f] ∈ dkeys source := by
    obtain ⟨c, hc⟩ := isfile_iff.1 hf
    exact mem_dkeys_iff.2 ⟨_, hc⟩
  simp [source, dkeys] at this
  rcases this with rfl | rfl | rfl | rfl
  · exact .inl rfl
  · exact .inr (.inr (.inr ⟨py!"md5", by decide, hw, .inl rfl⟩))
  · exact absurd hs (not_special_iff.1 (not_special w _ (by decide)))
  · exact absurd hs (not_special_iff.1 (not_special w _ (by decide)))

end Sample

/-- A case of C24's hypotheses. -/
example : WfTree Sample.source ∧ NoLookalike Sample.word Sample.source ∧ HeadOrdinary Sample.word Sample.source [] ∧
    Sample.word '/' = false ∧ ToPlace Sample.word Sample.source [py!"data", py!"bagit.txt"] ∧
    ToPlace Sample.word Sample.source [py!"data", py!"e"] :=
  ⟨Sample.wf_source, Sample.source_noLookalike _ (by decide), fun _ _ _ h => by simp at h, by decide,
   .inl ⟨by decide, by rintro ⟨f, h, _⟩; simp at h⟩,
   .inr ⟨by decide, by
     intro p hp hne
     have : p ∈ dkeys Sample.source := by
       simp only [Tree.exists, hne, decide_false, Bool.false_or] at hp
       cases hg : dget Sample.source p with
       | none => rw [hg] at hp; cases hp
       | some n => exact mem_dkeys_iff.2 ⟨n, hg⟩
     simp [Sample.source, dkeys] at this
     rcases this with rfl | rfl | rfl | rfl | rfl | rfl | rfl <;> decide⟩⟩

/-- C24 fails for lookalikes: the tag file `fetch-txt` is in no output bag. -/
theorem C24_negation_lookalike :
    let t := Sample.lookalike
    WfTree t ∧ (∀ w, ToPlace w t [py!"fetch-txt"]) ∧
    ∀ (s : Splitter) (w : Char → Bool) (bagName : Str) (size : Str → Nat) (listing : List FInfo)
      (names : Nat → Option Str), listing.Perm (treeListing size t) →
      occurrences ((s.plan w bagName size t listing names).2.map (·.contents)) py!"fetch-txt" = 0 := by
  refine ⟨Sample.wf_lookalike, ?_, ?_⟩
  · intro w
    refine .inl ⟨by decide, ?_⟩
    rintro ⟨f, h, hr⟩
    simp at h
    subst h
    rcases hr with h | h | h | ⟨alg, _, _, h | h⟩
    · exact absurd h (by decide)
    · exact absurd h (by decide)
    · exact absurd h (by decide)
    · simp at h
    · simp at h
  · intro s w bagName size listing names hl
    have h := Sample.wf_lookalike
    have hb := plan_body s w bagName size Sample.lookalike listing names
    have special : specialName w py!"fetch-txt" = true := by
      unfold specialName
      have : atEnd (dotMatch py!"fetch.txt") py!"fetch-txt" = true := by decide
      rw [this]; simp
    have good : GoodPath [py!"fetch-txt"] := h.good _ (by decide)
    rw [contents_of_body hb, occurrences_eq, List.count_eq_zero]
    unfold Splitter.createPlan
    rw [contentsOf_completePlan, List.mem_append, mem_missing, mem_main s w size h hl, mem_nonstandard h]
    rintro (⟨q, hf, hs, _, e⟩ | ⟨⟨d, f, hf, hs, e⟩ | ⟨d, hd, e⟩, _⟩)
    · rw [← e, special] at hs; cases hs
    · have := joinPath_inj (p := [py!"fetch-txt"]) good (isfile_good h hf) e
      have := congrArg List.getLast? this
      simp at this
      rw [← this, special] at hs; cases hs
    · have gd : GoodOrRoot d := by
        by_cases e : d = []
        · exact .inl e
        · exact .inr (isdir_good h hd.1 e)
      have := joinPath_inj' (p := [py!"fetch-txt"]) (.inr good) gd e
      subst this
      exact absurd hd.1 (by decide)

/-! ## The two parts of a plan -/

/-- A plan is what the algorithm made, followed by at most one manifest of what it left
over: paths asked for the head bag, empty directories, and files in a subdirectory whose
whole path matches the pattern of a reserved name (such as `bagit/txt`). -/
theorem createPlan_parts (s : Splitter) (w : Char → Bool) (bagName : Str) (size : Str → Nat) {t : Tree}
    {listing : List FInfo} (h : WfTree t) (hl : listing.Perm (treeListing size t)) :
    ∃ extra, s.createPlan w bagName size t listing = s.run (sortedFiles w s.forhead listing) ++ extra ∧
      extra.length ≤ 1 ∧ ∀ m ∈ extra, m.contents ≠ [] ∧ m.total = (m.contents.map size).sum ∧
        ∀ p ∈ m.contents, ('/' :: p) ∈ s.forhead ∨ (∃ d, EmptyDir t d ∧ p = joinPath d) ∨
          ∃ d f, d ≠ [] ∧ t.isfile (d ++ [f]) = true ∧ p = joinPath (d ++ [f]) ∧ specialName w p = true := by
  unfold Splitter.createPlan completePlan
  simp only
  split
  · exact ⟨[], by simp, by simp, by simp⟩
  · rename_i hne
    refine ⟨_, rfl, by simp, ?_⟩
    intro m hm
    simp only [List.mem_singleton] at hm
    subst hm
    refine ⟨hne, rfl, ?_⟩
    intro p hp
    obtain ⟨h1, h2⟩ := mem_missing.1 hp
    rw [mem_nonstandard h] at h1
    rw [mem_main s w size h hl] at h2
    rcases h1 with ⟨d, f, hf, hs, rfl⟩ | ⟨d, hd, rfl⟩
    · by_cases hh : ('/' :: joinPath (d ++ [f])) ∈ s.forhead
      · exact .inl hh
      · right; right
        have : specialName w (joinPath (d ++ [f])) = true := by
          cases hsp : specialName w (joinPath (d ++ [f])) with
          | true => rfl
          | false => exact absurd ⟨_, hf, hsp, hh, rfl⟩ h2
        refine ⟨d, f, ?_, hf, rfl, this⟩
        rintro rfl
        rw [show joinPath ([] ++ [f]) = f from rfl, hs] at this
        cases this
    · exact .inr (.inl ⟨d, hd, rfl⟩)

theorem plan_parts (s : Splitter) (w : Char → Bool) (bagName : Str) (size : Str → Nat) {t : Tree}
    {listing : List FInfo} (names : Nat → Option Str) (h : WfTree t) (hl : listing.Perm (treeListing size t)) :
    ∃ main extra, (s.plan w bagName size t listing names).2 = main ++ extra ∧
      main.map Manifest.body = (s.run (sortedFiles w s.forhead listing)).map Manifest.body ∧
      extra.length ≤ 1 ∧ ∀ m ∈ extra, m.contents ≠ [] ∧ m.total = (m.contents.map size).sum ∧
        ∀ p ∈ m.contents, ('/' :: p) ∈ s.forhead ∨ (∃ d, EmptyDir t d ∧ p = joinPath d) ∨
          ∃ d f, d ≠ [] ∧ t.isfile (d ++ [f]) = true ∧ p = joinPath (d ++ [f]) ∧ specialName w p = true := by
  obtain ⟨extra, h1, h2, h3⟩ := createPlan_parts s w bagName size h hl
  have hb := plan_body s w bagName size t listing names
  rw [h1, List.map_append] at hb
  obtain ⟨l₁, l₂, e, e1, e2⟩ := List.map_eq_append_iff.1 hb
  refine ⟨l₁, l₂, e, e1, ?_, ?_⟩
  · have := congrArg List.length e2
    simp at this; omega
  · intro m hm
    obtain ⟨m', hm', hc, ht⟩ := body_mem e2 hm
    rw [← hc, ← ht]
    exact h3 m' hm'

/-! ## C25, C26 -/

/-- A manifest records the size of its contents, which is within the limit unless it is a
single file beyond it. -/
def Spec.WithinLimit (max : Int) (size : Str → Nat) (m : Manifest) : Prop :=
  m.total = (m.contents.map size).sum ∧
  ((((m.contents.map size).sum : Nat) : Int) ≤ max ∨ ∃ p, m.contents = [p] ∧ ((size p : Nat) : Int) > max)

theorem within_of_result {max target : Int} {size : Str → Nat} {all : List Str} {ms : List Manifest}
    (r : Result max target size all ms) {m : Manifest} (hm : m ∈ ms) : Spec.WithinLimit max size m := by
  refine ⟨r.totals m hm, ?_⟩
  rcases r.bounded m hm with h | h
  · left
    rw [← show m.total = (m.contents.map size).sum from r.totals m hm]; exact h
  · exact .inr h

theorem limit_partial (s : Splitter) (w : Char → Bool) (bagName : Str) (size : Str → Nat) {t : Tree}
    {listing : List FInfo} (names : Nat → Option Str) (h : WfTree t) (hl : listing.Perm (treeListing size t)) :
    let plan := (s.plan w bagName size t listing names).2
    (∀ m ∈ plan.dropLast, Spec.WithinLimit s.max size m) ∧
    (∀ m ∈ plan, m.total = (m.contents.map size).sum) ∧
    (s.forhead = [] → (∀ d, ¬ EmptyDir t d) →
      (∀ d f, t.isfile (d ++ [f]) = true → TakenForReserved w (joinPath (d ++ [f])) → d = []) →
      ∀ m ∈ plan, Spec.WithinLimit s.max size m) := by
  obtain ⟨main, extra, e, hb, hlen, hx⟩ := plan_parts s w bagName size names h hl
  simp only [e]
  have hm : ∀ m ∈ main, Spec.WithinLimit s.max size m := by
    intro m hm
    obtain ⟨m', hm', hc, ht⟩ := body_mem hb hm
    have := within_of_result (main_result s w size h hl) hm'
    unfold Spec.WithinLimit at *
    rwa [← hc, ← ht]
  refine ⟨?_, ?_, ?_⟩
  · intro m hmm
    cases extra with
    | nil =>
      rw [List.append_nil] at hmm
      exact hm m (List.dropLast_subset _ hmm)
    | cons x xs =>
      have : xs = [] := by
        cases xs with
        | nil => rfl
        | cons _ _ => simp at hlen
      subst this
      rw [List.dropLast_concat] at hmm
      exact hm m hmm
  · intro m hmm
    rcases List.mem_append.1 hmm with hmm | hmm
    · exact (hm m hmm).1
    · exact (hx m hmm).2.1
  · intro hf hd hlook m hmm
    rcases List.mem_append.1 hmm with hmm | hmm
    · exact hm m hmm
    · exfalso
      obtain ⟨hne, _, hp⟩ := hx m hmm
      obtain ⟨p, hpm⟩ := List.exists_mem_of_ne_nil _ hne
      rcases hp p hpm with hp | ⟨d, hd', _⟩ | ⟨d, f, hdne, hf', rfl, hs⟩
      · rw [hf] at hp; cases hp
      · exact hd d hd'
      · exact hdne (hlook d f hf' (special_iff.1 hs))

/-- C25, for the well-packed splitter: every manifest but the last holds at most the
maximum or a single larger file; so does the last unless files are reserved for the head
bag, directories are empty, or a path such as `bagit/txt` exists.
Missing: those, which go in one further manifest without limit (`C25_negation`). -/
theorem C25_wellpacked_partial (s : Splitter) (_hk : s.kind = .wellPacked) (w : Char → Bool) (bagName : Str)
    (size : Str → Nat) (t : Tree) (listing : List FInfo) (names : Nat → Option Str) (h : WfTree t)
    (hl : listing.Perm (treeListing size t)) :
    let plan := (s.plan w bagName size t listing names).2
    (∀ m ∈ plan.dropLast, Spec.WithinLimit s.max size m) ∧
    (∀ m ∈ plan, m.total = (m.contents.map size).sum) ∧
    (s.forhead = [] → (∀ d, ¬ EmptyDir t d) →
      (∀ d f, t.isfile (d ++ [f]) = true → TakenForReserved w (joinPath (d ++ [f])) → d = []) →
      ∀ m ∈ plan, Spec.WithinLimit s.max size m) :=
  limit_partial s w bagName size names h hl

/-- C26: the same for the neighborly splitter.
Missing: the last manifest in the same cases (`C26_negation`). -/
theorem C26_neighborly_partial (s : Splitter) (_hk : s.kind = .neighborly) (w : Char → Bool) (bagName : Str)
    (size : Str → Nat) (t : Tree) (listing : List FInfo) (names : Nat → Option Str) (h : WfTree t)
    (hl : listing.Perm (treeListing size t)) :
    let plan := (s.plan w bagName size t listing names).2
    (∀ m ∈ plan.dropLast, Spec.WithinLimit s.max size m) ∧
    (∀ m ∈ plan, m.total = (m.contents.map size).sum) ∧
    (s.forhead = [] → (∀ d, ¬ EmptyDir t d) →
      (∀ d f, t.isfile (d ++ [f]) = true → TakenForReserved w (joinPath (d ++ [f])) → d = []) →
      ∀ m ∈ plan, Spec.WithinLimit s.max size m) :=
  limit_partial s w bagName size names h hl

namespace Sample

/-- A source bag with two payload files. -/
def two : Tree :=
  [([py!"bagit.txt"], .file []), ([py!"data"], .dir), ([py!"data", py!"a"], .file py!"x"),
   ([py!"data", py!"b"], .file py!"x")]

theorem wf_two : WfTree two := wf_of_check (by decide)

/-- Both files are reserved for the head bag. -/
def both (k : Kind) : Splitter := { kind := k, max := 60, forhead := [py!"/data/a", py!"/data/b"] }

theorem both_plan (k : Kind) (w : Char → Bool) (listing : List FInfo)
    (hl : listing.Perm (treeListing (fun _ => 40) two)) (names : Nat → Option Str) :
    ((both k).plan w py!"bag" (fun _ => 40) two listing names).2.map Manifest.body =
      [([py!"data/a", py!"data/b"], 80)] := by
  rw [plan_body]
  have hs : sortedFiles w (both k).forhead listing = [] := by
    rw [sortedFiles_congr w _ hl]
    apply List.Perm.eq_nil
    refine (sortedFiles_perm w _ _).trans (List.Perm.of_eq ?_)
    rfl
  unfold Splitter.createPlan
  rw [hs]
  have hr : (both k).run [] = [] := by
    cases k <;> simp [Splitter.run, both, wpRun, wpLoop, nbRun, nbLoop]
  rw [hr]
  rfl

end Sample

/-- C25 fails for the manifest of what is reserved for the head bag: two files of 40 bytes
in one bag, with a maximum of 60. -/
theorem C25_negation (w : Char → Bool) (listing : List FInfo)
    (hl : listing.Perm (treeListing (fun _ => 40) Sample.two)) (names : Nat → Option Str) :
    ∃ m ∈ ((Sample.both .wellPacked).plan w py!"bag" (fun _ => 40) Sample.two listing names).2,
      ¬ Spec.WithinLimit (Sample.both .wellPacked).max (fun _ => 40) m := by
  have hp := Sample.both_plan .wellPacked w listing hl names
  generalize ((Sample.both .wellPacked).plan w py!"bag" (fun _ => 40) Sample.two listing names).2 = l at *
  match l, hp with
  | [m], hp =>
    simp [Manifest.body] at hp
    refine ⟨m, by simp, ?_⟩
    rintro ⟨_, h⟩
    rw [hp.1] at h
    simp [Sample.both] at h
  | [], hp => simp at hp
  | _ :: _ :: _, hp => simp at hp

/-- C26 fails in the same way. -/
theorem C26_negation (w : Char → Bool) (listing : List FInfo)
    (hl : listing.Perm (treeListing (fun _ => 40) Sample.two)) (names : Nat → Option Str) :
    ∃ m ∈ ((Sample.both .neighborly).plan w py!"bag" (fun _ => 40) Sample.two listing names).2,
      ¬ Spec.WithinLimit (Sample.both .neighborly).max (fun _ => 40) m := by
  have hp := Sample.both_plan .neighborly w listing hl names
  generalize ((Sample.both .neighborly).plan w py!"bag" (fun _ => 40) Sample.two listing names).2 = l at *
  match l, hp with
  | [m], hp =>
    simp [Manifest.body] at hp
    refine ⟨m, by simp, ?_⟩
    rintro ⟨_, h⟩
    rw [hp.1] at h
    simp [Sample.both] at h
  | [], hp => simp at hp
  | _ :: _ :: _, hp => simp at hp

example : WfTree Sample.two ∧ (treeListing (fun _ => 40) Sample.two).Perm (treeListing (fun _ => 40) Sample.two) :=
  ⟨Sample.wf_two, .refl _⟩

/-! ## C27 -/

theorem length_le_contents {ms : List Manifest} (h : ∀ m ∈ ms, m.contents ≠ []) : ms.length ≤ (contentsOf ms).length := by
  induction ms with
  | nil => simp
  | cons m ms ih =>
    have h1 := List.length_pos_iff.2 (h m (by simp))
    have h2 := ih (fun x hx => h x (by simp [hx]))
    simp only [contentsOf, List.flatMap_cons, List.length_append, List.length_cons] at *
    omega

/-- C27: planning is a total function; no manifest of a plan is empty, and there are at most
as many manifests as the source has files, plus one, or just as many if no directory is
empty. -/
theorem C27_terminates (s : Splitter) (w : Char → Bool) (bagName : Str) (size : Str → Nat) (t : Tree)
    (listing : List FInfo) (names : Nat → Option Str) (h : WfTree t) (hl : listing.Perm (treeListing size t)) :
    let plan := (s.plan w bagName size t listing names).2
    (∀ m ∈ plan, m.contents ≠ []) ∧ plan.length ≤ listing.length + 1 ∧
    ((∀ d, ¬ EmptyDir t d) → plan.length ≤ listing.length) := by
  obtain ⟨main, extra, e, hb, hlen, hx⟩ := plan_parts s w bagName size names h hl
  have r := main_result s w size h hl
  have hne : ∀ m ∈ main ++ extra, m.contents ≠ [] := by
    intro m hm
    rcases List.mem_append.1 hm with hm | hm
    · obtain ⟨m', hm', hc, _⟩ := body_mem hb hm
      rw [← hc]
      exact r.nonempty m' hm'
    · exact (hx m hm).1
  simp only
  have hmain : main.length ≤ listing.length := by
    have h1 := length_le_contents r.nonempty
    have h2 := congrArg List.length hb
    simp only [List.length_map] at h2
    have h3 := r.perm.length_eq
    rw [List.length_map, (sortedFiles_perm w s.forhead listing).length_eq] at h3
    have h4 := List.length_filter_le (fun f => !specialPath w f.path && !decide (f.path ∈ s.forhead)) listing
    omega
  refine ⟨by rw [e]; exact hne, ?_, ?_⟩
  · rw [e, List.length_append]; omega
  · intro hd
    have hnd := plan_nodup s w bagName size (t := t) h hl
    rw [← contentsOf_of_body (plan_body s w bagName size t listing names)] at hnd
    have hsub : ∀ x ∈ contentsOf (s.plan w bagName size t listing names).2,
        x ∈ (treeListing size t).map (fun f => f.path.drop 1) := by
      intro x hx'
      have h1 := C24_at_most_once s w bagName size t listing names h hl x
      simp only at h1
      rw [occurrences_eq] at h1
      obtain ⟨p, hp | hp, rfl⟩ := h1.2 (fun h0 => List.count_eq_zero.1 h0 hx')
      · exact List.mem_map.2 ⟨_, (mem_treeListing h).2 ⟨p, hp, rfl⟩, rfl⟩
      · exact absurd hp (hd p)
    have h1 := hnd.length_le_of_subset hsub
    rw [List.length_map, ← hl.length_eq] at h1
    have h2 := length_le_contents (ms := (s.plan w bagName size t listing names).2) (by rw [e]; exact hne)
    omega

/-! ## C28 -/

theorem pairwise_of_greedy {max target : Int} {sz : Str → Nat} {ms : List Manifest}
    (h : Greedy max target sz ms []) :
    ms.Pairwise (fun a b => ((a.total : Nat) : Int) > target ∨
      ∀ p ∈ b.contents, ((a.total + sz p : Nat) : Int) > max) := by
  induction ms with
  | nil => exact .nil
  | cons m ms ih =>
    refine .cons ?_ (ih h.2)
    intro b hb
    rcases h.1 with h1 | h1
    · exact .inl h1
    · right
      intro p hp
      apply h1
      rw [List.append_nil]
      exact List.mem_flatMap.2 ⟨b, hb, hp⟩

theorem pairwise_body {R : Manifest → Manifest → Prop}
    (hR : ∀ a a' b b' : Manifest, a.body = a'.body → b.body = b'.body → R a b → R a' b')
    {l l' : List Manifest} (e : l.map Manifest.body = l'.map Manifest.body) (h : l.Pairwise R) : l'.Pairwise R := by
  induction l generalizing l' with
  | nil =>
    cases l' with
    | nil => exact .nil
    | cons _ _ => simp at e
  | cons a l ih =>
    cases l' with
    | nil => simp at e
    | cons a' l' =>
      simp only [List.map_cons, List.cons.injEq] at e
      rw [List.pairwise_cons] at h ⊢
      refine ⟨?_, ih e.2 h.2⟩
      intro b' hb'
      have : b'.body ∈ l.map Manifest.body := by rw [e.2]; exact List.mem_map_of_mem hb'
      obtain ⟨b, hb, hbe⟩ := List.mem_map.1 this
      exact hR a a' b b' e.1 hbe (h.1 b hb)

theorem sum_ge_mem {sz : Str → Nat} {l : List Str} {p : Str} (h : p ∈ l) : sz p ≤ (l.map sz).sum := by
  induction l with
  | nil => cases h
  | cons x xs ih =>
    simp only [List.map_cons, List.sum_cons]
    rcases List.mem_cons.1 h with rfl | h
    · omega
    · have := ih h; omega

/-- C28: of the manifests made by a splitter (all but the possible last one of leftovers),
none would take a file of a later one without exceeding the maximum, unless it is already
past the target size; and when the target size is not set below the maximum, any two of
them together exceed the maximum. -/
theorem C28_greedy (s : Splitter) (w : Char → Bool) (bagName : Str) (size : Str → Nat) (t : Tree)
    (listing : List FInfo) (names : Nat → Option Str) (h : WfTree t) (hl : listing.Perm (treeListing size t)) :
    ∃ main extra, (s.plan w bagName size t listing names).2 = main ++ extra ∧ extra.length ≤ 1 ∧
      (∀ m ∈ extra, ∀ p ∈ m.contents, ∀ m' ∈ main, p ∉ m'.contents) ∧
      (s.forhead = [] → (∀ d, ¬ EmptyDir t d) →
        (∀ d f, t.isfile (d ++ [f]) = true → TakenForReserved w (joinPath (d ++ [f])) → d = []) → extra = []) ∧
      main.Pairwise (fun a b => ((a.total : Nat) : Int) > s.tsz ∨
        ∀ p ∈ b.contents, ((a.total + size p : Nat) : Int) > s.max) ∧
      (s.max ≤ s.tsz → main.Pairwise (fun a b => ((a.total + b.total : Nat) : Int) > s.max)) := by
  obtain ⟨main, extra, e, hb, hlen, hx⟩ := plan_parts s w bagName size names h hl
  have r := main_result s w size h hl
  have hp := pairwise_of_greedy r.greedy
  refine ⟨main, extra, e, hlen, ?_, ?_, ?_, ?_⟩
  · intro m hm p hpm m' hm' hpm'
    have hnd := plan_nodup s w bagName size (t := t) h hl
    rw [← contentsOf_of_body (plan_body s w bagName size t listing names), e, contentsOf_append, List.nodup_append] at hnd
    exact hnd.2.2 p (List.mem_flatMap.2 ⟨m', hm', hpm'⟩) p (List.mem_flatMap.2 ⟨m, hm, hpm⟩) rfl
  · intro hf hd hlook
    cases extra with
    | nil => rfl
    | cons m ms =>
      exfalso
      obtain ⟨hne, _, hp⟩ := hx m (by simp)
      obtain ⟨p, hpm⟩ := List.exists_mem_of_ne_nil _ hne
      rcases hp p hpm with hp | ⟨d, hd', _⟩ | ⟨d, f, hdne, hf', rfl, hs⟩
      · rw [hf] at hp; cases hp
      · exact hd d hd'
      · exact hdne (hlook d f hf' (special_iff.1 hs))
  · refine pairwise_body ?_ hb.symm hp
    intro a a' b b' ha hb' hR
    simp only [Manifest.body, Prod.mk.injEq] at ha hb'
    rwa [← ha.2, ← hb'.1]
  · intro hmt
    refine pairwise_body (l := s.run (sortedFiles w s.forhead listing)) ?_ hb.symm ?_
    · intro a a' b b' ha hb' hR
      simp only [Manifest.body, Prod.mk.injEq] at ha hb'
      rwa [← ha.2, ← hb'.2]
    · refine hp.imp_of_mem ?_
      intro a b ha hb' hR
      rcases hR with hR | hR
      · omega
      · obtain ⟨p, hpm⟩ := List.exists_mem_of_ne_nil _ (r.nonempty b hb')
        have h1 := hR p hpm
        have h2 := sum_ge_mem (sz := size) hpm
        have h3 : b.total = (b.contents.map size).sum := r.totals b hb'
        omega

theorem pair_sum {max : Int} {l : List Manifest} (hne : l ≠ []) (h : l.Pairwise (fun a b => ((a.total + b.total : Nat) : Int) > max)) :
    ((l.length : Int) - 1) * max ≤ 2 * (((l.map (·.total)).sum : Nat) : Int) := by
  have key : ∀ (l : List Manifest) (a : Manifest), (a :: l).Pairwise (fun a b => ((a.total + b.total : Nat) : Int) > max) →
      (l.length : Int) * max + a.total ≤ 2 * ((((a :: l).map (·.total)).sum : Nat) : Int) := by
    intro l
    induction l with
    | nil => intro a _; simp; omega
    | cons b l ih =>
      intro a hp
      rw [List.pairwise_cons] at hp
      have h1 := ih b hp.2
      have h2 := hp.1 b (by simp)
      simp only [List.map_cons, List.sum_cons, List.length_cons] at *
      rw [show ((l.length + 1 : Nat) : Int) * max = (l.length : Int) * max + max by
        push_cast; rw [Int.add_mul, Int.one_mul]]
      omega
  cases l with
  | nil => exact absurd rfl hne
  | cons a l =>
    have := key l a h
    simp only [List.length_cons, List.map_cons, List.sum_cons] at *
    have e : (((l.length + 1 : Nat) : Int) - 1) = l.length := by omega
    rw [e]; omega

/-- C28, in terms of the number of bags: `k` bags made by a splitter with no lower target
hold more than half of `(k - 1)` times the maximum. -/
theorem C28_bag_count (s : Splitter) (w : Char → Bool) (bagName : Str) (size : Str → Nat) (t : Tree)
    (listing : List FInfo) (names : Nat → Option Str) (h : WfTree t) (hl : listing.Perm (treeListing size t))
    (hmt : s.max ≤ s.tsz) (hf : s.forhead = []) (hd : ∀ d, ¬ EmptyDir t d)
    (hlook : ∀ d f, t.isfile (d ++ [f]) = true → TakenForReserved w (joinPath (d ++ [f])) → d = []) :
    let plan := (s.plan w bagName size t listing names).2
    plan ≠ [] → ((plan.length : Int) - 1) * s.max ≤ 2 * (((plan.map (·.total)).sum : Nat) : Int) := by
  obtain ⟨main, extra, e, _, _, h2, _, h3⟩ := C28_greedy s w bagName size t listing names h hl
  have := h2 hf hd hlook
  subst this
  rw [List.append_nil] at e
  simp only [e]
  intro hne
  exact pair_sum hne (h3 hmt)

/-! ## C29 -/

/-- C29: whatever the order in which the file system lists the files and directories of
the source, the same bags with the same names get the same files. -/
theorem C29_order_independent (s : Splitter) (w : Char → Bool) (bagName : Str) (size : Str → Nat) (t t' : Tree)
    (listing listing' : List FInfo) (h : WfTree t) (h' : WfTree t') (same : ∀ p, dget t p = dget t' p)
    (hl : listing.Perm (treeListing size t)) (hl' : listing'.Perm (treeListing size t')) :
    Forall₂ (fun m m' => m.name = m'.name ∧ m.total = m'.total ∧ m.contents.Perm m'.contents)
      (s.createPlan w bagName size t listing) (s.createPlan w bagName size t' listing') := by
  have hfile : ∀ p, t.isfile p = t'.isfile p := fun p => by simp [Tree.isfile, same]
  have hdir : ∀ p, t.isdir p = t'.isdir p := fun p => by simp [Tree.isdir, same]
  have hex : ∀ p, t.exists p = t'.exists p := fun p => by simp [Tree.exists, same]
  have hnd : ∀ {t : Tree}, WfTree t → (treeListing size t).Nodup := by
    intro t h
    have := treeListing_nodup (size := size) h
    unfold List.Nodup at *
    rw [List.pairwise_map] at this
    exact this.imp (fun hne e => hne (by rw [e]))
  have ht : (treeListing size t).Perm (treeListing size t') := by
    rw [List.perm_ext_iff_of_nodup (hnd h) (hnd h')]
    intro f
    rw [mem_treeListing h, mem_treeListing h']
    simp only [hfile]
  have hs : sortedFiles w s.forhead listing = sortedFiles w s.forhead listing' :=
    sortedFiles_congr w _ (hl.trans (ht.trans hl'.symm))
  have hr : (nonstandard w t).Perm (nonstandard w t') := by
    rw [List.perm_ext_iff_of_nodup (nonstandard_nodup h) (nonstandard_nodup h')]
    intro p
    rw [mem_nonstandard h, mem_nonstandard h']
    simp only [hfile, EmptyDir, hdir, hex]
  unfold Splitter.createPlan
  rw [hs]
  have hm := hr.filter (fun f => (findDestination (s.run (sortedFiles w s.forhead listing')) f).isNone)
  have refl : ∀ l : List Manifest, Forall₂
      (fun m m' => m.name = m'.name ∧ m.total = m'.total ∧ m.contents.Perm m'.contents) l l := by
    intro l
    induction l with
    | nil => exact .nil
    | cons a l ih => exact .cons ⟨rfl, rfl, .refl _⟩ ih
  have app : ∀ (l : List Manifest) {m m' : Manifest}, m.name = m'.name → m.total = m'.total → m.contents.Perm m'.contents →
      Forall₂ (fun m m' => m.name = m'.name ∧ m.total = m'.total ∧ m.contents.Perm m'.contents)
        (l ++ [m]) (l ++ [m']) := by
    intro l m m' h1 h2 h3
    induction l with
    | nil => exact .cons ⟨h1, h2, h3⟩ .nil
    | cons a l ih => exact .cons ⟨rfl, rfl, .refl _⟩ ih
  unfold completePlan missing
  simp only
  by_cases he : (nonstandard w t).filter (fun f => (findDestination (s.run (sortedFiles w s.forhead listing')) f).isNone) = []
  · have he' : (nonstandard w t').filter
        (fun f => (findDestination (s.run (sortedFiles w s.forhead listing')) f).isNone) = [] := by
      rw [he] at hm; exact hm.nil_eq.symm
    rw [if_pos he, if_pos he']
    exact refl _
  · have he' : ¬ (nonstandard w t').filter
        (fun f => (findDestination (s.run (sortedFiles w s.forhead listing')) f).isNone) = [] := by
      intro e
      rw [e] at hm; exact he hm.eq_nil
    rw [if_neg he, if_neg he']
    exact app _ rfl (hm.map size).sum_nat hm

/-- A case of C29 with two orders. -/
example : let t := Sample.two
    let t' : Tree := [([py!"data"], .dir), ([py!"data", py!"b"], .file py!"x"), ([py!"data", py!"a"], .file py!"x"),
      ([py!"bagit.txt"], .file [])]
    WfTree t ∧ WfTree t' ∧ t ≠ t' ∧ ∀ p, dget t p = dget t' p := by
  refine ⟨Sample.wf_two, Sample.wf_of_check (by decide), by decide, ?_⟩
  intro p
  simp only [Sample.two, dget]
  by_cases h1 : [py!"bagit.txt"] = p
  · subst h1; decide
  · by_cases h2 : [py!"data"] = p
    · subst h2; decide
    · by_cases h3 : [py!"data", py!"a"] = p
      · subst h3; decide
      · simp [h1, h2, h3]

/-! ## C30 -/

/-- C30, for paths given with a leading slash: a file of the source, with an ordinary base
name, that is reserved for the head bag is in the last manifest.  Missing: other
notations (`C30_negation_notation`) and reserved base names (`C30_negation_lost`). -/
theorem C30_forhead_partial (s : Splitter) (w : Char → Bool) (bagName : Str) (size : Str → Nat) (t : Tree)
    (listing : List FInfo) (names : Nat → Option Str) (h : WfTree t) (hl : listing.Perm (treeListing size t))
    (d : Path) (f : Str) (hf : t.isfile (d ++ [f]) = true) (hh : ('/' :: joinPath (d ++ [f])) ∈ s.forhead)
    (hs : ¬ TakenForReserved w f) :
    ∃ m, (s.plan w bagName size t listing names).2.getLast? = some m ∧ joinPath (d ++ [f]) ∈ m.contents := by
  have hmiss : joinPath (d ++ [f]) ∈ missing (nonstandard w t) (s.run (sortedFiles w s.forhead listing)) := by
    rw [mem_missing, mem_nonstandard h, mem_main s w size h hl]
    refine ⟨.inl ⟨d, f, hf, not_special_iff.2 hs, rfl⟩, ?_⟩
    rintro ⟨q, _, _, hn, e⟩
    rw [e] at hh
    exact hn hh
  have hb := plan_body s w bagName size t listing names
  have hc : ∃ m, (s.createPlan w bagName size t listing).getLast? = some m ∧ joinPath (d ++ [f]) ∈ m.contents := by
    unfold Splitter.createPlan completePlan
    simp only
    rw [if_neg (fun e => by rw [e] at hmiss; cases hmiss)]
    exact ⟨_, List.getLast?_concat, hmiss⟩
  obtain ⟨m, h1, h2⟩ := hc
  have := congrArg List.getLast? hb
  rw [List.getLast?_map, List.getLast?_map, h1] at this
  cases hg : (s.plan w bagName size t listing names).2.getLast? with
  | none => rw [hg] at this; cases this
  | some m' =>
    rw [hg] at this
    simp [Manifest.body] at this
    exact ⟨m', rfl, this.1 ▸ h2⟩

/-- A case of C30. -/
example : Sample.two.isfile ([py!"data"] ++ [py!"a"]) = true ∧
    ('/' :: joinPath ([py!"data"] ++ [py!"a"])) ∈ (Sample.both .wellPacked).forhead ∧
    ∀ w, ¬ TakenForReserved w py!"a" := ⟨by decide, by decide, fun _ => not_special_iff.1 rfl⟩

theorem sortedFiles_eq {w : Char → Bool} {forhead : List Str} {listing l : List FInfo} (hp : l.Pairwise FBefore)
    (h : (listing.filter (fun f => !specialPath w f.path && !decide (f.path ∈ forhead))).Perm l) :
    sortedFiles w forhead listing = l :=
  List.Perm.eq_of_pairwise (le := FBefore) (fun _ _ _ _ => fBefore_antisymm) (sortedFiles_pairwise _ _ _) hp
    ((sortedFiles_perm _ _ _).trans h)

namespace Sample

/-- A file of 50 bytes; all others have 40. -/
def size50 (p : Str) : Nat := if p = py!"data/a" then 50 else 40

theorem run_two (k : Kind) :
    (({ kind := k, max := 60, forhead := [py!"data/a"] } : Splitter).run
      [⟨py!"/data/a", 50⟩, ⟨py!"/data/b", 40⟩]).map Manifest.body = [([py!"data/a"], 50), ([py!"data/b"], 40)] := by
  cases k
  · simp [Splitter.run, Splitter.tsz, wpRun, wpLoop, Manifest.add, Manifest.body]
  · have e1 : dirPart py!"/data/a" = py!"/data/" := by decide
    have e2 : dirPart py!"/data/b" = py!"/data/" := by decide
    have e3 : strLe py!"/data/" py!"/data/" = true := by decide
    have d1 : dirpathsFor [⟨py!"/data/a", 50⟩, ⟨py!"/data/b", 40⟩] = [py!"/data/"] := by
      simp [dirpathsFor, e1, e2, e3, List.mergeSort, uniqLoop]
    have d2 : dirpathsFor [⟨py!"/data/b", 40⟩] = [py!"/data/"] := by
      simp [dirpathsFor, e2, uniqLoop]
    simp [Splitter.run, Splitter.tsz, nbRun, nbLoop, nbFill, selectFromDir, Manifest.add, Manifest.body, d1, d2, e1, e2]

end Sample

/-- C30 fails for paths without a leading slash: of files of 50 and 40 bytes, with a maximum
of 60, the reserved one goes to the first of two bags. -/
theorem C30_negation_notation (k : Kind) (w : Char → Bool) (listing : List FInfo)
    (hl : listing.Perm (treeListing Sample.size50 Sample.two)) :
    let s : Splitter := { kind := k, max := 60, forhead := [py!"data/a"] }
    (s.createPlan w py!"bag" Sample.size50 Sample.two listing).map Manifest.body =
      [([py!"data/a"], 50), ([py!"data/b"], 40)] := by
  have hs : sortedFiles w [py!"data/a"] listing = [⟨py!"/data/a", 50⟩, ⟨py!"/data/b", 40⟩] := by
    rw [sortedFiles_congr w _ hl]
    apply sortedFiles_eq
    · simp [FBefore]
    · exact List.Perm.of_eq rfl
  have hr := Sample.run_two k
  simp only [Splitter.createPlan]
  rw [hs]
  have hm : missing (nonstandard w Sample.two) (({ kind := k, max := 60, forhead := [py!"data/a"] } : Splitter).run
      [⟨py!"/data/a", 50⟩, ⟨py!"/data/b", 40⟩]) = [] := by
    have hc := contentsOf_of_body (b := [⟨none, [py!"data/a"], 50⟩, ⟨none, [py!"data/b"], 40⟩]) hr
    rw [List.eq_nil_iff_forall_not_mem]
    intro p hp
    obtain ⟨h1, h2⟩ := mem_missing.1 hp
    rw [hc] at h2
    have : nonstandard w Sample.two = [py!"data/a", py!"data/b"] := rfl
    rw [this] at h1
    exact h2 h1
  unfold completePlan
  simp only [hm, if_true]
  exact hr

/-- C30 fails for a payload file with a reserved base name: reserved for the head bag, it is
in no bag at all. -/
theorem C30_negation_lost (s : Splitter) (hs : s.forhead = [py!"/data/bagit.txt"]) (w : Char → Bool) (bagName : Str)
    (size : Str → Nat) (listing : List FInfo) (names : Nat → Option Str)
    (hl : listing.Perm (treeListing size Sample.source)) :
    Sample.source.isfile [py!"data", py!"bagit.txt"] = true ∧
    ∀ m ∈ (s.plan w bagName size Sample.source listing names).2, py!"data/bagit.txt" ∉ m.contents := by
  refine ⟨by decide, ?_⟩
  have h := Sample.wf_source
  intro m hm hp
  have hmem : py!"data/bagit.txt" ∈ contentsOf (s.createPlan w bagName size Sample.source listing) := by
    rw [← contentsOf_of_body (plan_body s w bagName size Sample.source listing names)]
    exact List.mem_flatMap.2 ⟨m, hm, hp⟩
  have good : GoodPath [py!"data", py!"bagit.txt"] := h.good _ (by decide)
  unfold Splitter.createPlan at hmem
  rw [contentsOf_completePlan, List.mem_append, mem_missing, mem_main s w size h hl, mem_nonstandard h] at hmem
  rcases hmem with (⟨q, hf, _, hn, e⟩ | ⟨⟨d, f, hf, hsp, e⟩ | ⟨d, hd, e⟩, _⟩)
  · rw [← e, hs] at hn
    exact hn (by decide)
  · have := joinPath_inj (p := [py!"data", py!"bagit.txt"]) good (isfile_good h hf) e
    have := congrArg List.getLast? this
    simp at this
    subst this
    have hr : Reserved w py!"bagit.txt" := .inl rfl
    rw [reserved_special hr] at hsp
    cases hsp
  · have gd : GoodOrRoot d := by
      by_cases e : d = []
      · exact .inl e
      · exact .inr (isdir_good h hd.1 e)
    have := joinPath_inj' (p := [py!"data", py!"bagit.txt"]) (.inr good) gd e
    subst this
    exact absurd hd.1 (by decide)

/-! ## C31 -/

/-- C31: completing any plan for any required paths makes it complete; the manifests it had
stay as they were, every path already assigned keeps its destination, and a complete plan
is left alone. -/
theorem C31_complete (bagName : Str) (size : Str → Nat) (required : List Str) (ms : List Manifest) :
    let ms' := completePlan bagName size required ms
    isComplete required ms' = true ∧ missing required ms' = [] ∧ ms <+: ms' ∧
    (∀ p, (findDestination ms p).isSome = true → findDestination ms' p = findDestination ms p) ∧
    (∀ p ∈ contentsOf ms', p ∈ contentsOf ms ∨ p ∈ required) ∧
    (isComplete required ms = true → ms' = ms) := by
  simp only
  have hmiss : missing required (completePlan bagName size required ms) = [] := by
    rw [List.eq_nil_iff_forall_not_mem]
    intro p hp
    obtain ⟨h1, h2⟩ := mem_missing.1 hp
    rw [contentsOf_completePlan, List.mem_append, mem_missing] at h2
    apply h2
    by_cases e : p ∈ contentsOf ms
    · exact .inl e
    · exact .inr ⟨h1, e⟩
  refine ⟨by rw [isComplete, hmiss]; rfl, hmiss, ?_, ?_, ?_, ?_⟩
  · unfold completePlan
    simp only
    split
    · exact List.prefix_refl _
    · exact List.prefix_append _ _
  · intro p hp
    unfold completePlan
    simp only
    split
    · rfl
    · have hm : p ∉ missing required ms := by
        intro hm
        have := findDestination_isNone.2 (mem_missing.1 hm).2
        cases hf : findDestination ms p <;> simp_all
      unfold findDestination
      rw [List.reverse_append, List.find?_append]
      simp [hm]
  · intro p hp
    rw [contentsOf_completePlan, List.mem_append, mem_missing] at hp
    exact hp.imp id And.left
  · intro hc
    unfold isComplete at hc
    have : missing required ms = [] := by simpa using hc
    unfold completePlan
    simp [this]

example : let ms : List Manifest := [{ contents := [py!"data/a"] }]
    isComplete [py!"data/a", py!"data/b"] ms = false ∧ (findDestination ms py!"data/a").isSome = true :=
  ⟨by decide, by decide⟩

/-! ## C32 -/

/-- C32 fails: a payload file named like one of BagIt's own files is not required. -/
theorem C32_negation : WfTree Sample.source ∧ Sample.source.isfile [py!"data", py!"bagit.txt"] = true ∧
    ∀ w, joinPath [py!"data", py!"bagit.txt"] ∉ nonstandard w Sample.source := by
  have h := Sample.wf_source
  refine ⟨h, by decide, ?_⟩
  intro w hm
  have good : GoodPath [py!"data", py!"bagit.txt"] := h.good _ (by decide)
  rcases (mem_nonstandard h).1 hm with ⟨d, f, hf, hsp, e⟩ | ⟨d, hd, e⟩
  · have := joinPath_inj good (isfile_good h hf) e
    have := congrArg List.getLast? this
    simp at this
    subst this
    have hr : Reserved w py!"bagit.txt" := .inl rfl
    rw [reserved_special hr] at hsp
    cases hsp
  · have gd : GoodOrRoot d := by
      by_cases e : d = []
      · exact .inl e
      · exact .inr (isdir_good h hd.1 e)
    have := joinPath_inj' (.inr good) gd e
    subst this
    exact absurd hd.1 (by decide)

/-- C32, for files whose base name matches no reserved pattern: every such file, and every
empty directory, is required, once; and nothing else is.  Missing: payload files with
reserved base names (`C32_negation`). -/
theorem C32_required_partial (w : Char → Bool) (t : Tree) (h : WfTree t) :
    (nonstandard w t).Nodup ∧
    ∀ p : Path, GoodPath p → (joinPath p ∈ nonstandard w t ↔
      (t.isfile p = true ∧ ∃ f, p.getLast? = some f ∧ ¬ TakenForReserved w f) ∨ EmptyDir t p) := by
  refine ⟨nonstandard_nodup h, ?_⟩
  intro p hp
  rw [mem_nonstandard h]
  constructor
  · rintro (⟨d, f, hf, hs, e⟩ | ⟨d, hd, e⟩)
    · have := joinPath_inj hp (isfile_good h hf) e
      subst this
      exact .inl ⟨hf, f, by simp, not_special_iff.1 hs⟩
    · have gd : GoodOrRoot d := by
        by_cases e : d = []
        · exact .inl e
        · exact .inr (isdir_good h hd.1 e)
      have := joinPath_inj' (.inr hp) gd e
      subst this
      exact .inr hd
  · rintro (⟨hf, f, hl, hs⟩ | hd)
    · obtain ⟨d, f', rfl⟩ := exists_concat hp.1
      simp at hl
      subst hl
      exact .inl ⟨d, f', hf, not_special_iff.2 hs, rfl⟩
    · exact .inr ⟨p, hd, rfl⟩

example : WfTree Sample.source ∧ joinPath [py!"data", py!"a"] ∈ nonstandard Sample.word Sample.source :=
  ⟨Sample.wf_source, by decide⟩

/-! ## C33 -/

/-- C33: if the supply has enough names, naming succeeds, gives the manifests the first names
in order (in reverse order, if so asked), and changes nothing else. -/
theorem C33_named_in_order (names : Nat → Option Str) (rev : Bool) (ms : List Manifest)
    (h : ∀ i, i < ms.length → (names i).isSome = true) :
    let r := nameOutputBags names rev ms
    let given := (List.range ms.length).map names
    r.1 = .ok () ∧ r.2.map (·.name) = (if rev then given.reverse else given) ∧
    r.2.map (·.contents) = ms.map (·.contents) ∧ r.2.map (·.total) = ms.map (·.total) := by
  simp only
  have hb := nameOutputBags_body names rev ms
  have ht : (nameOutputBags names rev ms).2.map (·.total) = ms.map (·.total) := by
    have := congrArg (List.map Prod.snd) hb
    rw [List.map_map, List.map_map] at this
    exact this
  have h1 : (nameOutputBags names rev ms).1 = .ok () ∧ (nameOutputBags names rev ms).2.map (·.name) =
      (if rev then ((List.range ms.length).map names).reverse else (List.range ms.length).map names) := by
    unfold nameOutputBags
    split
    · have := nameLoop_ok names 0 ms.reverse (by simpa using h)
      refine ⟨this.1, ?_⟩
      simp only [List.map_reverse, this.2]
      simp
    · have := nameLoop_ok names 0 ms (by simpa using h)
      refine ⟨this.1, ?_⟩
      rw [this.2]; simp
  exact ⟨h1.1, h1.2, contents_of_body hb, ht⟩

/-- C33: the default supply never runs out and never repeats a name. -/
theorem C33_default_names (base : Str) :
    (∀ n, (simpleNamer base n).isSome = true) ∧ ∀ n k, simpleNamer base n = simpleNamer base k → n = k := by
  refine ⟨fun n => rfl, ?_⟩
  intro n k h
  unfold simpleNamer at h
  injection h with h
  simp only [List.append_assoc, List.cons_append] at h
  have h1 := List.append_cancel_left h
  injection h1 with _ h1
  have h2 := List.append_cancel_right h1
  have := natStr_injective h2
  omega

/-- C33: hence the bags of a plan with default names are named `base_1.mbag`, `base_2.mbag`
and so on, and no two have the same name. -/
theorem C33_plan_names (s : Splitter) (w : Char → Bool) (bagName : Str) (size : Str → Nat) (t : Tree)
    (listing : List FInfo) (base : Str) :
    let r := s.plan w bagName size t listing (simpleNamer base)
    r.1 = .ok () ∧ (r.2.map (·.name)).Nodup ∧
    ∀ i (m : Manifest), r.2[i]? = some m → m.name = some (base ++ py!"_" ++ natStr (i + 1) ++ py!".mbag") := by
  simp only
  have h := C33_named_in_order (simpleNamer base) false (s.createPlan w bagName size t listing) (fun _ _ => rfl)
  simp only [Bool.false_eq_true, if_false] at h
  refine ⟨h.1, ?_, ?_⟩
  · show ((nameOutputBags _ _ _).2.map (·.name)).Nodup
    rw [h.2.1]
    unfold List.Nodup
    rw [List.pairwise_map]
    exact (List.nodup_range).imp (fun hne e => hne ((C33_default_names base).2 _ _ e))
  · intro i m hm
    have := congrArg (·[i]?) h.2.1
    simp only [List.getElem?_map] at this
    have hm' : (nameOutputBags (simpleNamer base) false (s.createPlan w bagName size t listing)).2[i]? = some m := hm
    rw [hm'] at this
    simp only [Option.map_some] at this
    cases hi : (List.range (s.createPlan w bagName size t listing).length)[i]? with
    | none => rw [hi] at this; cases this
    | some j =>
      rw [hi] at this
      have hj : j = i := by
        rw [List.getElem?_range] at hi
        · injection hi with hi; exact hi.symm
        · obtain ⟨hlt, _⟩ := List.getElem?_eq_some_iff.1 hi
          simpa using hlt
      simp only [Option.map_some, Option.some.injEq] at this
      rw [this, hj]
      simp [simpleNamer]

/-- C33: a supply that runs out after at least one name is reported by `RuntimeError`.
Missing: a supply without any name (`C33_negation`). -/
theorem C33_exhausted_partial (names : Nat → Option Str) (rev : Bool) (ms : List Manifest) (i : Nat) (h0 : 0 < i)
    (hi : i < ms.length) (hlt : ∀ j, j < i → (names j).isSome = true) (hnone : names i = none) :
    (nameOutputBags names rev ms).1 = .error .runtimeError := by
  have : ∀ ms : List Manifest, i < ms.length → (nameLoop names 0 ms).1 = .error .runtimeError := by
    intro ms hi
    have := nameLoop_short names 0 ms i hi (by simpa using hlt) (by simpa using hnone)
    rw [this, if_neg (by omega)]
  unfold nameOutputBags
  split
  · exact this ms.reverse (by simpa using hi)
  · exact this ms hi

/-- C33 fails for an empty supply: the error is an `UnboundLocalError`, not the documented
`RuntimeError`. -/
theorem C33_negation (names : Nat → Option Str) (rev : Bool) (ms : List Manifest) (hne : ms ≠ [])
    (hnone : names 0 = none) : (nameOutputBags names rev ms).1 = .error .unboundLocalError := by
  have : ∀ ms : List Manifest, ms ≠ [] → (nameLoop names 0 ms).1 = .error .unboundLocalError := by
    intro ms hne
    have := nameLoop_short names 0 ms 0 (List.length_pos_iff.2 hne) (by omega) (by simpa using hnone)
    rw [this]; rfl
  unfold nameOutputBags
  split
  · exact this ms.reverse (by simpa using hne)
  · exact this ms hne

/-! ## C34 -/

/-- C34: `find_destination` gives the last manifest with the path among its contents, and
nothing exactly when there is none. -/
theorem C34_find_destination (ms : List Manifest) (p : Str) :
    (∀ m, findDestination ms p = some m ↔
      ∃ before after, ms = before ++ m :: after ∧ p ∈ m.contents ∧ ∀ m' ∈ after, p ∉ m'.contents) ∧
    (findDestination ms p = none ↔ ∀ m ∈ ms, p ∉ m.contents) := by
  constructor
  · intro m
    unfold findDestination
    rw [List.find?_eq_some_iff_append]
    constructor
    · rintro ⟨hm, as, bs, e, h⟩
      refine ⟨bs.reverse, as.reverse, ?_, by simpa using hm, ?_⟩
      · have := congrArg List.reverse e
        simpa using this
      · intro m' hm'
        simpa using h m' (by simpa using hm')
    · rintro ⟨before, after, rfl, hm, h⟩
      exact ⟨by simpa using hm, after.reverse, before.reverse, by simp, fun a ha => by
        simpa using h a (by simpa using ha)⟩
  · unfold findDestination
    rw [List.find?_eq_none]
    simp

example : findDestination [{ contents := [py!"a"] }, { contents := [py!"a", py!"b"] }, { contents := [py!"c"] }] py!"a" =
    some { contents := [py!"a", py!"b"] } := by decide

/-! ## C35 -/

theorem wpLoop_target {max target : Int} (h : max ≤ target) (fs : List FInfo) (i : Nat) (m : Manifest)
    (out : List Manifest) : wpLoop max target fs i m out = wpLoop max max fs i m out := by
  fun_induction wpLoop max target fs i m out with
  | case1 i m out => rw [wpLoop]; simp
  | case2 fs i m out hf closed out1 m1 i1 hi1 f h1 h2 ih =>
    rw [ih]
    conv => rhs; rw [wpLoop, dif_neg hf]
    simp only
    refine (Eq.trans (if_pos h1) ?_).symm
    exact dif_pos h2
  | case3 fs i m out hf closed out1 m1 i1 hi1 f h1 h2 ih =>
    rw [ih]
    conv => rhs; rw [wpLoop, dif_neg hf]
    simp only
    refine (Eq.trans (if_pos h1) ?_).symm
    exact dif_neg h2
  | case4 fs i m out hf closed out1 m1 i1 hi1 f h1 h2 ih => omega
  | case5 fs i m out hf closed out1 m1 i1 hi1 f h1 h2 ih =>
    rw [ih]
    conv => rhs; rw [wpLoop, dif_neg hf]
    simp only
    refine (Eq.trans (if_neg h1) ?_).symm
    exact if_neg h1

theorem selectFromDir_target {max target : Int} (h : max ≤ target) (dir : Str) (fs : List FInfo) (i : Nat)
    (m : Manifest) : selectFromDir max target dir fs i m = selectFromDir max max dir fs i m := by
  fun_induction selectFromDir max target dir fs i m with
  | case1 fs i m hi f hd h1 h2 =>
    conv => rhs; rw [selectFromDir, dif_pos hi]
    simp only
    rw [if_pos hd, if_pos h1, if_pos h2]
  | case2 fs i m hi f hd h1 h2 ih =>
    rw [ih]
    conv => rhs; rw [selectFromDir, dif_pos hi]
    simp only
    rw [if_pos hd, if_pos h1, if_neg h2]
  | case3 fs i m hi f hd h1 h2 => omega
  | case4 fs i m hi f hd h1 h2 ih =>
    rw [ih]
    conv => rhs; rw [selectFromDir, dif_pos hi]
    simp only
    rw [if_pos hd, if_neg h1, if_neg h1]
  | case5 fs i m hi f hd ih =>
    rw [ih]
    conv => rhs; rw [selectFromDir, dif_pos hi]
    simp only
    rw [if_neg hd]
  | case6 fs i m hi =>
    conv => rhs; rw [selectFromDir, dif_neg hi]

theorem nbFill_target {max target : Int} (h : max ≤ target) (ds : List Str) (fs : List FInfo) (m : Manifest) :
    nbFill max target ds fs m = nbFill max max ds fs m := by
  induction ds generalizing fs m with
  | nil => rfl
  | cons d ds ih => simp only [nbFill, selectFromDir_target h, ih]

theorem nbLoop_target {max target : Int} (h : max ≤ target) (fs : List FInfo) (out : List Manifest) :
    nbLoop max target fs out = nbLoop max max fs out := by
  fun_induction nbLoop max target fs out with
  | case1 out => rw [nbLoop]; simp
  | case2 fs out hne r ih =>
    rw [ih]
    conv => rhs; rw [nbLoop, dif_neg hne]
    simp only [r, nbFill_target h]

/-- C35: a target size above the maximum is harmless: the plan is the one made without a
target size. -/
theorem C35_target_above_max (s : Splitter) (tgt : Int) (h : s.max ≤ tgt) (w : Char → Bool) (bagName : Str)
    (size : Str → Nat) (t : Tree) (listing : List FInfo) (names : Nat → Option Str) :
    ({ s with target := some tgt } : Splitter).plan w bagName size t listing names =
      ({ s with target := none } : Splitter).plan w bagName size t listing names := by
  have hr : ∀ fs, ({ s with target := some tgt } : Splitter).run fs = ({ s with target := none } : Splitter).run fs := by
    intro fs
    by_cases h0 : tgt = 0
    · simp [Splitter.run, Splitter.tsz, h0]
    · simp only [Splitter.run, Splitter.tsz, h0, if_false]
      cases s.kind
      · simp only [wpRun, wpLoop_target h]
      · simp only [nbRun, nbLoop_target h]
  unfold Splitter.plan Splitter.createPlan
  simp only [hr]

example : ({ max := 60 } : Splitter).max ≤ 100 := by decide

end Verif
