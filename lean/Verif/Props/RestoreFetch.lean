import Verif.Lemmas.RestoreFetch
import Verif.Props.RestoreSums
/-!
# The fetch list of a restored bag: C48
-/

namespace Verif

open Spec

theorem good_fetch_ne : ([py!"fetch.txt"] : Path) ≠ [] := by decide

theorem fetch_not_manifest : ¬ ManifestFile [py!"fetch.txt"] := by
  rintro ⟨a, h | h⟩ <;> simp at h

theorem forall₂_reverse' {α β : Type} {R : α → β → Prop} {as : List α} {bs : List β} (h : Forall₂ R as bs) :
    Forall₂ R as.reverse bs.reverse := forall₂_reverse h

/-- What the restored fetch list is.  If the member bags other than the head bag list anything, it
has for each path the last entry of the *first* of these bags listing it. Otherwise the file is
that of the last bag having one. -/
theorem C48_merge {E : RestoreEnv} (hE : EnvOk E) {H : RHead} {srcs : List RSource} (hA : Aggregation E H srcs)
    {us rm : Bool} {d out : Tree} (hs : StartsFrom E H d) (h : restore E H us rm d = .ok out)
    {deleted : List Str} (hd : iterDeleted H.mode H.tree H.info = .ok deleted)
    {ls : List (List FetchEntry)} (hl : Forall₂ (fun s l => HasFetch s.tree l) srcs ls) :
    (ls.flatten ≠ [] → ∃ es, out.read [py!"fetch.txt"] = some (fetchText es) ∧ (es.map FetchEntry.path).Nodup ∧
      ∀ p, lastEntry es p = lastEntry ls.reverse.flatten p) ∧
    (ls.flatten = [] → ¬ Deleted deleted [py!"fetch.txt"] →
      dget out [py!"fetch.txt"] = firstAt (⟨H.path, H.tree⟩ :: srcs.reverse) [py!"fetch.txt"]) ∧
    (ls.flatten = [] → H.path ≠ E.base.bagpath → Deleted deleted [py!"fetch.txt"] → dget out [py!"fetch.txt"] = none) := by
  obtain ⟨ms, h1, h2⟩ := aggregation_parts hA
  obtain ⟨deleted', ms', d1, d2, d3, e1, e2, e3, e4, e5, e6⟩ := restore_parts h
  rw [h1] at e2
  cases e2
  rw [hd] at e1
  cases e1
  obtain ⟨d0, i1, i2, hlist, i3⟩ := restore_list h2 e3 e4
  have hnil : [] ∉ pySet deleted := by
    rw [mem_pySet]; exact nil_notMem_deleted hd
  have hend : dget out [py!"fetch.txt"] = dget d3 [py!"fetch.txt"] := finishRestore_fetch e6
  have hlr := forall₂_reverse' hl
  have hcol : ∀ f, collectFetch E (otherMembers H (ms.map (fun m => m.name))) [] = .ok f →
      f = (setFetches [] ls.reverse.flatten).map FetchEntry.pair := fun f hf => collectFetch_spec h2 hlr (es0 := []) hf
  have hflat : ls.flatten = [] ↔ ls.reverse.flatten = [] := by
    simp [List.flatten_eq_nil_iff]
  have hsp := setFetches_spec (es0 := []) (by simp) ls.reverse.flatten
  simp only [List.nil_append] at hsp
  have hss : ∀ s ∈ sourcesOf E H srcs.reverse, WfTree s.tree ∧ s.path ≠ E.base.bagpath := by
    unfold sourcesOf
    intro s hx
    split at hx
    · exact ⟨hA.wf s (List.mem_reverse.1 hx), hA.outside s (List.mem_reverse.1 hx)⟩
    · rename_i hne
      rcases List.mem_cons.1 hx with rfl | hx
      · exact ⟨hA.head, hne⟩
      · exact ⟨hA.wf s (List.mem_reverse.1 hx), hA.outside s (List.mem_reverse.1 hx)⟩
  have key := restoreList_read hE hnil hss hlist good_fetch_ne fetch_not_manifest
  rw [deleted_pySet, i1 [py!"fetch.txt"] (by decide)] at key
  refine ⟨fun hne => ?_, fun he hx => ?_, fun he ho hx => ?_⟩
  · have hne' := fun e => hne (hflat.2 e)
    have hnames : otherMembers H (ms.map (fun m => m.name)) ≠ [] := by
      intro e
      rw [e] at h2
      have : srcs.reverse = [] := by
        generalize srcs.reverse = x at h2; cases h2; rfl
      rw [this] at hlr
      have : ls.reverse = [] := by
        generalize ls.reverse = x at hlr; cases hlr; rfl
      exact hne' (by rw [this]; rfl)
    rw [if_neg hnames] at e5
    unfold restoreFetch at e5
    split at e5
    · cases e5
    · rename_i hc
      have := hcol _ hc
      exfalso
      have hz : setFetches [] ls.reverse.flatten = [] := by
        cases hz : setFetches [] ls.reverse.flatten with
        | nil => rfl
        | cons x y => rw [hz] at this; cases this
      cases hlf : ls.reverse.flatten with
      | nil => exact hne' hlf
      | cons e es =>
        have := hsp.2 e.path
        rw [hz] at this
        exact lastEntry_none.1 this.symm e (by rw [hlf]; exact List.mem_cons_self) rfl
    · rename_i f hf hc
      refine ⟨setFetches [] ls.reverse.flatten, ?_, hsp.1, hsp.2⟩
      rw [read_of_dget hend]
      obtain ⟨rfl, _⟩ := Tree.write_ok e5
      unfold Tree.read
      rw [dget_dset, if_pos rfl, hcol _ hc, flatten_pairs]
  all_goals
    have hsame : d3 = d2 := by
      split at e5
      · cases e5; rfl
      · unfold restoreFetch at e5
        split at e5
        · cases e5
        · cases e5; rfl
        · rename_i f hf hc
          have := hcol _ hc
          rw [hflat.1 he] at this
          exact absurd this hf
    subst hsame
    rw [hend]
  · rcases hs with ⟨e, rfl⟩ | ⟨e, rfl⟩
    · have := key.2.2 rfl hx
      unfold sourcesOf at this
      rw [if_neg e] at this
      exact this
    · simp only [firstAt]
      cases hn : dget H.tree [py!"fetch.txt"] with
      | none =>
        have := key.2.2 hn hx
        unfold sourcesOf at this
        rw [if_pos e] at this
        rw [this, Option.none_or]
      | some n => rw [key.1 (by rw [hn]; simp), hn, Option.some_or]
  · rcases hs with ⟨e, rfl⟩ | ⟨e, rfl⟩
    · exact key.2.1 rfl hx
    · exact absurd e ho

theorem lastEntry_congr {a b : List FetchEntry} (h : ∀ e, e ∈ a ↔ e ∈ b)
    (hb : ∀ e ∈ b, ∀ e' ∈ b, e.path = e'.path → e = e') (p : Str) : lastEntry a p = lastEntry b p := by
  cases hx : lastEntry b p with
  | none =>
    rw [lastEntry_none] at hx ⊢
    exact fun e he => hx e ((h e).1 he)
  | some e =>
    obtain ⟨h1, h2⟩ := lastEntry_some hx
    rw [← h2]
    exact lastEntry_of_mem ((h e).2 h1) (fun x hx' hp => hb x ((h x).1 hx') e h1 hp)

theorem firstAt_empty {ss : List RSource} {p : Path} (h : ∀ s ∈ ss, (s.tree.read p).getD [] = []) {t : Tree}
    (ht : dget t p = firstAt ss p) : (t.read p).getD [] = [] := by
  induction ss with
  | nil =>
    have : dget t p = none := ht
    unfold Tree.read; rw [this]; rfl
  | cons s ss ih =>
    simp only [firstAt] at ht
    cases hs : dget s.tree p with
    | none =>
      rw [hs, Option.none_or] at ht
      exact ih (fun x hx => h x (List.mem_cons_of_mem _ hx)) ht
    | some n =>
      rw [hs, Option.some_or, ← hs] at ht
      rw [read_of_dget ht]
      exact h s List.mem_cons_self

/-- C48 for fetch lists that do not contradict each other and list nothing that is deleted, where
what the head bag lists is listed in another bag too, or the other bags list nothing: the restored
bag's fetch list is the merged one.  Missing: the other cases (`C48_negation_first`,
`C48_negation_head`, `C48_negation_deleted`), paths with spaces and lists that do not end with a line end
(`C48_negation_space`, `C48_negation_newline`), and other ways of writing the lists. -/
theorem C48_fetch_partial {E : RestoreEnv} (hE : EnvOk E) {H : RHead} {srcs : List RSource} (hA : Aggregation E H srcs)
    {us rm : Bool} {d out : Tree} (hs : StartsFrom E H d) (h : restore E H us rm d = .ok out)
    {deleted : List Str} (hd : iterDeleted H.mode H.tree H.info = .ok deleted)
    {ls : List (List FetchEntry)} {hl : List FetchEntry}
    (hls : Forall₂ (fun t l => HasFetch t l) (memberTrees H srcs) (ls ++ [hl]))
    (hagree : ∀ e ∈ (ls ++ [hl]).flatten, ∀ e' ∈ (ls ++ [hl]).flatten, e.path = e'.path → e = e')
    (hhead : (∀ e ∈ hl, e ∈ ls.flatten) ∨ ls.flatten = [])
    (hdel : ∀ e ∈ (ls ++ [hl]).flatten, ¬ Deleted deleted (comps e.path)) (hkeep : ¬ Deleted deleted [py!"fetch.txt"]) :
    ∃ es, HasFetch out es ∧ MergedFetch deleted (ls ++ [hl]) es := by
  obtain ⟨hsrc, hhl⟩ : Forall₂ (fun s l => HasFetch s.tree l) srcs ls ∧ HasFetch H.tree hl := by
    unfold memberTrees at hls
    clear hA hagree hhead hdel h
    induction srcs generalizing ls with
    | nil =>
      cases ls with
      | nil => cases hls with | cons h _ => exact ⟨.nil, h⟩
      | cons l ls =>
        cases hls with
        | cons _ h => exact absurd h (by intro h; cases ls <;> cases h)
    | cons s srcs ih =>
      cases ls with
      | nil =>
        cases hls with
        | cons _ h => exact absurd h (by intro h; cases srcs <;> cases h)
      | cons l ls =>
        cases hls with
        | cons h1 h2 =>
          obtain ⟨k1, k2⟩ := ih h2
          exact ⟨.cons h1 k1, k2⟩
  obtain ⟨m1, m2, -⟩ := C48_merge hE hA hs h hd hsrc
  have merged : ∀ es : List FetchEntry, (∀ p, lastEntry es p = lastEntry (ls ++ [hl]).flatten p) →
      MergedFetch deleted (ls ++ [hl]) es := by
    intro es hes p
    refine ⟨fun hp => ?_, fun _ => hes p⟩
    rw [hes p, lastEntry_none]
    rintro e he rfl
    exact hdel e he hp
  by_cases hne : ls.flatten = []
  · have hfirst := m2 hne hkeep
    have hfl : (ls ++ [hl]).flatten = hl := by simp [hne]
    refine ⟨hl, ⟨?_, hhl.2⟩, merged hl (fun p => by rw [hfl])⟩
    simp only [firstAt] at hfirst
    cases hH : dget H.tree [py!"fetch.txt"] with
    | some n =>
      rw [hH, Option.some_or, ← hH] at hfirst
      rw [read_of_dget hfirst]
      exact hhl.1
    | none =>
      rw [hH, Option.none_or] at hfirst
      have : fetchText hl = [] := by
        rw [← hhl.1, read_none_of_dget hH]; rfl
      rw [this]
      refine firstAt_empty (fun s hs => ?_) hfirst
      obtain ⟨l, hl', hr⟩ := forall₂_mem_left hsrc (List.mem_reverse.1 hs)
      rw [hr.1, (List.flatten_eq_nil_iff.1 hne) l hl']
      rfl
  · obtain ⟨es, k1, k2, k3⟩ := m1 hne
    have hmem : ∀ e, e ∈ ls.reverse.flatten ↔ e ∈ (ls ++ [hl]).flatten := by
      intro e
      simp only [List.mem_flatten, List.mem_reverse, List.mem_append, List.mem_singleton]
      constructor
      · rintro ⟨l, h1, h2⟩
        exact ⟨l, .inl h1, h2⟩
      · rintro ⟨l, h1 | rfl, h2⟩
        · exact ⟨l, h1, h2⟩
        · rcases hhead with hh | hh
          · exact List.mem_flatten.1 (hh e h2)
          · exact absurd hh hne
    refine ⟨es, ⟨by rw [k1]; rfl, ?_⟩, merged es (fun p => ?_)⟩
    · intro e he
      have hle : lastEntry es e.path = some e := by
        refine lastEntry_of_mem he (fun x hx hp => ?_)
        obtain ⟨i, hi, hix⟩ := List.getElem_of_mem hx
        obtain ⟨j, hj, hje⟩ := List.getElem_of_mem he
        have := (List.getElem_inj (xs := es.map FetchEntry.path) (i := i) (j := j) (h₀ := by simpa using hi) (h₁ := by simpa using hj) k2).1 (by
          rw [List.getElem_map, List.getElem_map, hix, hje, hp])
        subst this
        rw [← hix, ← hje]
      rw [k3] at hle
      obtain ⟨l, h1, h2⟩ := List.mem_flatten.1 (lastEntry_some hle).1
      obtain ⟨s, _, hr⟩ := forall₂_mem_right hsrc (List.mem_reverse.1 h1)
      exact hr.2 e h2
    · rw [k3, lastEntry_congr hmem hagree]

/-! ### A case that meets the hypotheses -/

namespace Sample

def far : FetchEntry := ⟨py!"http://e.x/far", py!"9", py!"data/far"⟩
def farther : FetchEntry := ⟨py!"http://e.y/far", py!"9", py!"data/far"⟩
def gone : FetchEntry := ⟨py!"http://e.x/gone", py!"1", py!"data/x/gone"⟩

def withFetch (t : Tree) (es : List FetchEntry) : Tree := t ++ [([py!"fetch.txt"], .file (fetchText es))]

/-- A head bag listing another member. -/
def hb3 : Tree := dset hb [py!"multibag", py!"member-bags.tsv"] (.file py!"m1\nm2\nhb\n")

def head3 (es : List FetchEntry) : RHead := { head with tree := withFetch hb3 es }

def m2 : Tree :=
  [([py!"bagit.txt"], .file bagitText), ([py!"data"], .dir), ([py!"data", py!"c"], .file py!"cc"),
   ([py!"manifest-md5.txt"], .file py!"d2 data/c\n")]

def env3 (es1 es2 : List FetchEntry) : RestoreEnv :=
  { renv with find := fun n => if n = py!"m1" then some ⟨py!"/store/m1", withFetch m1 es1⟩
      else if n = py!"m2" then some ⟨py!"/store/m2", withFetch m2 es2⟩ else none }

def srcs3 (es1 es2 : List FetchEntry) : List RSource :=
  [⟨py!"/store/m1", withFetch m1 es1⟩, ⟨py!"/store/m2", withFetch m2 es2⟩]

theorem env3_ok (es1 es2 : List FetchEntry) : EnvOk (env3 es1 es2) := ⟨fun _ h => isWalk_walkOf h, renv_ok.2⟩

theorem aggregation3 {es1 es2 eh : List FetchEntry} (h1 : WfTree (withFetch m1 es1)) (h2 : WfTree (withFetch m2 es2))
    (hh : WfTree (withFetch hb3 eh)) : Aggregation (env3 es1 es2) (head3 eh) (srcs3 es1 es2) where
  members := ⟨_, [py!"m1", py!"m2"], rfl, .inl rfl, .cons rfl (.cons rfl .nil)⟩
  head := hh
  wf := by
    intro s hs
    have : s = ⟨py!"/store/m1", withFetch m1 es1⟩ ∨ s = ⟨py!"/store/m2", withFetch m2 es2⟩ := by simpa [srcs3] using hs
    rcases this with rfl | rfl
    · exact h1
    · exact h2
  outside := by
    intro s hs
    have : s = ⟨py!"/store/m1", withFetch m1 es1⟩ ∨ s = ⟨py!"/store/m2", withFetch m2 es2⟩ := by simpa [srcs3] using hs
    rcases this with rfl | rfl
    · show py!"/store/m1" ≠ py!"/out"; decide
    · show py!"/store/m2" ≠ py!"/out"; decide

theorem hasFetch3 {es1 es2 eh : List FetchEntry} (hp : ∀ e ∈ es1 ++ es2 ++ eh, e.Plain) :
    Forall₂ (fun t l => HasFetch t l) (memberTrees (head3 eh) (srcs3 es1 es2)) ([es1, es2] ++ [eh]) :=
  .cons ⟨rfl, fun e he => hp e (by simp [he])⟩ (.cons ⟨rfl, fun e he => hp e (by simp [he])⟩
    (.cons ⟨rfl, fun e he => hp e (by simp [he])⟩ .nil))

theorem plain_far : far.Plain := ⟨⟨by decide, by decide⟩, ⟨by decide, by decide⟩, ⟨by decide, by decide⟩⟩
theorem plain_farther : farther.Plain := ⟨⟨by decide, by decide⟩, ⟨by decide, by decide⟩, ⟨by decide, by decide⟩⟩
theorem plain_gone : gone.Plain := ⟨⟨by decide, by decide⟩, ⟨by decide, by decide⟩, ⟨by decide, by decide⟩⟩

/-- Deletion of a path of two names, decided. -/
theorem deleted_two {ds : List Str} {a b : Str} : Deleted ds [a, b] ↔ joinPath [a] ∈ ds ∨ joinPath [a, b] ∈ ds := by
  constructor
  · rintro ⟨q, h1, h2, h3⟩
    rw [List.prefix_iff_eq_take] at h2
    rcases hq : q.length with _ | _ | n
    · exact absurd (List.length_eq_zero_iff.1 hq) h1
    · rw [hq] at h2
      rw [h2] at h3
      exact .inl h3
    · rw [hq, List.take_of_length_le (by simp)] at h2
      rw [h2] at h3
      exact .inr h3
  · rintro (h | h)
    · exact ⟨[a], by simp, ⟨[b], rfl⟩, h⟩
    · exact ⟨[a, b], by simp, List.prefix_refl _, h⟩

theorem kept_fetch : ¬ Deleted [py!"data/x"] [py!"fetch.txt"] := by
  rintro ⟨q, h1, h2, h3⟩
  rw [List.prefix_iff_eq_take] at h2
  rcases hq : q.length with _ | n
  · exact h1 (List.length_eq_zero_iff.1 hq)
  · rw [hq, List.take_of_length_le (by simp)] at h2
    subst h2
    revert h3; decide

end Sample

/-- The hypotheses of `C48_fetch_partial` are met: two bags list the same file. -/
example : ∃ out es, restore (Sample.env3 [Sample.far] [Sample.far]) (Sample.head3 []) true true [] = .ok out ∧
    HasFetch out es ∧ MergedFetch [py!"data/x"] [[Sample.far], [Sample.far], []] es ∧
    out.read [py!"fetch.txt"] = some py!"http://e.x/far 9 data/far\n" := by
  obtain ⟨out, h1, h2⟩ := Sample.ok_of_check
    (r := restore (Sample.env3 [Sample.far] [Sample.far]) (Sample.head3 []) true true [])
    (f := fun out => decide (out.read [py!"fetch.txt"] = some py!"http://e.x/far 9 data/far\n")) (by decide +kernel)
  obtain ⟨es, k1, k2⟩ := C48_fetch_partial (Sample.env3_ok _ _)
    (Sample.aggregation3 (Sample.wf_of_check (by decide)) (Sample.wf_of_check (by decide)) (Sample.wf_of_check (by decide)))
    (.inl ⟨by decide, rfl⟩) h1 (deleted := [py!"data/x"]) rfl
    (Sample.hasFetch3 (by intro e he; have : e = Sample.far := by simpa using he
                          subst this; exact Sample.plain_far))
    (by decide) (.inl (by simp)) (by
      intro e he
      have : e = Sample.far := by simpa using he
      subst this
      exact fun h => absurd (Sample.deleted_two.1 h) (by decide)) Sample.kept_fetch
  exact ⟨out, es, h1, k1, k2, of_decide_eq_true h2⟩

/-! ### Where the property fails -/

/-- C48 is false of the code: where two bags list a file differently, the entry of the earlier one
is kept. -/
theorem C48_negation_first : ∃ (E : RestoreEnv) (H : RHead) (srcs : List RSource) (deleted : List Str)
    (ls : List (List FetchEntry)) (out : Tree) (es : List FetchEntry), EnvOk E ∧ Aggregation E H srcs ∧
    iterDeleted H.mode H.tree H.info = .ok deleted ∧ Forall₂ (fun t l => HasFetch t l) (memberTrees H srcs) ls ∧
    restore E H true true [] = .ok out ∧ HasFetch out es ∧ ¬ MergedFetch deleted ls es := by
  obtain ⟨out, h1, h2⟩ := Sample.ok_of_check
    (r := restore (Sample.env3 [Sample.farther] [Sample.far]) (Sample.head3 []) true true [])
    (f := fun out => decide ((out.read [py!"fetch.txt"]).getD [] = fetchText [Sample.farther])) (by decide +kernel)
  refine ⟨_, _, _, [py!"data/x"], _, out, [Sample.farther], Sample.env3_ok _ _,
    Sample.aggregation3 (Sample.wf_of_check (by decide)) (Sample.wf_of_check (by decide)) (Sample.wf_of_check (by decide)),
    rfl, Sample.hasFetch3 ?_, h1, ⟨of_decide_eq_true h2, ?_⟩, ?_⟩
  · intro e he
    have : e = Sample.farther ∨ e = Sample.far := by simpa using he
    rcases this with rfl | rfl
    · exact Sample.plain_farther
    · exact Sample.plain_far
  · intro e he
    rw [List.mem_singleton] at he; subst he; exact Sample.plain_farther
  · intro h
    exact absurd ((h py!"data/far").2 (fun h => absurd (Sample.deleted_two.1 h) (by decide))) (by decide)

/-- C48 is false of the code: where another bag has a fetch list, what only the head bag lists is
lost. -/
theorem C48_negation_head : ∃ (E : RestoreEnv) (H : RHead) (srcs : List RSource) (deleted : List Str)
    (ls : List (List FetchEntry)) (out : Tree) (es : List FetchEntry), EnvOk E ∧ Aggregation E H srcs ∧
    iterDeleted H.mode H.tree H.info = .ok deleted ∧ Forall₂ (fun t l => HasFetch t l) (memberTrees H srcs) ls ∧
    restore E H true true [] = .ok out ∧ HasFetch out es ∧ ¬ MergedFetch deleted ls es := by
  obtain ⟨out, h1, h2⟩ := Sample.ok_of_check
    (r := restore (Sample.env3 [] [Sample.farther]) (Sample.head3 [Sample.far]) true true [])
    (f := fun out => decide ((out.read [py!"fetch.txt"]).getD [] = fetchText [Sample.farther])) (by decide +kernel)
  refine ⟨_, _, _, [py!"data/x"], _, out, [Sample.farther], Sample.env3_ok _ _,
    Sample.aggregation3 (Sample.wf_of_check (by decide)) (Sample.wf_of_check (by decide)) (Sample.wf_of_check (by decide)),
    rfl, Sample.hasFetch3 ?_, h1, ⟨of_decide_eq_true h2, ?_⟩, ?_⟩
  · intro e he
    have : e = Sample.farther ∨ e = Sample.far := by simpa using he
    rcases this with rfl | rfl
    · exact Sample.plain_farther
    · exact Sample.plain_far
  · intro e he
    rw [List.mem_singleton] at he; subst he; exact Sample.plain_farther
  · intro h
    exact absurd ((h py!"data/far").2 (fun h => absurd (Sample.deleted_two.1 h) (by decide))) (by decide)

/-- C48 is false of the code: a deleted path that is listed in a member bag stays listed. -/
theorem C48_negation_deleted : ∃ (E : RestoreEnv) (H : RHead) (srcs : List RSource) (deleted : List Str)
    (ls : List (List FetchEntry)) (out : Tree) (es : List FetchEntry), EnvOk E ∧ Aggregation E H srcs ∧
    iterDeleted H.mode H.tree H.info = .ok deleted ∧ Forall₂ (fun t l => HasFetch t l) (memberTrees H srcs) ls ∧
    restore E H true true [] = .ok out ∧ HasFetch out es ∧ ¬ MergedFetch deleted ls es := by
  obtain ⟨out, h1, h2⟩ := Sample.ok_of_check
    (r := restore (Sample.env3 [] [Sample.gone]) (Sample.head3 []) true true [])
    (f := fun out => decide ((out.read [py!"fetch.txt"]).getD [] = fetchText [Sample.gone])) (by decide +kernel)
  have hg : ∀ e ∈ [Sample.gone], e.Plain := by
    intro e he
    rw [List.mem_singleton] at he; subst he; exact Sample.plain_gone
  refine ⟨_, _, _, [py!"data/x"], _, out, [Sample.gone], Sample.env3_ok _ _,
    Sample.aggregation3 (Sample.wf_of_check (by decide)) (Sample.wf_of_check (by decide)) (Sample.wf_of_check (by decide)),
    rfl, Sample.hasFetch3 (by simpa using hg), h1, ⟨of_decide_eq_true h2, hg⟩, ?_⟩
  intro h
  exact absurd ((h py!"data/x/gone").1 ⟨[py!"data", py!"x"], by decide, ⟨[py!"gone"], rfl⟩, by decide⟩) (by decide)

namespace Sample

/-- The sample members, with fetch lists in these words. -/
def envText (t1 t2 : Str) : RestoreEnv :=
  { renv with find := fun n => if n = py!"m1" then some ⟨py!"/store/m1", m1 ++ [([py!"fetch.txt"], .file t1)]⟩
      else if n = py!"m2" then some ⟨py!"/store/m2", m2 ++ [([py!"fetch.txt"], .file t2)]⟩ else none }

end Sample

/-- C48 is false of the code: of two files whose paths differ before a space only, in two bags, one is no longer listed. -/
theorem C48_negation_space : ∃ out,
    restore (Sample.envText py!"http://e.x/1 9 data/my far\n" py!"http://e.x/2 9 data/your far\n") (Sample.head3 []) true true [] = .ok out ∧
    out.read [py!"fetch.txt"] = some py!"http://e.x/1 9 data/my far\n" := by
  obtain ⟨out, h1, h2⟩ := Sample.ok_of_check
    (r := restore (Sample.envText py!"http://e.x/1 9 data/my far\n" py!"http://e.x/2 9 data/your far\n") (Sample.head3 []) true true [])
    (f := fun out => decide (out.read [py!"fetch.txt"] = some py!"http://e.x/1 9 data/my far\n")) (by decide +kernel)
  exact ⟨out, h1, of_decide_eq_true h2⟩

/-- C48 is false of the code: after a list that does not end with a line end comes the first line of the next list, on the
same line, so that the restored list names one file, which no bag lists. -/
theorem C48_negation_newline : ∃ out,
    restore (Sample.envText py!"http://e.x/1 9 data/one\n" py!"http://e.x/2 9 data/two") (Sample.head3 []) true true [] = .ok out ∧
    out.read [py!"fetch.txt"] = some py!"http://e.x/2 9 data/twohttp://e.x/1 9 data/one\n" := by
  obtain ⟨out, h1, h2⟩ := Sample.ok_of_check
    (r := restore (Sample.envText py!"http://e.x/1 9 data/one\n" py!"http://e.x/2 9 data/two") (Sample.head3 []) true true [])
    (f := fun out => decide (out.read [py!"fetch.txt"] = some py!"http://e.x/2 9 data/twohttp://e.x/1 9 data/one\n")) (by decide +kernel)
  exact ⟨out, h1, of_decide_eq_true h2⟩

end Verif
