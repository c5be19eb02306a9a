import Verif.Lemmas.FetchRun
import Verif.Spec.OwnCache
/-!
# A run with fetched bags that are kept in a directory outside the destination
-/

namespace Verif

open Spec

/-- A restorer with a function that delivers bags into the directory `C`. -/
structure OwnCache (S : FetchSite) (r : Restorer) (wd D C : Path) (f : Fetcher) (bags : Str → Option Tree) (names : List Str) : Prop where
  cwd : AbsPath S.cwd wd
  exts : ∀ e, e ∈ S.exts ↔ e ∈ serialized
  fetcher : S.fetcher = some f
  dest : leadsTo wd r.destdir = D
  cache : leadsTo wd r.cachedir = C
  ne : r.cachedir ≠ []
  delivers : Delivers f bags r.cachedir C
  out : ¬ D <+: C
  apart : ∀ n ∈ names, ∀ e ∈ [] :: serialized, ¬ C ++ [n ++ e] <+: D

variable {S : FetchSite} {r : Restorer} {wd D C : Path} {f : Fetcher} {bags : Str → Option Tree} {names : List Str}

theorem OwnCache.clean (h : OwnCache S r wd D C f bags names) : Clean D := by
  rw [← h.dest]; exact goodName_leadsTo h.cwd.1.2 _

theorem OwnCache.destPath (h : OwnCache S r wd D C f bags names) : S.destPath r = D := by
  unfold FetchSite.destPath
  rw [comps_abspath h.cwd, h.dest]

theorem OwnCache.beside (h : OwnCache S r wd D C f bags names) {n e : Str} (hn : n ∈ names) (he : e ∈ [] :: serialized) (p : Path) :
    ¬ D <+: C ++ [n ++ e] ++ p := by
  intro hc
  rcases List.prefix_or_prefix_of_prefix hc (List.prefix_append _ p) with hc | hc
  · rcases List.prefix_concat_iff.1 hc with e1 | e1
    · exact h.apart n hn e he (e1 ▸ List.prefix_refl _)
    · exact h.out e1
  · exact h.apart n hn e he hc

theorem below_withBelow_other {t u : Tree} {d x : Path} (h : ∀ p, ¬ d <+: x ++ p) : (t.withBelow d u).below x = t.below x := by
  unfold Tree.withBelow
  have h1 : Tree.below (t.filter (fun e => !(d.isPrefixOf e.1 && decide (e.1 ≠ d)))) x = t.below x :=
    below_filter_all (f := fun y => !(d.isPrefixOf y && decide (y ≠ d))) (fun p => by simp only [isPrefixOf_false (h p), Bool.false_and, Bool.not_false])
  have h2 : Tree.below (u.map (fun e => (d ++ e.1, e.2))) x = [] := by
    unfold Tree.below
    rw [List.filterMap_eq_nil_iff]
    intro e he
    obtain ⟨y, _, rfl⟩ := List.mem_map.1 he
    rw [if_neg]
    intro hc
    rw [Bool.and_eq_true, List.isPrefixOf_iff_prefix] at hc
    obtain ⟨s, hs⟩ := hc.1
    exact h s (hs ▸ List.prefix_append _ _)
  have h3 : ∀ a b : Tree, Tree.below (a ++ b) x = Tree.below a x ++ Tree.below b x := fun a b => by
    unfold Tree.below; rw [List.filterMap_append]
  rw [h3, h1, h2, List.append_nil]

/-- What is there when such a run has come as far as one with the bags at hand, whose destination is `d`: `got` are the
names of the bags fetched so far. -/
structure KeptApart (W0 : Tree) (bags : Str → Option Tree) (D C : Path) (got : List Str) (d W : Tree) : Prop where
  wf : WfTree W
  dest : W.isdir D = true
  contents : W.below D = d
  place : W.isdir C = true
  have_ : ∀ n ∈ got, W.isdir (C ++ [n]) = true ∧ bags n = some (W.below (C ++ [n]))
  rest : ∀ q, ¬ D <+: q → (∀ n ∈ got, ¬ C ++ [n] <+: q) → dget W q = dget W0 q
  below : ∀ x, (∀ p, ¬ D <+: C ++ [x] ++ p) → x ∉ got → W.below (C ++ [x]) = W0.below (C ++ [x])

theorem snoc_prefix_snoc {C : Path} {a b : Str} {p : Path} (h : C ++ [a] <+: C ++ [b] ++ p) : a = b := by
  rw [List.append_assoc, List.prefix_append_right_inj] at h
  simpa using h

/-- Something is done in the destination. -/
theorem KeptApart.work (h : OwnCache S r wd D C f bags names) {W0 d W : Tree} {got : List Str} (hk : KeptApart W0 bags D C got d W)
    (hgot : ∀ n ∈ got, n ∈ names) {e : Tree} (hw : WfTree e) : KeptApart W0 bags D C got e (W.withBelow D e) := by
  have hb := below_withBelow W D (entries_ne_nil hw)
  have hap : ∀ n ∈ names, ∀ p, ¬ D <+: C ++ [n] ++ p := fun n hn p => by
    have := h.beside hn (e := []) List.mem_cons_self p
    rwa [List.append_nil] at this
  refine ⟨wf_withBelow hk.wf hw hk.dest h.clean, isdir_withBelow_self W e hk.dest, hb, ?_, ?_, ?_, ?_⟩
  · have := hk.place
    rw [isdir_iff] at this ⊢
    rw [dget_withBelow_other _ _ h.out]; exact this
  · intro n hn
    obtain ⟨h1, h2⟩ := hk.have_ n hn
    have h3 := hap n (hgot n hn)
    refine ⟨?_, by rw [below_withBelow_other h3]; exact h2⟩
    rw [isdir_iff] at h1 ⊢
    rw [dget_withBelow_other _ _ (by simpa using h3 [])]; exact h1
  · intro q hq hg
    rw [dget_withBelow_other _ _ hq]; exact hk.rest q hq hg
  · intro x hx hg
    rw [below_withBelow_other hx]; exact hk.below x hx hg

/-- A bag is fetched. -/
theorem KeptApart.more (h : OwnCache S r wd D C f bags names) {W0 d W W' : Tree} {got : List Str} (hk : KeptApart W0 bags D C got d W)
    {n : Str} (hn : n ∈ names) (hg : n ∉ got) {t : Tree} (ht : bags n = some t) (hd : Delivered W W' (C ++ [n]) t) :
    KeptApart W0 bags D C (n :: got) d W' := by
  have hD : ¬ C ++ [n] <+: D := by
    have := h.apart n hn [] List.mem_cons_self
    rwa [List.append_nil] at this
  have hap : ∀ p, ¬ D <+: C ++ [n] ++ p := fun p => by
    have := h.beside hn (e := []) List.mem_cons_self p
    rwa [List.append_nil] at this
  have hDp : ∀ p, ¬ C ++ [n] <+: D ++ p := by
    intro p hc
    rcases List.prefix_or_prefix_of_prefix hc (List.prefix_append D p) with e | e
    · exact hD e
    · exact hap [] (by rw [List.append_nil]; exact e)
  refine ⟨hd.proper, ?_, by rw [hd.below hDp]; exact hk.contents, ?_, ?_, ?_, ?_⟩
  · have := hk.dest
    rw [isdir_iff] at this ⊢
    rw [hd.dget hD]; exact this
  · have := hk.place
    rw [isdir_iff] at this ⊢
    rw [hd.dget (p := C) (fun hc => by have := hc.length_le; simp only [List.length_append, List.length_cons] at this; omega)]; exact this
  · intro m hm
    rcases List.mem_cons.1 hm with rfl | hm
    · exact ⟨hd.dir, by rw [hd.contents]; exact ht⟩
    · have hne : n ≠ m := fun e => hg (e ▸ hm)
      obtain ⟨h1, h2⟩ := hk.have_ m hm
      refine ⟨?_, by rw [hd.below (fun p hc => hne (snoc_prefix_snoc hc))]; exact h2⟩
      rw [isdir_iff] at h1 ⊢
      rw [hd.dget (p := C ++ [m]) (fun hc => hne (snoc_prefix_snoc (p := []) (by rw [List.append_nil]; exact hc)))]; exact h1
  · intro q hq hx
    rw [hd.dget (hx n List.mem_cons_self)]
    exact hk.rest q hq (fun m hm => hx m (List.mem_cons_of_mem _ hm))
  · intro x hx hm
    rw [List.mem_cons, not_or] at hm
    rw [hd.below (fun p hc => hm.1 (snoc_prefix_snoc hc).symm)]
    exact hk.below x hx hm.2

theorem join_ne_nil {a n : Str} (hn : GoodName n) (e : Str) : pathJoin a n ++ e ≠ [] := by
  intro h
  have h := (List.append_eq_nil_iff.1 h).1
  rcases join_cases (a := a) hn with h3 | h3
  · rw [h3.1] at h
    exact hn.nonempty (List.append_eq_nil_iff.1 h).2
  · rw [h3.1] at h
    simp at h

/-- A bag that is found. -/
theorem member_found {W : Tree} {n p : Str} (hp : p ≠ []) (h : r.find S.exts S.cwd W n = some p) :
    S.member r W n = .ok (S.sourceAt W p, W, []) := by
  unfold FetchSite.member Restorer.getMember
  simp only [h, given_eq_some.2 ⟨rfl, hp⟩, Option.bind_some, Option.isNone_some, Bool.false_and, Bool.false_eq_true, if_false]

/-- Getting a bag, whether it is there or must be fetched. -/
theorem OwnCache.member (h : OwnCache S r wd D C f bags names) {W0 d W : Tree} {got : List Str} (hk : KeptApart W0 bags D C got d W)
    (hgot : ∀ n ∈ got, Absent W0 C n ∧ W0.exists (C ++ [n]) = false ∧ n ∈ names) {n : Str} (hg : GoodName n) (hn : n ∈ names) {s : RSource}
    (hs : Supply W0 S.archives bags S.cwd r.cachedir C n s) :
    ∃ W' asked got', S.member r W n = .ok (some s, W', asked) ∧ KeptApart W0 bags D C got' d W' ∧
      asked.Nodup ∧ (∀ m, m ∈ asked ↔ m = n ∧ m ∉ got ∧ Absent W0 C m) ∧ (∀ m, m ∈ got' ↔ m ∈ got ∨ m ∈ asked) := by
  have hap : ∀ p, ¬ D <+: C ++ [n] ++ p := fun p => by
    have := h.beside hn (e := []) List.mem_cons_self p
    rwa [List.append_nil] at this
  have hcomps : ∀ {e : Str}, e ∈ serialized → comps (abspath S.cwd (pathJoin r.cachedir n ++ e)) = C ++ [n ++ e] := by
    intro e he
    rw [comps_abspath h.cwd, (find_file (disk := W) h.cwd h.ne hg he).1, h.cache]
  have hcomps0 : comps (abspath S.cwd (pathJoin r.cachedir n)) = C ++ [n] := by
    rw [comps_abspath h.cwd, leadsTo_join_name wd h.ne hg, h.cache]
  have hne0 : pathJoin r.cachedir n ≠ [] := by simpa using join_ne_nil (a := r.cachedir) hg []
  have found : ∀ t : Tree, W.isdir (C ++ [n]) = true → W.below (C ++ [n]) = t →
      S.member r W n = .ok (some ⟨abspath S.cwd (pathJoin r.cachedir n), t⟩, W, []) := by
    intro t h1 h2
    rw [member_found hne0]
    · simp only [FetchSite.sourceAt, hcomps0, h1, if_true, h2]
    · unfold Restorer.find
      simp only [(find_dir h.cwd h.ne hg).2 (show HasUnpacked W (leadsTo wd r.cachedir) n by unfold HasUnpacked; rw [h.cache]; exact h1), if_true]
  have old : ∀ x, (∀ p, ¬ D <+: C ++ [x] ++ p) → x ∉ got → dget W (C ++ [x]) = dget W0 (C ++ [x]) := fun x hx hxg =>
    hk.rest _ (by simpa using hx []) (fun m hm hc => hxg (snoc_prefix_snoc (p := []) (by rw [List.append_nil]; exact hc) ▸ hm))
  cases hs with
  | unpacked hu =>
    have hng : n ∉ got := fun hm => (hgot n hm).1.1 hu
    refine ⟨W, [], got, found _ ?_ (hk.below n hap hng), hk, List.nodup_nil, fun m => ?_, fun m => by simp⟩
    · unfold HasUnpacked at hu
      rw [isdir_iff] at hu ⊢
      rw [old n hap hng]; exact hu
    · simp only [List.not_mem_nil, false_iff]
      rintro ⟨rfl, _, hm⟩; exact hm.1 hu
  | packed e t hu ha hone hat =>
    have hng : n ∉ got := fun hm => (hgot n hm).1.2 e ha
    have hdir : W.isdir (C ++ [n]) = false := by
      unfold HasUnpacked at hu
      rw [Bool.eq_false_iff]
      intro hc
      apply hu
      rw [isdir_iff] at hc ⊢
      rw [← old n hap hng]; exact hc
    have hfile : ∀ e', e' ∈ serialized → (W.isfile (C ++ [n ++ e']) = true ↔ e' = e) := by
      intro e' he'
      have hap' := h.beside hn (List.mem_cons_of_mem _ he')
      by_cases hx : n ++ e' ∈ got
      · have h1 := (hk.have_ _ hx).1
        constructor
        · intro hf
          obtain ⟨c, hc⟩ := isfile_iff.1 hf
          rw [isdir_iff, hc] at h1
          simp at h1
        · intro he
          subst he
          have h2 := (hgot _ hx).2.1
          obtain ⟨c, hc⟩ := isfile_iff.1 ha.2
          unfold Tree.exists at h2
          rw [hc] at h2
          simp at h2
      · have h1 := old (n ++ e') hap' hx
        have h2 : W.isfile (C ++ [n ++ e']) = W0.isfile (C ++ [n ++ e']) := by unfold Tree.isfile; rw [h1]
        rw [h2]
        exact ⟨fun hf => hone e' ⟨he', hf⟩, fun he => he ▸ ha.2⟩
    have hfd : r.find S.exts S.cwd W n = some (pathJoin r.cachedir n ++ e) := by
      unfold Restorer.find
      have h1 : diskIsdir S.cwd W (pathJoin r.cachedir n) = false := by
        rw [diskIsdir, hcomps0]; exact hdir
      simp only [h1, Bool.false_eq_true, if_false]
      have h2 : ∀ x ∈ (S.exts.map (fun e => pathJoin r.cachedir n ++ e)).filter (diskIsfile S.cwd W), x = pathJoin r.cachedir n ++ e := by
        intro x hx
        obtain ⟨hx1, hx2⟩ := List.mem_filter.1 hx
        obtain ⟨e', he', rfl⟩ := List.mem_map.1 hx1
        have he' := (h.exts e').1 he'
        rw [diskIsfile, hcomps he'] at hx2
        rw [(hfile e' he').1 hx2]
      have h3 : pathJoin r.cachedir n ++ e ∈ (S.exts.map (fun e => pathJoin r.cachedir n ++ e)).filter (diskIsfile S.cwd W) := by
        refine List.mem_filter.2 ⟨List.mem_map.2 ⟨e, (h.exts e).2 ha.1, rfl⟩, ?_⟩
        rw [diskIsfile, hcomps ha.1]
        exact (hfile e ha.1).2 rfl
      cases hl : (S.exts.map (fun e => pathJoin r.cachedir n ++ e)).filter (diskIsfile S.cwd W) with
      | nil => rw [hl] at h3; cases h3
      | cons x l =>
        rw [hl] at h2
        rw [List.head?_cons, h2 x List.mem_cons_self]
    have hndir : W.isdir (C ++ [n ++ e]) = false := by
      obtain ⟨c, hc⟩ := isfile_iff.1 ((hfile e ha.1).2 rfl)
      rw [Bool.eq_false_iff]
      intro hx
      rw [isdir_iff, hc] at hx
      simp at hx
    refine ⟨W, [], got, ?_, hk, List.nodup_nil, fun m => ?_, fun m => by simp⟩
    · rw [member_found (join_ne_nil hg e) hfd]
      simp only [FetchSite.sourceAt, hcomps ha.1, hndir, Bool.false_eq_true, if_false, hat, Option.map_some]
    · simp only [List.not_mem_nil, false_iff]
      rintro ⟨rfl, _, hm⟩; exact hm.2 e ha
  | fetched t hA hfree ht =>
    by_cases hm : n ∈ got
    · obtain ⟨h1, h2⟩ := hk.have_ n hm
      rw [ht] at h2
      injection h2 with h2
      refine ⟨W, [], got, found t h1 h2.symm, hk, List.nodup_nil, fun m => ?_, fun m => by simp⟩
      simp only [List.not_mem_nil, false_iff]
      rintro ⟨rfl, hm', _⟩; exact hm' hm
    · have hnone : dget W (C ++ [n]) = none := by
        rw [old n hap hm]
        unfold Tree.exists at hfree
        cases hv : dget W0 (C ++ [n]) with
        | none => rfl
        | some v => rw [hv] at hfree; simp at hfree
      have habs : Absent W (leadsTo wd r.cachedir) n := by
        rw [h.cache]
        refine ⟨fun hu => ?_, fun ext ha => ?_⟩
        · unfold HasUnpacked at hu
          rw [isdir_iff, hnone] at hu
          simp at hu
        · obtain ⟨ha1, ha⟩ := ha
          by_cases hx : n ++ ext ∈ got
          · have h1 := (hk.have_ _ hx).1
            rw [isdir_iff] at h1
            obtain ⟨c, hc⟩ := isfile_iff.1 ha
            rw [hc] at h1
            simp at h1
          · apply hA.2 ext
            refine ⟨ha1, ?_⟩
            rw [isfile_iff] at ha ⊢
            rw [← old _ (h.beside hn (List.mem_cons_of_mem _ ha1)) hx]
            exact ha
      have hfd : r.find S.exts S.cwd W n = none := (find_cases h.cwd h.ne hg h.exts).2.2 habs
      have hlack : r.lacksCache S.cwd W = false := by
        unfold Restorer.lacksCache diskExists
        rw [comps_abspath h.cwd, h.cache, exists_of_isdir hk.place]
        rfl
      obtain ⟨W', d1, d2⟩ := h.delivers n t W ht hk.wf hk.place (by unfold Tree.exists; rw [hnone]; simp)
      refine ⟨W', [n], n :: got, ?_, hk.more h hn hm ht d2, by simp, fun m => ?_, fun m => ?_⟩
      · unfold FetchSite.member Restorer.getMember
        have hgn : given (none : Option Str) = none := rfl
        rw [hfd]
        simp only [hgn, Restorer.fetch, h.fetcher, hlack, Bool.false_eq_true, if_false, d1, given_eq_some.2 ⟨rfl, hne0⟩, Option.bind_some,
          FetchSite.sourceAt, hcomps0, d2.dir, if_true, d2.contents]
        rfl
      · rw [List.mem_singleton]
        exact ⟨fun e => ⟨e, e ▸ hm, e ▸ hA⟩, fun h => h.1⟩
      · rw [List.mem_cons, List.mem_singleton]; exact Or.comm

/-- Each of these bags can be had. -/
def Supplies (W0 : Tree) (S : FetchSite) (bags : Str → Option Tree) (r : Restorer) (C : Path) (E : RestoreEnv) (names : List Str) : Prop :=
  ∀ n ∈ names, GoodName n ∧ ∃ s, E.find n = some s ∧ Supply W0 S.archives bags S.cwd r.cachedir C n s ∧ WfTree s.tree

/-- The names of the bags that were fetched. -/
def GotMissing (W0 : Tree) (C : Path) (names got : List Str) : Prop :=
  ∀ n ∈ got, Absent W0 C n ∧ W0.exists (C ++ [n]) = false ∧ n ∈ names

theorem Supply.free {W0 : Tree} {archives : Path → Option Tree} {cwd cache n : Str} {s : RSource}
    (h : Supply W0 archives bags cwd cache C n s) (hA : Absent W0 C n) : W0.exists (C ++ [n]) = false := by
  cases h with
  | unpacked hu => exact absurd hu hA.1
  | packed e t hu ha => exact absurd ha (hA.2 e)
  | fetched t _ hf => exact hf

theorem OwnCache.step (h : OwnCache S r wd D C f bags names) {E : RestoreEnv} {W0 d W : Tree} (hsup : Supplies W0 S bags r C E names)
    {got : List Str} (hk : KeptApart W0 bags D C got d W) (hgot : GotMissing W0 C names got) {n : Str} (hn : n ∈ names) :
    ∃ s W' asked got', E.find n = some s ∧ WfTree s.tree ∧ S.member r W n = .ok (some s, W', asked) ∧ KeptApart W0 bags D C got' d W' ∧
      GotMissing W0 C names got' ∧
      asked.Nodup ∧ (∀ m, m ∈ asked ↔ m = n ∧ m ∉ got ∧ Absent W0 C m) ∧ (∀ m, m ∈ got' ↔ m ∈ got ∨ m ∈ asked) := by
  obtain ⟨hg, s, hf, hs, hw⟩ := hsup n hn
  obtain ⟨W', asked, got', k1, k2, k3, k4, k5⟩ := h.member hk hgot hg hn hs
  refine ⟨s, W', asked, got', hf, hw, k1, k2, fun m hm => ?_, k3, k4, k5⟩
  rcases (k5 m).1 hm with hm | hm
  · exact hgot m hm
  · obtain ⟨rfl, _, hA⟩ := (k4 m).1 hm
    exact ⟨hA, Supply.free hs hA, hn⟩

theorem OwnCache.inDest (h : OwnCache S r wd D C f bags names) {W0 d W : Tree} {got : List Str} (hk : KeptApart W0 bags D C got d W)
    (hgot : GotMissing W0 C names got) {g : Tree → Except PyErr Tree} {e : Tree} (hg : g d = .ok e) (hw : WfTree e) :
    ∃ W', S.inDest r g W = .ok W' ∧ KeptApart W0 bags D C got e W' := by
  refine ⟨W.withBelow D e, ?_, hk.work h (fun n hn => (hgot n hn).2.2) hw⟩
  unfold FetchSite.inDest
  rw [h.destPath, hk.contents, hg]

theorem KeptApart.wfDest {W0 d W : Tree} {got : List Str} (h : KeptApart W0 bags D C got d W) (hD : D ≠ []) : WfTree d :=
  h.contents ▸ wf_below h.wf hD h.dest

theorem OwnCache.members (h : OwnCache S r wd D C f bags names) (hD : D ≠ []) {E : RestoreEnv} (hE : EnvOk E) {W0 : Tree}
    (hsup : Supplies W0 S bags r C E names) {skip : List Str} (he : [] ∉ skip) {l : List Str} (hl : ∀ n ∈ l, n ∈ names)
    {d W e : Tree} {got : List Str} (hk : KeptApart W0 bags D C got d W) (hgot : GotMissing W0 C names got)
    (hr : restoreMembers E skip l d = .ok e) :
    ∃ W' asked got', S.members E r skip l W = .ok (W', asked) ∧ KeptApart W0 bags D C got' e W' ∧ GotMissing W0 C names got' ∧
      asked.Nodup ∧ (∀ m, m ∈ asked ↔ m ∈ l ∧ m ∉ got ∧ Absent W0 C m) ∧ (∀ m, m ∈ got' ↔ m ∈ got ∨ m ∈ asked) := by
  induction l generalizing d W got with
  | nil =>
    simp only [restoreMembers] at hr
    cases hr
    exact ⟨W, [], got, rfl, hk, hgot, List.nodup_nil, by simp, by simp⟩
  | cons n l ih =>
    obtain ⟨s, W1, a1, g1, hf, hws, m1, m2, m0, m3, m4, m5⟩ := h.step hsup hk hgot (hl n List.mem_cons_self)
    simp only [restoreMembers, restoreMember, hf] at hr
    cases h1 : restoreFrom E s skip false d with
    | error x => rw [h1] at hr; cases hr
    | ok d1 =>
      rw [h1] at hr
      simp only at hr
      obtain ⟨W2, k3, k4⟩ := h.inDest m2 m0 h1 (wf_restoreFrom hE hws he (m2.wfDest hD) h1)
      obtain ⟨W3, a3, g3, q1, q2, q0, q3, q4, q5⟩ := ih (fun m hm => hl m (List.mem_cons_of_mem _ hm)) k4 m0 hr
      refine ⟨W3, a1 ++ a3, g3, ?_, q2, q0, ?_, fun m => ?_, fun m => ?_⟩
      · simp only [FetchSite.members, m1, k3, q1]
      · rw [List.nodup_append]
        refine ⟨m3, q3, fun x hx y hy exy => ?_⟩
        subst exy
        exact ((q4 x).1 hy).2.1 ((m5 x).2 (.inr hx))
      · rw [List.mem_append, m4, q4, m5, List.mem_cons, m4]
        constructor
        · rintro (⟨rfl, h2⟩ | ⟨h2, h3, h4⟩)
          · exact ⟨.inl rfl, h2⟩
          · exact ⟨.inr h2, fun hx => h3 (.inl hx), h4⟩
        · rintro ⟨h2, h3, h4⟩
          by_cases hmn : m = n
          · exact .inl ⟨hmn, h3, h4⟩
          · exact .inr ⟨h2.resolve_left hmn, fun hx => hx.elim h3 (fun hx => hmn hx.1), h4⟩
      · rw [q5, m5, List.mem_append, or_assoc]

theorem OwnCache.collect (h : OwnCache S r wd D C f bags names) {E : RestoreEnv} {W0 : Tree}
    (hsup : Supplies W0 S bags r C E names) {l : List Str} (hl : ∀ n ∈ l, n ∈ names)
    {d W : Tree} {got : List Str} (hk : KeptApart W0 bags D C got d W) (hgot : GotMissing W0 C names got)
    (hall : ∀ n ∈ l, Absent W0 C n → n ∈ got) {fetch fetch' : List (Str × Str)}
    (hr : collectFetch E l fetch = .ok fetch') : ∃ W' got', S.collectFetch E r l W fetch = .ok (fetch', W', []) ∧
      KeptApart W0 bags D C got' d W' ∧ GotMissing W0 C names got' ∧ ∀ m, m ∈ got' ↔ m ∈ got := by
  induction l generalizing fetch W got with
  | nil => simp only [collectFetch] at hr; cases hr; exact ⟨W, got, rfl, hk, hgot, fun _ => Iff.rfl⟩
  | cons n l ih =>
    obtain ⟨s, W1, a1, g1, hf, hws, m1, m2, m0, m3, m4, m5⟩ := h.step hsup hk hgot (hl n List.mem_cons_self)
    have ha : a1 = [] := by
      rw [List.eq_nil_iff_forall_not_mem]
      intro m hm
      obtain ⟨rfl, h1, h2⟩ := (m4 m).1 hm
      exact h1 (hall m List.mem_cons_self h2)
    subst ha
    have hg1 : ∀ m, m ∈ g1 ↔ m ∈ got := fun m => by rw [m5]; simp
    simp only [collectFetch, hf] at hr
    cases h1 : openBag { E.base with bagpath := s.path } s.tree with
    | error x => rw [h1] at hr; cases hr
    | ok b =>
      rw [h1] at hr
      cases hrd : s.tree.read [py!"fetch.txt"] with
      | none =>
        rw [hrd] at hr
        simp only at hr
        obtain ⟨W2, g2, q1, q2, q3, q4⟩ := ih (fun m hm => hl m (List.mem_cons_of_mem _ hm)) m2 m0
          (fun m hm hA => (hg1 m).2 (hall m (List.mem_cons_of_mem _ hm) hA)) hr
        refine ⟨W2, g2, ?_, q2, q3, fun m => (q4 m).trans (hg1 m)⟩
        simp only [FetchSite.collectFetch, m1, h1, hrd, q1]
        rfl
      | some c =>
        rw [hrd] at hr
        simp only at hr
        obtain ⟨W2, g2, q1, q2, q3, q4⟩ := ih (fun m hm => hl m (List.mem_cons_of_mem _ hm)) m2 m0
          (fun m hm hA => (hg1 m).2 (hall m (List.mem_cons_of_mem _ hm) hA)) hr
        refine ⟨W2, g2, ?_, q2, q3, fun m => (q4 m).trans (hg1 m)⟩
        simp only [FetchSite.collectFetch, m1, h1, hrd, q1]
        rfl

theorem OwnCache.restoreFetch (h : OwnCache S r wd D C f bags names) (hD : D ≠ []) {E : RestoreEnv} {W0 : Tree}
    (hsup : Supplies W0 S bags r C E names) {l : List Str} (hl : ∀ n ∈ l, n ∈ names)
    {d W e : Tree} {got : List Str} (hk : KeptApart W0 bags D C got d W) (hgot : GotMissing W0 C names got)
    (hall : ∀ n ∈ l, Absent W0 C n → n ∈ got) (hr : restoreFetch E l d = .ok e) :
    ∃ W' got', S.restoreFetch E r l W = .ok (W', []) ∧ KeptApart W0 bags D C got' e W' ∧ GotMissing W0 C names got' ∧ ∀ m, m ∈ got' ↔ m ∈ got := by
  unfold Verif.restoreFetch at hr
  cases h1 : collectFetch E l [] with
  | error x => rw [h1] at hr; cases hr
  | ok fetch =>
    obtain ⟨W1, g1, h2, h3, h4, h5⟩ := h.collect hsup hl hk hgot hall h1
    unfold FetchSite.restoreFetch
    rw [h1] at hr
    rw [h2]
    cases fetch with
    | nil => simp only at hr ⊢; cases hr; exact ⟨W1, g1, rfl, h3, h4, h5⟩
    | cons x fetch =>
      simp only at hr ⊢
      have hw1 : WfTree e := wf_write (hk.wfDest hD) ⟨by simp, by
        intro c hc
        rw [List.mem_singleton] at hc
        subst hc
        exact ⟨by decide, by decide, by decide, by decide⟩⟩ hr
      obtain ⟨W2, k3, k4⟩ := h.inDest (g := fun d => d.write [py!"fetch.txt"] ((x :: fetch).map Prod.snd).flatten) h3 h4 hr hw1
      rw [k3]
      exact ⟨W2, g1, rfl, k4, h4, h5⟩

/-- A run with fetched bags once the destination is ready. -/
theorem OwnCache.run {H : RHead} {ms : List MemberInfo}
    (h : OwnCache S r wd D C f bags (otherMembers H (ms.map (fun m => m.name)))) (hD : D ≠ []) {E : RestoreEnv} (hE : EnvOk E)
    (hH : WfTree H.tree) (hms : iterMembers H.mode H.tree H.info = .ok ms) {W0 W W1 d out : Tree}
    (hsup : Supplies W0 S bags r C E (otherMembers H (ms.map (fun m => m.name)))) {us rm : Bool}
    (hstart : (if diskExists S.cwd W r.destdir then .ok W else r.createDest S.cwd W) = .ok W1)
    (hk : KeptApart W0 bags D C [] d W1) (hr : restore E H us rm d = .ok out) (hout : WfTree out) :
    ∃ W' asked, S.restore E r H us rm W = .ok (W', asked) ∧ KeptApart W0 bags D C asked out W' ∧
      asked.Nodup ∧ ∀ m, m ∈ asked ↔ m ∈ otherMembers H (ms.map (fun m => m.name)) ∧ Absent W0 C m := by
  obtain ⟨deleted, ms', d1, d2, d3, e1, e2, e3, e4, e5, e6⟩ := restore_parts hr
  rw [hms] at e2
  cases e2
  have hnil : [] ∉ pySet deleted := by
    rw [mem_pySet]; exact nil_notMem_deleted e1
  have hw1 := wf_startRestore hE hH hnil (hk.wfDest hD) e3
  have hg0 : GotMissing W0 C (otherMembers H (ms.map (fun m => m.name))) [] := fun n hn => by cases hn
  obtain ⟨W2, k3, k4⟩ := h.inDest hk hg0 e3 hw1
  obtain ⟨W3, asked, got, q1, q2, q0, q3, q4, q5⟩ := h.members hD hE hsup hnil (fun _ h => h) k4 hg0 e4
  have hfetch : ∃ W4 g4, (if otherMembers H (ms.map (fun m => m.name)) = [] then .ok (W3, [])
      else S.restoreFetch E r (otherMembers H (ms.map (fun m => m.name))) W3) = .ok (W4, []) ∧ KeptApart W0 bags D C g4 d3 W4 ∧
      GotMissing W0 C (otherMembers H (ms.map (fun m => m.name))) g4 ∧ ∀ m, m ∈ g4 ↔ m ∈ got := by
    split at e5
    · next h0 => cases e5; rw [if_pos h0]; exact ⟨W3, got, rfl, q2, q0, fun _ => Iff.rfl⟩
    · next h0 =>
      rw [if_neg h0]
      exact h.restoreFetch hD hsup (fun _ h => h) q2 q0 (fun n hn hA => (q5 n).2 (.inr ((q4 n).2 ⟨hn, by simp, hA⟩))) e5
  obtain ⟨W4, g4, k5, k6, k7, k8⟩ := hfetch
  obtain ⟨W5, k9, k10⟩ := h.inDest k6 k7 e6 hout
  have hmem : ∀ m, m ∈ g4 ↔ m ∈ asked := fun m => by rw [k8, q5]; simp
  refine ⟨W5, asked, ?_, ⟨k10.wf, k10.dest, k10.contents, k10.place, fun n hn => k10.have_ n ((hmem n).2 hn),
    fun q hq hx => k10.rest q hq (fun n hn => hx n ((hmem n).1 hn)), fun x hx hn => k10.below x hx (fun hc => hn ((hmem x).1 hc))⟩, q3, fun m => ?_⟩
  · unfold FetchSite.restore
    simp only [e1, hms, hstart, h.destPath, hk.dest, Bool.not_true, Bool.false_eq_true, if_false, k3, q1, k5, k9, List.append_nil]
  · rw [q4]; simp

end Verif
