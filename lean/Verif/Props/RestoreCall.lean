import Verif.Model.RestoreCall
import Verif.Spec.RestoreCall
import Verif.Props.SplitCall
import Verif.Props.Restorer
/-!
# C107: splitting and restoring by one call each
-/

namespace Verif
open Spec

/-! ## Putting a tree in its place -/

theorem dget_shift (d : Path) (u : Tree) (p : Path) : dget (u.map (fun e => (d ++ e.1, e.2))) (d ++ p) = dget u p := by
  induction u with
  | nil => rfl
  | cons e u ih =>
    obtain ⟨k, v⟩ := e
    simp only [List.map_cons, dget, List.append_cancel_left_eq]
    rw [ih]

theorem dget_shift_other {d q : Path} (h : ¬ d <+: q) (u : Tree) : dget (u.map (fun e => (d ++ e.1, e.2))) q = none := by
  induction u with
  | nil => rfl
  | cons e u ih =>
    obtain ⟨k, v⟩ := e
    simp only [List.map_cons, dget]
    rw [if_neg (fun (e : d ++ k = q) => h ⟨k, e⟩), ih]

theorem dget_withBelow (t : Tree) (d : Path) (u : Tree) {p : Path} (hp : p ≠ []) : dget (t.withBelow d u) (d ++ p) = dget u p := by
  unfold Tree.withBelow
  rw [dget_append, dget_filter_key t (fun q => !(d.isPrefixOf q && q ≠ d)), if_neg (by simp [hp]), dget_shift]
  rfl

theorem dget_withBelow_other (t : Tree) {d : Path} (u : Tree) {q : Path} (h : ¬ d <+: q) : dget (t.withBelow d u) q = dget t q := by
  unfold Tree.withBelow
  have hb : (!(d.isPrefixOf q && decide (q ≠ d))) = true := by
    have : d.isPrefixOf q = false := by
      cases hx : d.isPrefixOf q with
      | false => rfl
      | true => exact absurd (List.isPrefixOf_iff_prefix.1 hx) h
    simp [this]
  rw [dget_append, dget_filter_key t (fun q => !(d.isPrefixOf q && q ≠ d)), if_pos hb, dget_shift_other h]
  cases dget t q <;> rfl

theorem isdir_withBelow_self (t : Tree) {d : Path} (u : Tree) (h : t.isdir d = true) : (t.withBelow d u).isdir d = true := by
  rcases isdir_iff.1 h with e | e
  · exact isdir_iff.2 (.inl e)
  · refine isdir_iff.2 (.inr ?_)
    unfold Tree.withBelow
    rw [dget_append, dget_filter_key t (fun q => !(d.isPrefixOf q && q ≠ d)), if_pos (by simp), e]
    rfl

theorem below_withBelow (t : Tree) (d : Path) {u : Tree} (hu : ∀ e ∈ u, e.1 ≠ []) : (t.withBelow d u).below d = u := by
  unfold Tree.withBelow Tree.below
  rw [List.filterMap_append]
  have h1 : (t.filter (fun e => !(d.isPrefixOf e.1 && decide (e.1 ≠ d)))).filterMap
      (fun e => if (d.isPrefixOf e.1 && decide (e.1 ≠ d)) = true then some (e.1.drop d.length, e.2) else none) = [] := by
    rw [List.filterMap_eq_nil_iff]
    intro e he
    have := (List.mem_filter.1 he).2
    rw [Bool.not_eq_true'] at this
    rw [this]; rfl
  rw [h1, List.nil_append, List.filterMap_map]
  clear h1
  induction u with
  | nil => rfl
  | cons e u ih =>
    have he : e.1 ≠ [] := hu e List.mem_cons_self
    rw [List.filterMap_cons]
    have : ((fun e : Path × Node => if (d.isPrefixOf e.1 && decide (e.1 ≠ d)) = true then some (e.1.drop d.length, e.2) else none) ∘
        fun e : Path × Node => (d ++ e.1, e.2)) e = some e := by
      simp [he]
    rw [this]
    simp only
    rw [ih (fun x hx => hu x (List.mem_cons_of_mem _ hx))]

theorem wf_withBelow {t u : Tree} {d : Path} (ht : WfTree t) (hu : WfTree u) (hd : t.isdir d = true) (hc : Clean d) :
    WfTree (t.withBelow d u) := by
  have hkeys : ∀ q ∈ dkeys (t.withBelow d u), (q ∈ dkeys t ∧ (d <+: q → q = d)) ∨ ∃ p ∈ dkeys u, q = d ++ p := by
    intro q hq
    unfold Tree.withBelow dkeys at hq
    rw [List.map_append, List.mem_append] at hq
    rcases hq with hq | hq
    · obtain ⟨e, he, rfl⟩ := List.mem_map.1 hq
      obtain ⟨h1, h2⟩ := List.mem_filter.1 he
      refine .inl ⟨List.mem_map.2 ⟨e, h1, rfl⟩, fun hp => ?_⟩
      have hb : d.isPrefixOf e.1 = true := List.isPrefixOf_iff_prefix.2 hp
      rw [hb] at h2
      simpa using h2
    · obtain ⟨e, he, rfl⟩ := List.mem_map.1 hq
      obtain ⟨e', he', rfl⟩ := List.mem_map.1 he
      exact .inr ⟨e'.1, List.mem_map.2 ⟨e', he', rfl⟩, rfl⟩
  have hself := isdir_withBelow_self t u hd
  refine ⟨?_, ?_, ?_⟩
  · unfold Tree.withBelow dkeys
    rw [List.map_append, List.nodup_append]
    refine ⟨(List.filter_sublist.map _).nodup ht.nodup, ?_, ?_⟩
    · rw [List.map_map]
      have : (Prod.fst ∘ fun e : Path × Node => (d ++ e.1, e.2)) = (fun p => d ++ p) ∘ Prod.fst := rfl
      rw [this, ← List.map_map]
      exact List.Pairwise.map _ (fun a b h e => h (List.append_cancel_left e)) hu.nodup
    · intro a ha b hb e
      subst e
      obtain ⟨x, hx, rfl⟩ := List.mem_map.1 ha
      obtain ⟨y, hy, e⟩ := List.mem_map.1 hb
      obtain ⟨z, hz, rfl⟩ := List.mem_map.1 hy
      have hzne := (hu.good z.1 (List.mem_map.2 ⟨z, hz, rfl⟩)).1
      simp only at e
      have h2 := (List.mem_filter.1 hx).2
      rw [← e] at h2
      have hb : d.isPrefixOf (d ++ z.1) = true := List.isPrefixOf_iff_prefix.2 ⟨_, rfl⟩
      rw [hb] at h2
      simp [hzne] at h2
  · intro q hq
    rcases hkeys q hq with h | ⟨p, hp, rfl⟩
    · exact ht.good q h.1
    · have := hu.good p hp
      refine ⟨by simp [this.1], fun c hcm => ?_⟩
      rcases List.mem_append.1 hcm with h | h
      · exact hc c h
      · exact this.2 c h
  · intro q hq
    rcases hkeys q hq with ⟨h, hin⟩ | ⟨p, hp, rfl⟩
    · have hpar := ht.parent q h
      have hqne := (ht.good q h).1
      by_cases hpre : d <+: q.dropLast
      · have hq' := hin (hpre.trans (List.dropLast_prefix q))
        exfalso
        have := hpre.length_le
        rw [hq', List.length_dropLast] at this
        have : d.length = 0 := by omega
        rw [hq'] at hqne
        exact hqne (List.length_eq_zero_iff.1 this)
      · rcases isdir_iff.1 hpar with e | e
        · exact isdir_iff.2 (.inl e)
        · rw [isdir_iff, dget_withBelow_other t u hpre]
          exact .inr e
    · have hpne := (hu.good p hp).1
      rw [List.dropLast_append_of_ne_nil hpne]
      rcases isdir_iff.1 (hu.parent p hp) with e | e
      · rw [e, List.append_nil]; exact hself
      · by_cases hd0 : p.dropLast = []
        · rw [hd0, List.append_nil]; exact hself
        · rw [isdir_iff, dget_withBelow t d u hd0]
          exact .inr e

/-! ## Paths -/

theorem leadsTo_join_plain (wd : Path) (a : Str) {c : Str} (hc : GoodName c) : leadsTo wd (pathJoin a c) = leadsTo wd a ++ [c] := by
  by_cases ha : a = []
  · subst ha
    have : pathJoin [] c = c := by
      unfold pathJoin
      split <;> simp_all
    rw [this, leadsTo_plain hc]
    rfl
  · exact leadsTo_join_name wd ha hc

theorem join_cases {a c : Str} (hc : GoodName c) :
    (pathJoin a c = a ++ c ∧ (a = [] ∨ a.getLast? = some '/')) ∨ (pathJoin a c = a ++ '/' :: c ∧ a ≠ [] ∧ a.getLast? ≠ some '/') := by
  have hh : isAbs c = false := by
    cases hx : isAbs c with
    | false => rfl
    | true =>
      exfalso
      cases c with
      | nil => cases hx
      | cons x c =>
        have : x = '/' := by simpa [isAbs, startsWith] using hx
        exact hc.noslash (this ▸ List.mem_cons_self ..)
  unfold pathJoin
  rw [hh]
  simp only [Bool.false_eq_true, if_false]
  by_cases h : a = [] ∨ a.getLast? = some '/'
  · rw [if_pos (by simpa using h)]
    exact .inl ⟨rfl, h⟩
  · rw [if_neg (by simpa using h)]
    exact .inr ⟨rfl, fun e => h (.inl e), fun e => h (.inr e)⟩

theorem join_noUNC {a c : Str} (ha : ¬ py!"//" <+: a) (hc : GoodName c) : ¬ py!"//" <+: pathJoin a c := by
  have hn : ∀ x ∈ c.head?, x ≠ '/' := by
    rintro x hx rfl
    exact hc.noslash (List.mem_of_head? hx)
  rcases join_cases (a := a) hc with ⟨e, h⟩ | ⟨e, h1, h2⟩ <;> rw [e] <;> intro hp
  · match a, c with
    | [], [] => exact absurd hp (by decide)
    | [], y :: c => exact hn y rfl (List.cons_prefix_cons.1 hp).1.symm
    | [x], [] => exact ha hp
    | [x], y :: c => exact hn y rfl (List.cons_prefix_cons.1 (List.cons_prefix_cons.1 hp).2).1.symm
    | x :: y :: a, c =>
      obtain ⟨e1, hp⟩ := List.cons_prefix_cons.1 hp
      obtain ⟨e2, _⟩ := List.cons_prefix_cons.1 hp
      subst e1; subst e2
      exact ha ⟨a, rfl⟩
  · match a with
    | [] => exact h1 rfl
    | [x] =>
      obtain ⟨e1, _⟩ := List.cons_prefix_cons.1 hp
      subst e1
      exact h2 rfl
    | x :: y :: a =>
      obtain ⟨e1, hp⟩ := List.cons_prefix_cons.1 hp
      obtain ⟨e2, _⟩ := List.cons_prefix_cons.1 hp
      subst e1; subst e2
      exact ha ⟨a, rfl⟩

theorem contains_iff (p s : Str) : contains p s = true ↔ p <:+: s := by
  induction s with
  | nil => simp [contains]
  | cons x s ih =>
    simp only [contains, Bool.or_eq_true, ih]
    rw [show startsWith p (x :: s) = p.isPrefixOf (x :: s) from rfl, List.isPrefixOf_iff_prefix, List.infix_cons_iff]

/-- A word that ends with a character that is not in the second part is in the first. -/
theorem infix_left_of {a c w : Str} {x : Char} (hx : x ∉ c) (h : w ++ [x] <:+: a ++ c) : w ++ [x] <:+: a := by
  obtain ⟨l, r, e⟩ := h
  have e : (l ++ (w ++ [x])) ++ r = a ++ c := e
  rcases List.append_eq_append_iff.1 e with ⟨m, h1, h2⟩ | ⟨m, h1, h2⟩
  · exact ⟨l, m, h1.symm⟩
  · by_cases hm : m = []
    · subst hm
      rw [List.append_nil] at h1
      exact ⟨l, [], by rw [List.append_nil, h1]⟩
    · exfalso
      have : x ∈ m := by
        have := congrArg List.getLast? h1
        rw [← List.append_assoc, List.getLast?_append, List.getLast?_append, List.getLast?_append] at this
        cases hg : m.getLast? with
        | none => exact absurd (List.getLast?_eq_none_iff.1 hg) hm
        | some y =>
          rw [hg] at this
          simp at this
          subst this
          exact List.mem_of_getLast? hg
      exact hx (h2 ▸ List.mem_append_left _ this)

theorem join_noURL {a c : Str} (ha : contains py!"://" a = false) (hc : GoodName c) : contains py!"://" (pathJoin a c) = false := by
  cases hx : contains py!"://" (pathJoin a c) with
  | false => rfl
  | true =>
    exfalso
    rw [contains_iff] at hx
    have hno : ¬ py!"://" <:+: a := by
      rw [← contains_iff, ha]; simp
    rcases join_cases (a := a) hc with ⟨e, _⟩ | ⟨e, _, h2⟩ <;> rw [e] at hx
    · exact hno (infix_left_of (w := py!":/") hc.noslash hx)
    · have : a ++ '/' :: c = (a ++ ['/']) ++ c := by simp
      rw [this] at hx
      obtain ⟨l, r, e⟩ := infix_left_of (w := py!":/") hc.noslash hx
      cases hr : r.reverse with
      | nil =>
        have : r = [] := List.reverse_eq_nil_iff.1 hr
        subst this
        rw [List.append_nil] at e
        have e : (l ++ py!":/") ++ ['/'] = a ++ ['/'] := by rw [List.append_assoc]; exact e
        have := List.append_cancel_right e
        rw [← this] at h2
        exact h2 (by rw [List.getLast?_append]; rfl)
      | cons y t =>
        have : r = t.reverse ++ [y] := by rw [← List.reverse_reverse r, hr, List.reverse_cons]
        subst this
        rw [← List.append_assoc] at e
        have := (List.append_inj_left' e rfl)
        exact hno ⟨l, t.reverse, this⟩

theorem baseName_abs {O : Path} {c : Str} (hc : '/' ∉ c) : baseName ('/' :: joinPath (O ++ [c])) = c := by
  unfold baseName
  by_cases h : O = []
  · subst h
    rw [show joinPath ([] ++ [c]) = c from rfl, splitOn_cons_sep, splitOn_noSep hc]
    rfl
  · rw [joinPath_snoc h, ← List.cons_append, splitOn_append_slash, splitOn_noSep hc]
    simp

/-! ## Restoring into a new directory -/

theorem restoreBag_fresh {cwd : Str} {wd : Path} (hc : AbsPath cwd wd) {W : Tree} (hW : WfTree W) (E : RestoreEnv) (exts : List Str)
    (archives : Path → Option Tree) (dirs : Tree → List Path) {p dest : Str} {O D : Path} {n : Str}
    (habs : abspath cwd p = '/' :: joinPath (O ++ [n])) (hp : leadsTo wd p = O ++ [n]) (hn : GoodName n) (hne : p ≠ [])
    (hurl : contains py!"://" p = false) (hdir : W.isdir (O ++ [n]) = true) {hb : RBag}
    (hopen : openBag { E.base with bagpath := abspath cwd p } (W.below (O ++ [n])) = .ok hb)
    (hhead : py!"Multibag-Head-Version" ∈ dkeys hb.info) (hd : dest ≠ []) (hD : leadsTo wd dest = D) (hDne : D ≠ [])
    (hpar : W.isdir D.dropLast = true) (hfree : W.exists D = false) (r : Restorer)
    (hr : r = { headPath := p, inplace := decide (abspath cwd dest = abspath cwd p), destdir := abspath cwd dest, cachedir := '/' :: joinPath O }) :
    restoreBag E cwd exts archives dirs p (some dest) none W =
      match restore (E.into (abspath cwd dest) (r.source exts cwd (dset W D .dir) archives))
          { name := n, path := abspath cwd p, tree := hb.tree, info := hb.info, mode := .codecs } true true [] with
      | .error e => .error e
      | .ok out =>
        match openBag { E.base with bagpath := abspath cwd dest } out with
        | .error e => .error e
        | .ok b => .ok (b, Tree.withBelow (dset W D .dir) D out) := by
  have hg := goodName_leadsTo hc.1.2 p
  have hcp : comps (abspath cwd p) = O ++ [n] := by rw [comps_abspath hc, hp]
  have hat : (diskPlaces cwd archives dirs W).at_ p = some (.dir (W.below (O ++ [n]))) := by
    unfold diskPlaces
    simp only [hcp, hdir, if_true]
  have hfrom : openFrom cwd (diskPlaces cwd archives dirs W) E.base p = .ok (baseName p, hb) := by
    unfold openFrom openPlace
    rw [if_neg hne, hurl, hat]
    simp only [Bool.false_eq_true, if_false, hopen]
  have hmake : Restorer.make cwd W (isHeadFrom cwd (diskPlaces cwd archives dirs W) E.base) (.location p) (some dest) none false = .ok r := by
    have hex : diskExists cwd W p = true := by rw [diskExists_eq hc, hp]; exact exists_of_isdir hdir
    have his : isHeadFrom cwd (diskPlaces cwd archives dirs W) E.base p = .ok true := by
      unfold isHeadFrom
      rw [hfrom]
      simp only
      rw [show dmem hb.info py!"Multibag-Head-Version" = true from by
        unfold dmem
        obtain ⟨v, hv⟩ := mem_dkeys_iff.1 hhead
        rw [hv]; rfl]
    have hgd : given (some dest) = some dest := by
      cases dest with
      | nil => exact absurd rfl hd
      | cons => rfl
    have hdirp : diskIsdir cwd W (dirName (abspath cwd dest)) = true := by
      rw [diskIsdir_eq hc, leadsTo_dirName hc, hD]; exact hpar
    unfold Restorer.make
    simp only [hex, Bool.not_true, Bool.false_eq_true, if_false, his, hgd, Option.getD_some, hdirp, HeadArg.path]
    rw [hr]
    congr 2
    show dirName (abspath cwd p) = _
    rw [habs, show '/' :: joinPath (O ++ [n]) = List.replicate 1 '/' ++ joinPath (O ++ [n]) from rfl,
      dirName_slashes (by omega) (by rw [← hp]; exact hg), List.dropLast_concat]
    rfl
  have hH : headAt cwd (diskPlaces cwd archives dirs W) E.base p =
      .ok { name := n, path := abspath cwd p, tree := hb.tree, info := hb.info, mode := .codecs } := by
    unfold headAt
    rw [hfrom]
    simp only [hat]
    rw [show baseName (abspath cwd p) = n by rw [habs]; exact baseName_abs hn.noslash]
  have hdest : r.destdir = abspath cwd dest := by rw [hr]
  have hcD : comps (abspath cwd r.destdir) = D := by rw [hdest, comps_abspath hc, leadsTo_abspath hc, hD]
  have hexD : diskExists cwd W r.destdir = false := by rw [diskExists, hcD]; exact hfree
  have hO : W.isdir O = true := by
    rcases isdir_iff.1 hdir with e | e
    · simp at e
    · have := hW.parent (O ++ [n]) (mem_dkeys_iff.2 ⟨_, e⟩)
      rwa [List.dropLast_concat] at this
  have hgO : ∀ c ∈ O, GoodName c := fun c hm => hg c (by rw [hp]; exact List.mem_append_left _ hm)
  have hOD : Tree.isdir (dset W D .dir) O = true := by
    rcases isdir_iff.1 hO with e | e
    · exact isdir_iff.2 (.inl e)
    · refine isdir_iff.2 (.inr ?_)
      rw [dget_dset]
      split
      · rfl
      · exact e
  have hcreate : r.createDest cwd W = .ok (dset W D .dir) := by
    unfold Restorer.createDest
    rw [hexD]
    simp only [Bool.false_eq_true, if_false, hcD]
    rw [show W.mkdir D = .ok (dset W D .dir) by unfold Tree.mkdir; rw [hfree, hpar]; rfl]
    have : r.lacksCache cwd (dset W D .dir) = false := by
      unfold Restorer.lacksCache
      rw [diskExists_eq hc, hr]
      simp only
      rw [show '/' :: joinPath O = List.replicate 1 '/' ++ joinPath O from rfl, leadsTo_slashes (by omega) hgO, exists_of_isdir hOD]
      rfl
    simp only [this, Bool.false_eq_true, if_false]
  have hbelow : Tree.below (dset W D .dir) D = [] := by
    rw [below_dset_other (fun _ => rfl)]
    refine below_nil ?_ (fun k hk => by
      obtain ⟨v, hv⟩ := mem_dkeys_iff.1 hk
      rw [hv]; rfl)
    intro q hq
    cases hg : dget W (D ++ q) with
    | none => rfl
    | some v =>
      exfalso
      have := wf_prefix hW (p := D ++ q) (q := D) (by rw [hg]; rfl) (List.prefix_append _ _) hDne
      unfold Tree.exists at hfree
      simp only [Bool.or_eq_false_iff] at hfree
      rw [hfree.2] at this
      cases this
  rw [hdest] at hexD hcD
  have hDdir : Tree.isdir (dset W D .dir) D = true := isdir_iff.2 (.inr (by rw [dget_dset, if_pos rfl]))
  unfold restoreBag
  simp only [hmake, hH, hexD, Bool.false_eq_true, if_false, hcreate, hcD, hbelow, hdest, hDdir, Bool.not_true]
  rfl

/-- C107: every call that succeeds, in place or not, returns the bag that is then in the destination - the directory of the
head bag if none is given - and changes nothing outside it.  (The directory with the member bags, if one is given, is
there.) -/
theorem C107_outside {cwd : Str} {wd : Path} (hc : AbsPath cwd wd) {W : Tree} (hW : WfTree W) (E : RestoreEnv) (exts : List Str)
    (archives : Path → Option Tree) (dirs : Tree → List Path) (headbag : Str) (destbag compdir : Option Str)
    (hcomp : ∀ c, compdir = some c → c = [] ∨ W.exists (leadsTo wd c) = true) {b : RBag} {W' : Tree}
    (hrun : restoreBag E cwd exts archives dirs headbag destbag compdir W = .ok (b, W')) {D : Path}
    (hD : (∃ d, destbag = some d ∧ d ≠ [] ∧ D = leadsTo wd d) ∨ ((destbag = none ∨ destbag = some []) ∧ D = leadsTo wd headbag)) :
    BagAt W' D b.tree ∧ ∀ q, ¬ Inside D q → SameThing W' W q := by
  unfold restoreBag at hrun
  simp only at hrun
  cases hm : Restorer.make cwd W (isHeadFrom cwd (diskPlaces cwd archives dirs W) E.base) (.location headbag) destbag compdir false with
  | error e => rw [hm] at hrun; cases hrun
  | ok r =>
    rw [hm] at hrun
    simp only at hrun
    obtain ⟨m1, _, m3⟩ := make_ok hm
    have hdest : comps (abspath cwd r.destdir) = D := by
      rw [m3]
      simp only [HeadArg.path]
      rw [comps_abspath hc, leadsTo_abspath hc]
      rcases hD with ⟨d, rfl, hne, rfl⟩ | ⟨hd, rfl⟩
      · rw [given_eq_some.2 ⟨rfl, hne⟩]; rfl
      · rw [given_eq_none.2 hd]; rfl
    have hcache : W.exists (leadsTo wd r.cachedir) = true := by
      rw [m3]
      simp only [HeadArg.path, Bool.false_eq_true, if_false]
      cases hg : given compdir with
      | some c =>
        obtain ⟨e, hne⟩ := given_eq_some.1 hg
        exact (hcomp c e).resolve_left hne
      | none =>
        simp only [Option.getD_none]
        rw [leadsTo_dirName hc]
        have hx := (m1 headbag rfl).1
        rw [diskExists_eq hc] at hx
        by_cases hne : leadsTo wd headbag = []
        · rw [hne]; rfl
        · rw [exists_iff hne] at hx
          cases hv : dget W (leadsTo wd headbag) with
          | none => exact absurd hv hx
          | some v => exact exists_of_isdir (hW.parent _ (mem_dkeys_iff.2 ⟨v, hv⟩))
    cases hh : headAt cwd (diskPlaces cwd archives dirs W) E.base headbag with
    | error e => rw [hh] at hrun; cases hrun
    | ok H =>
      rw [hh] at hrun
      simp only at hrun
      cases hd : (if diskExists cwd W r.destdir = true then .ok W else r.createDest cwd W : Except PyErr Tree) with
      | error e => rw [hd] at hrun; cases hrun
      | ok W1 =>
        rw [hd] at hrun
        simp only [hdest] at hrun
        have h1 : ∀ q, ¬ D <+: q → dget W1 q = dget W q := by
          intro q hq
          cases hx : diskExists cwd W r.destdir with
          | true => rw [hx] at hd; cases hd; rfl
          | false =>
            rw [hx] at hd
            simp only [Bool.false_eq_true, if_false] at hd
            unfold Restorer.createDest at hd
            rw [hx, hdest] at hd
            simp only [Bool.false_eq_true, if_false] at hd
            cases hk : W.mkdir D with
            | error e => rw [hk] at hd; cases hd
            | ok W2 =>
              rw [hk] at hd
              simp only at hd
              obtain ⟨rfl, _, _⟩ := Tree.mkdir_ok hk
              have hl : r.lacksCache cwd (dset W D .dir) = false := by
                unfold Restorer.lacksCache
                rw [diskExists_eq hc]
                have : Tree.exists (dset W D .dir) (leadsTo wd r.cachedir) = true := by
                  unfold Tree.exists at hcache ⊢
                  rw [dget_dset]
                  split
                  · simp
                  · exact hcache
                rw [this]; rfl
              rw [hl] at hd
              cases hd
              rw [dget_dset, if_neg (fun (e : D = q) => hq (e ▸ List.prefix_refl _))]
        cases hi : W1.isdir D with
        | false => rw [hi] at hrun; cases hrun
        | true =>
          rw [hi] at hrun
          simp only [Bool.not_true, Bool.false_eq_true, if_false] at hrun
          cases hr : restore (E.into r.destdir (r.source exts cwd W1 archives)) H true true (W1.below D) with
          | error e => rw [hr] at hrun; cases hrun
          | ok out =>
            rw [hr] at hrun
            simp only at hrun
            cases ho : openBag (E.into r.destdir (r.source exts cwd W1 archives)).base out with
            | error e => rw [ho] at hrun; cases hrun
            | ok b1 =>
              rw [ho] at hrun
              cases hrun
              rw [(openBag_parts ho).1]
              refine ⟨bagAt_iff.2 ⟨isdir_withBelow_self _ _ hi, fun p hp => dget_withBelow _ _ _ hp⟩, fun q hq => ?_⟩
              refine sameThing_of_dget ?_
              rw [dget_withBelow_other _ _ hq, h1 q hq]

/-- C107, with more about the restored bag. -/
theorem round_trip_parts {X : SplitEnv} {s : Splitter} {W : Tree} {wd : Path} {bagpath outdir : Str} {b : RBag}
    (h : CanSplit X s W wd bagpath outdir b) (basis : Option Str) (nopass : List Str) (hb : '/' ∉ nameBase bagpath basis)
    (hbase : CleanStart (nameBase bagpath basis))
    (hfree : ∀ k, ∀ n ∈ numbered (nameBase bagpath basis) k, W.exists (leadsTo wd outdir ++ [n]) = false)
    (hurl : contains py!"://" outdir = false) (hunc : ¬ py!"//" <+: outdir)
    {E : RestoreEnv} (hcfg : E.base = X.cfg) (hblen : E.blen = X.blen) {dest : Str} (hnew : NewPlace W wd dest)
    (hapart : ∀ k, ∀ n ∈ numbered (nameBase bagpath basis) k, leadsTo wd dest ≠ leadsTo wd outdir ++ [n])
    (hE : EnvOk E) (hF : EnvFits (E.into (abspath X.cwd dest) E.find)) (hdol : ∀ a ∈ E.base.algs, '$' ∉ a)
    (hsz : ∀ t i, Trimmed (E.sizeText t i)) {hostOk : Str → Bool} {A : Str → Prop}
    (hs : SplitSource hostOk (E.into (abspath X.cwd dest) E.find) A (rstripBy (· = '/') bagpath) b.tree b)
    (hpaths : ∀ p, b.tree.exists p = true → p ≠ [] → ListablePath (joinPath p))
    (exts : List Str) (archives : Path → Option Tree) (dirs : Tree → List Path) :
    ∃ names head W' W'' b',
      splitCall X s bagpath outdir basis nopass W = (.ok ((names ++ [head]).map (pathJoin outdir)), W') ∧
      restoreBag E X.cwd exts archives dirs (pathJoin outdir head) (some dest) none W' = .ok (b', W'') ∧
      bagValidate hostOk E.sum E.blen { E.base with bagpath := abspath X.cwd dest } b' = .ok () ∧
      BagAt W'' (leadsTo wd dest) b'.tree ∧
      (∀ p, ¬ Special p → b'.tree.read p = b.tree.read p ∧ (b'.tree.isdir p = true ↔ b.tree.isdir p = true)) ∧
      (∀ q, ¬ Inside (leadsTo wd dest) q → SameThing W'' W' q) ∧
      (openBag { E.base with bagpath := abspath X.cwd dest } b'.tree = .ok b' ∧
        Remade (E.into (abspath X.cwd dest) E.find) A b.tree b.info true b'.tree b' ∧ WfTree W'' ∧
        W''.below (leadsTo wd dest) = b'.tree ∧ ∀ q, W.exists q = true → SameThing W'' W q) := by
  obtain ⟨plan, hplan, hnames, hcall⟩ := splitCall_eq h basis nopass
  have hentries := call_entries h (simpleNamer (nameBase bagpath basis))
  have hpos := plan_nonempty h (simpleNamer (nameBase bagpath basis))
  have hDabs : AbsPath (abspath X.cwd dest) (leadsTo wd dest) :=
    ⟨⟨hnew.root, goodName_leadsTo h.cwd.1.2 dest⟩, abspath_one h.cwd hnew.single⟩
  have hparts := fun find => every_split_parts (hostOk := hostOk) (E := E.into (abspath X.cwd dest) find) (A := A)
    (src := rstripBy (· = '/') bagpath) (t := b.tree) (b := b) ⟨hE.walk, hE.algs⟩
    ⟨hF.utf, hF.algs, hF.sums, hF.info, hF.manifests⟩ hdol (dest := leadsTo wd dest) hDabs hsz
    ⟨hs.opens, hs.valid, hs.ordinary, hs.tagFile, hs.tidy, hs.nohead, hs.notags, hs.nofetch⟩ hpaths s h.word h.look h.head h.odd
    (baseName (rstripBy (· = '/') bagpath)) (X.size b.tree) h.listing hbase (o := { nopass := nopass })
    ⟨(show ∀ c ∈ (py!"1" : Str), isNl c = false by decide), (show Trimmed (py!"1" : Str) by unfold Trimmed; decide)⟩ (by intro x hx; cases hx)
  rw [← hplan] at hentries hpos
  simp only [← hplan] at hparts
  clear hplan
  have hord := h.ordinary
  have hnohead := h.nohead
  rw [← hcfg] at hcall hord
  rw [← hblen] at hcall
  -- the split, on trees and on disk
  obtain ⟨d', hrun, _⟩ := hparts E.find
  have hrun : applyPlan copyFS (b.source { E.base with bagpath := rstripBy (· = '/') bagpath }) E.blen { nopass := nopass } plan []
      { src := b.tree } = .ok d' := hrun
  have hkeep := disk_kept h.wf (leadsTo wd bagpath) (call_out h) (S := b.source { E.base with bagpath := rstripBy (· = '/') bagpath })
    ⟨hord.algs, hord.hashes⟩ E.blen { nopass := nopass } hentries []
  obtain ⟨w, hw1, hw2, hw3⟩ := disk_made h.wf (src := leadsTo wd bagpath) ⟨h.source.1, goodName_leadsTo h.cwd.1.2 bagpath⟩
    (call_out h) h.out.2 (S := b.source { E.base with bagpath := rstripBy (· = '/') bagpath }) ⟨hord.algs, hord.hashes⟩ hord.wf
    (bagAt_of_canSplit h) h.apart (o := { nopass := nopass }) hentries (names := []) (by
      intro n hn
      rw [chosenNames_nil, hnames] at hn
      obtain ⟨n', hn', e⟩ := List.mem_map.1 hn
      cases e
      exact ⟨numbered_good hb _ n hn', hfree _ n hn'⟩) hrun
  rw [hw1] at hcall hkeep
  simp only at hcall hkeep
  obtain ⟨bags, hd1, hd2, _, _, hd3⟩ := C36_contents (d := { src := b.tree }) rfl hentries hord.algs hord.hashes hrun
  rw [List.nil_append] at hd1
  have hfst : d'.done.map Prod.fst = numbered (nameBase bagpath basis) plan.length := by
    rw [hd1]
    have h1 : (bags.map Prod.fst).map some = plan.map (·.name) := by
      refine List.ext_getElem? (fun i => ?_)
      rw [List.getElem?_map, List.getElem?_map, List.getElem?_map]
      cases hi : bags[i]? with
      | none =>
        rw [List.getElem?_eq_none_iff] at hi
        rw [List.getElem?_eq_none_iff.2 (by omega)]
        rfl
      | some e =>
        have hlt := (List.getElem?_eq_some_iff.1 hi).1
        have hm := List.getElem?_eq_getElem (show i < plan.length by omega)
        have := (hd3 i _ e.1 e.2 hm hi).1
        rw [hm]
        simp only [List.getElem?_nil, Option.none_or] at this
        simp [this]
    rw [hnames] at h1
    exact (List.map_inj_right (fun _ _ e => Option.some.inj e)).1 h1
  have hdne : d'.done ≠ [] := by
    intro e
    rw [hd1] at e
    rw [e] at hd2
    simp at hd2
    omega
  obtain ⟨init, ⟨hn, ht⟩, hdone⟩ : ∃ init l, d'.done = init ++ [l] := ⟨_, _, (List.dropLast_concat_getLast hdne).symm⟩
  have hgood : ∀ e ∈ d'.done, e.1 ∈ numbered (nameBase bagpath basis) plan.length := by
    intro e he
    rw [← hfst]
    exact List.mem_map.2 ⟨e, he, rfl⟩
  have hhm : (hn, ht) ∈ d'.done := by rw [hdone]; simp
  have hgn := numbered_good hb _ _ (hgood _ hhm)
  -- the new place
  have hout : ∀ n ∈ numbered (nameBase bagpath basis) plan.length, ¬ leadsTo wd outdir ++ [n] <+: leadsTo wd dest := by
    intro n hm hp
    have hf := hfree _ n hm
    have hne : leadsTo wd outdir ++ [n] ≠ leadsTo wd dest := fun e => hapart _ n hm e.symm
    obtain ⟨x, l, hx⟩ : ∃ x l, leadsTo wd dest = x ++ [l] := ⟨_, _, (List.dropLast_concat_getLast hnew.root).symm⟩
    rw [hx] at hp hne
    have hpar := hnew.parent
    rw [hx, List.dropLast_concat] at hpar
    rcases List.prefix_concat_iff.1 hp with e | e
    · exact hne e
    · rcases isdir_iff.1 hpar with e' | e'
      · rw [e'] at e
        have := List.prefix_nil.1 e
        simp at this
      · have := wf_prefix h.wf (p := x) (by rw [e']; rfl) e (by simp)
        unfold Tree.exists at hf
        simp only [Bool.or_eq_false_iff] at hf
        rw [hf.2] at this
        cases this
  have hfree' : w.disk.exists (leadsTo wd dest) = false := by
    rcases hkeep.same (leadsTo wd dest) with e | ⟨_, n, hm, e⟩
    · have := hnew.free
      unfold Tree.exists at this ⊢
      rw [e]; exact this
    · exfalso
      rw [chosenNames_nil, hnames] at hm
      obtain ⟨n', hn', e'⟩ := List.mem_map.1 hm
      cases e'
      rw [leadsTo_plain (numbered_good hb _ n hn')] at e
      exact hout n hn' e
  have hpar' : w.disk.isdir (leadsTo wd dest).dropLast = true := by
    rw [(kept_same hkeep _ (exists_of_isdir hnew.parent)).2.2]
    exact hnew.parent
  have hbelow : ∀ e ∈ d'.done, Tree.isdir (dset w.disk (leadsTo wd dest) .dir) (leadsTo wd outdir ++ [e.1]) = true ∧
      Tree.below (dset w.disk (leadsTo wd dest) .dir) (leadsTo wd outdir ++ [e.1]) = e.2 := by
    intro e he
    have ho := hout _ (hgood e he)
    obtain ⟨g1, g2⟩ := hw3 e he
    constructor
    · rcases isdir_iff.1 g1 with x | x
      · simp at x
      · refine isdir_iff.2 (.inr ?_)
        rw [dget_dset, if_neg (fun (x : leadsTo wd dest = leadsTo wd outdir ++ [e.1]) => ho (x ▸ List.prefix_refl _))]
        exact x
    · rw [below_dset_other (fun x => absurd x ho), g2]
  -- the head bag
  have hlead := leadsTo_join_plain wd outdir hgn
  have habs : abspath X.cwd (pathJoin outdir hn) = '/' :: joinPath (leadsTo wd outdir ++ [hn]) := by
    rw [abspath_one h.cwd (join_noUNC hunc hgn), hlead]
  have hgO := goodName_leadsTo h.cwd.1.2 outdir
  have habsBag : ∀ n, GoodName n → AbsPath ('/' :: joinPath (leadsTo wd outdir ++ [n])) (leadsTo wd outdir ++ [n]) := by
    intro n hg
    refine ⟨⟨by simp, ?_⟩, rfl⟩
    intro c hc
    rcases List.mem_append.1 hc with hc | hc
    · exact hgO c hc
    · rw [List.mem_singleton] at hc
      subst hc
      exact hg
  have hapartBag : ∀ e ∈ d'.done, '/' :: joinPath (leadsTo wd outdir ++ [e.1]) ≠ abspath X.cwd dest := by
    intro e he x
    rw [hDabs.2] at x
    injection x with _ x
    have := joinPath_inj (habsBag e.1 (numbered_good hb _ _ (hgood e he))).1 hDabs.1 x
    exact hout _ (hgood e he) (this ▸ List.prefix_refl _)
  let r : Restorer := { headPath := pathJoin outdir hn, inplace := decide (abspath X.cwd dest = abspath X.cwd (pathJoin outdir hn)),
                        destdir := abspath X.cwd dest, cachedir := '/' :: joinPath (leadsTo wd outdir) }
  have hcache : leadsTo wd r.cachedir = leadsTo wd outdir := by
    show leadsTo wd (List.replicate 1 '/' ++ joinPath (leadsTo wd outdir)) = _
    exact leadsTo_slashes (by omega) hgO wd
  have hsource : ∀ e ∈ d'.done, r.source exts X.cwd (dset w.disk (leadsTo wd dest) .dir) archives e.1 =
      some ⟨'/' :: joinPath (leadsTo wd outdir ++ [e.1]), e.2⟩ := by
    intro e he
    have hg := numbered_good hb _ _ (hgood e he)
    obtain ⟨g1, g2⟩ := hbelow e he
    have hl : leadsTo wd (pathJoin r.cachedir e.1) = leadsTo wd outdir ++ [e.1] := by rw [leadsTo_join_plain wd _ hg, hcache]
    have hu : ¬ py!"//" <+: r.cachedir := by
      intro hp
      have := (List.cons_prefix_cons.1 hp).2
      cases hj : joinPath (leadsTo wd outdir) with
      | nil => rw [hj] at this; simp at this
      | cons c t =>
        rw [hj] at this
        have hc := joinPath_head ⟨h.out.1, hgO⟩ c (by rw [hj]; rfl)
        exact hc (List.cons_prefix_cons.1 this).1.symm
    have ha : abspath X.cwd (pathJoin r.cachedir e.1) = '/' :: joinPath (leadsTo wd outdir ++ [e.1]) := by
      rw [abspath_one h.cwd (join_noUNC hu hg), hl]
    have hfind : r.find exts X.cwd (dset w.disk (leadsTo wd dest) .dir) e.1 = some (pathJoin r.cachedir e.1) := by
      unfold Restorer.find
      simp only
      rw [diskIsdir_eq h.cwd, hl, g1]
      rfl
    unfold Restorer.source
    rw [hfind]
    simp only
    rw [comps_abspath h.cwd, hl, g1, g2, ha]
    rfl
  let H : RHead := { name := hn, path := '/' :: joinPath (leadsTo wd outdir ++ [hn]), tree := ht, mode := .codecs,
                     info := match openBag { E.base with bagpath := '/' :: joinPath (leadsTo wd outdir ++ [hn]) } ht with
                       | .ok b => b.info
                       | .error _ => [] }
  obtain ⟨d'', hrun', hrest⟩ := hparts (r.source exts X.cwd (dset w.disk (leadsTo wd dest) .dir) archives)
  have hdd : d'' = d' := by
    have : (.ok d'' : Except PyErr CopyDisk) = .ok d' := hrun'.symm.trans hrun
    injection this
  subst hdd
  obtain ⟨out, b', r1, r2, r3, ⟨⟨hbag, ho, hmem⟩, _⟩, rr, r4⟩ := hrest H
    (init.map (fun e => ⟨'/' :: joinPath (leadsTo wd outdir ++ [e.1]), e.2⟩)) ⟨⟨init, hdone, by
      have : ∀ l : List (Str × Tree), (∀ e ∈ l, e ∈ d''.done) → Forall₂ (fun b s =>
          r.source exts X.cwd (dset w.disk (leadsTo wd dest) .dir) archives b.1 = some s ∧ s.tree = b.2 ∧
            s.path ≠ abspath X.cwd dest ∧ ∃ dir, AbsPath s.path dir) l
          (l.map (fun e => (⟨'/' :: joinPath (leadsTo wd outdir ++ [e.1]), e.2⟩ : RSource))) := by
        intro l
        induction l with
        | nil => intro _; exact .nil
        | cons e l ih =>
          intro hl
          have he := hl e List.mem_cons_self
          exact .cons ⟨hsource e he, rfl, hapartBag e he, _, habsBag _ (numbered_good hb _ _ (hgood e he))⟩
            (ih fun x hx => hl x (List.mem_cons_of_mem _ hx))
      exact this init (fun e he => by rw [hdone]; exact List.mem_append_left _ he)⟩,
      hapartBag _ hhm, ⟨_, habsBag _ hgn⟩, by
        intro b hbo
        have hbo : openBag { E.base with bagpath := '/' :: joinPath (leadsTo wd outdir ++ [hn]) } ht = .ok b := hbo
        show (match openBag { E.base with bagpath := '/' :: joinPath (leadsTo wd outdir ++ [hn]) } ht with
          | .ok b => b.info
          | .error _ => []) = _
        rw [hbo]⟩ true
  have ho : openBag { E.base with bagpath := '/' :: joinPath (leadsTo wd outdir ++ [hn]) } ht = .ok hbag := ho
  have hH : H = { name := hn, path := abspath X.cwd (pathJoin outdir hn), tree := hbag.tree, info := hbag.info, mode := .codecs } := by
    have h1 : hbag.tree = ht := (openBag_parts ho).1
    have h2 : H.info = hbag.info := by
      show (match openBag { E.base with bagpath := '/' :: joinPath (leadsTo wd outdir ++ [hn]) } ht with
          | .ok b => b.info
          | .error _ => []) = _
      rw [ho]
    rw [h1, ← h2, habs]
  rw [hH] at r1
  have hfresh := restoreBag_fresh h.cwd hkeep.wf E exts archives dirs habs hlead hgn (dest := dest) (D := leadsTo wd dest)
    (fun e => by
      rcases join_cases (a := outdir) hgn with ⟨x, _⟩ | ⟨x, _⟩ <;> rw [x] at e <;> simp at e
      exact hgn.1 e.2)
    (join_noURL hurl hgn) (hw3 _ hhm).1 (hb := hbag) (by rw [(hw3 _ hhm).2, habs]; exact ho) hmem hnew.given rfl hnew.root hpar' hfree' r rfl
  rw [r1] at hfresh
  simp only at hfresh
  have r2 : openBag { E.base with bagpath := abspath X.cwd dest } out = .ok b' := r2
  rw [r2] at hfresh
  have hbt : b'.tree = out := (openBag_parts r2).1
  refine ⟨init.map Prod.fst, hn, w.disk, _, b', ?_, hfresh, r3, ?_, ?_, ?_, ?_⟩
  · rw [hcall, ← hfst, hdone, List.map_append]
    rfl
  · rw [hbt]
    refine bagAt_iff.2 ⟨isdir_withBelow_self _ _ (isdir_iff.2 (.inr (by rw [dget_dset, if_pos rfl]))), ?_⟩
    intro p hp
    exact dget_withBelow _ _ _ hp
  · rw [hbt]
    exact r4
  · intro q hq
    refine sameThing_of_dget ?_
    rw [dget_withBelow_other _ _ hq, dget_dset, if_neg (fun (e : leadsTo wd dest = q) => hq (e ▸ List.prefix_refl _))]
  · rw [hbt]
    have hdw : WfTree (dset w.disk (leadsTo wd dest) .dir) := by
      exact wf_dset hkeep.wf ⟨hnew.root, goodName_leadsTo h.cwd.1.2 dest⟩ hpar' (.inr rfl)
    have hdi : Tree.isdir (dset w.disk (leadsTo wd dest) .dir) (leadsTo wd dest) = true :=
      isdir_iff.2 (.inr (by rw [dget_dset, if_pos rfl]))
    refine ⟨r2, ⟨rr.wf, rr.tidy, rr.tagFile, rr.info, rr.files, rr.dirs, rr.tags, rr.keys, rr.listed, rr.values⟩,
      wf_withBelow hdw rr.wf hdi (goodName_leadsTo h.cwd.1.2 dest), below_withBelow _ _ (fun e he => (rr.wf.good e.1 (List.mem_map.2 ⟨e, he, rfl⟩)).1), ?_⟩
    intro q hq
    have hni : ¬ leadsTo wd dest <+: q := by
      intro hp
      have hf := hnew.free
      have hqn : q ≠ [] := by rintro rfl; exact hnew.root (List.prefix_nil.1 hp)
      have hs : (dget W q).isSome = true := by
        have := (exists_iff hqn).1 hq
        cases hd : dget W q with
        | none => exact absurd hd this
        | some _ => rfl
      have := wf_prefix h.wf hs hp hnew.root
      unfold Tree.exists at hf
      rw [this] at hf
      simp at hf
    have hsame := kept_same hkeep q hq
    have h2 : SameThing (Tree.withBelow (dset w.disk (leadsTo wd dest) .dir) (leadsTo wd dest) out) w.disk q := by
      refine sameThing_of_dget ?_
      rw [dget_withBelow_other _ _ hni, dget_dset, if_neg (fun (e : leadsTo wd dest = q) => hni (e ▸ List.prefix_refl _))]
    exact ⟨h2.1.trans hsame.1, h2.2.1.trans hsame.2.1, h2.2.2.trans hsame.2.2⟩

/-- C107: a valid bag that is split by one call and restored by another one, into a new directory, from the head bag, whose
path is the last that the split returns: the restore succeeds, and the bag it returns is valid and has the files and
directories of the original one.  It is in the new directory, and everything else is as the split left it. -/
theorem C107_round_trip {X : SplitEnv} {s : Splitter} {W : Tree} {wd : Path} {bagpath outdir : Str} {b : RBag}
    (h : CanSplit X s W wd bagpath outdir b) (basis : Option Str) (nopass : List Str) (hb : '/' ∉ nameBase bagpath basis)
    (hbase : CleanStart (nameBase bagpath basis))
    (hfree : ∀ k, ∀ n ∈ numbered (nameBase bagpath basis) k, W.exists (leadsTo wd outdir ++ [n]) = false)
    (hurl : contains py!"://" outdir = false) (hunc : ¬ py!"//" <+: outdir)
    {E : RestoreEnv} (hcfg : E.base = X.cfg) (hblen : E.blen = X.blen) {dest : Str} (hnew : NewPlace W wd dest)
    (hapart : ∀ k, ∀ n ∈ numbered (nameBase bagpath basis) k, leadsTo wd dest ≠ leadsTo wd outdir ++ [n])
    (hE : EnvOk E) (hF : EnvFits (E.into (abspath X.cwd dest) E.find)) (hdol : ∀ a ∈ E.base.algs, '$' ∉ a)
    (hsz : ∀ t i, Trimmed (E.sizeText t i)) {hostOk : Str → Bool} {A : Str → Prop}
    (hs : SplitSource hostOk (E.into (abspath X.cwd dest) E.find) A (rstripBy (· = '/') bagpath) b.tree b)
    (hpaths : ∀ p, b.tree.exists p = true → p ≠ [] → ListablePath (joinPath p))
    (exts : List Str) (archives : Path → Option Tree) (dirs : Tree → List Path) :
    ∃ names head W' W'' b',
      splitCall X s bagpath outdir basis nopass W = (.ok ((names ++ [head]).map (pathJoin outdir)), W') ∧
      restoreBag E X.cwd exts archives dirs (pathJoin outdir head) (some dest) none W' = .ok (b', W'') ∧
      bagValidate hostOk E.sum E.blen { E.base with bagpath := abspath X.cwd dest } b' = .ok () ∧
      BagAt W'' (leadsTo wd dest) b'.tree ∧
      (∀ p, ¬ Special p → b'.tree.read p = b.tree.read p ∧ (b'.tree.isdir p = true ↔ b.tree.isdir p = true)) ∧
      ∀ q, ¬ Inside (leadsTo wd dest) q → SameThing W'' W' q := by
  obtain ⟨names, head, W', W'', b', h1, h2, h3, h4, h5, h6, _⟩ := round_trip_parts h basis nopass hb hbase hfree hurl hunc hcfg hblen hnew hapart hE hF hdol hsz hs hpaths exts archives dirs
  exact ⟨names, head, W', W'', b', h1, h2, h3, h4, h5, h6⟩

namespace Sample

/-- Restoring from the bags that are found on disk. -/
def callRenv : RestoreEnv := { renv with base := okCfg }

theorem call_fits : EnvFits (callRenv.into py!"/home/restored" callRenv.find) where
  utf := renv_fits.utf
  algs := renv_fits.algs
  sums := renv_fits.sums
  info := by unfold AtDest; decide +kernel
  manifests := by
    intro a ha
    refine ⟨(renv_fits.manifests a ha).1, ?_⟩
    have : a = py!"md5" ∨ a = py!"sha256" := by revert a; decide
    rcases this with rfl | rfl <;> (unfold AtDest; decide +kernel)

theorem call_source : SplitSource (fun _ => true) (callRenv.into py!"/home/restored" callRenv.find) (· = py!"md5")
    py!"../src/bag" okTree okBag where
  opens := by
    show openBag { okCfg with bagpath := py!"../src/bag" } okTree = .ok okBag
    decide +kernel
  valid := by
    show bagValidate (fun _ => true) Sample.sum List.length { okCfg with bagpath := py!"../src/bag" } okBag = .ok ()
    decide +kernel
  ordinary := ok_ordinary
  tagFile := by decide +kernel
  tidy := by
    show Tidy (AtDest (callRenv.into py!"/home/restored" callRenv.find)) renv.base.algs (· = py!"md5") okTree
    refine tidy_of_lines (es := [(py!"data/a", py!"d2"), (py!"data/b", py!"d3")]) rfl rfl (by decide) ?_ (by decide)
    intro e he
    have : e = (py!"data/a", py!"d2") ∨ e = (py!"data/b", py!"d3") := by simpa using he
    rcases this with rfl | rfl
    · exact ⟨rfl, plain_line_of_check (q := [py!"data", py!"a"]) (by decide), by unfold AtDest; decide +kernel⟩
    · exact ⟨rfl, plain_line_of_check (q := [py!"data", py!"b"]) (by decide), by unfold AtDest; decide +kernel⟩
  nohead := (ok_source []).nohead
  notags := (ok_source []).notags
  nofetch := (ok_source []).nofetch

theorem call_new : NewPlace callWorld [py!"home"] py!"restored" :=
  ⟨by decide, by decide, by decide, by decide, by decide⟩

end Sample

/-- The sample bag, whichever way it is split into `/work`, is restored to `/home/restored`. -/
example (s : Splitter) (hs : s.forhead = []) : ∃ names head W' W'' b',
    splitCall Sample.callEnv s py!"../src/bag" py!"/work" none [] Sample.callWorld =
      (.ok ((names ++ [head]).map (pathJoin py!"/work")), W') ∧
    restoreBag Sample.callRenv py!"/home" [py!".zip"] (fun _ => none) (fun _ => []) (pathJoin py!"/work" head) (some py!"restored") none W' =
      .ok (b', W'') ∧
    b'.tree.read [py!"data", py!"b"] = some py!"uvw" ∧ BagAt W'' [py!"home", py!"restored"] b'.tree ∧
    ∀ q, ¬ Inside [py!"home", py!"restored"] q → SameThing W'' W' q := by
  have ht : Sample.okBag.tree = Sample.okTree := by decide +kernel
  obtain ⟨names, head, W', W'', b', h1, h2, _, h4, h5, h6⟩ := C107_round_trip (Sample.call_can s hs) none [] (by decide)
    (cleanStart_of_check (by decide)) (fun k => Sample.call_free _ k) (by decide) (by decide) (E := Sample.callRenv) rfl rfl
    Sample.call_new (fun k n _ e => by
      have : [py!"home", py!"restored"] = [py!"work", n] := e
      simp at this)
    ⟨fun _ h => isWalk_walkOf h, Sample.renv_ok.2⟩ Sample.call_fits (by decide)
    (fun t i => by show Trimmed py!"1 kB"; unfold Trimmed; decide) (by rw [ht]; exact Sample.call_source)
    (by rw [ht]; exact Sample.ok_listable) [py!".zip"] (fun _ => none) (fun _ => [])
  refine ⟨names, head, W', W'', b', h1, h2, ?_, h4, h6⟩
  rw [(h5 [py!"data", py!"b"] Sample.not_special_b).1, ht]
  decide

namespace Sample

/-- The sample head bag and its member in a directory. -/
def storeWorld : Tree :=
  [([py!"store"], .dir), ([py!"home"], .dir), ([py!"store", py!"hb"], .dir), ([py!"store", py!"m1"], .dir)] ++
    hb.map (fun e => ([py!"store", py!"hb"] ++ e.1, e.2)) ++ m1.map (fun e => ([py!"store", py!"m1"] ++ e.1, e.2))

end Sample

/-- The sample head bag is restored in its place. -/
example : ∃ b W', restoreBag Sample.renv py!"/home" [py!".zip"] (fun _ => none) (fun _ => []) py!"../store/hb" none none Sample.storeWorld = .ok (b, W') ∧
    b.tree.exists [py!"data", py!"b"] = true ∧ BagAt W' [py!"store", py!"hb"] b.tree ∧
    W'.below [py!"store", py!"m1"] = Sample.m1 := by
  cases h : restoreBag Sample.renv py!"/home" [py!".zip"] (fun _ => none) (fun _ => []) py!"../store/hb" none none Sample.storeWorld with
  | error e => 
    have : (match restoreBag Sample.renv py!"/home" [py!".zip"] (fun _ => none) (fun _ => []) py!"../store/hb" none none Sample.storeWorld with
      | .ok (b, W') => b.tree.exists [py!"data", py!"b"] && W'.below [py!"store", py!"m1"] = Sample.m1
      | .error e => false) = true := by decide +kernel
    rw [h] at this
    cases this
  | ok r =>
    have : (match restoreBag Sample.renv py!"/home" [py!".zip"] (fun _ => none) (fun _ => []) py!"../store/hb" none none Sample.storeWorld with
      | .ok (b, W') => b.tree.exists [py!"data", py!"b"] && W'.below [py!"store", py!"m1"] = Sample.m1
      | .error e => false) = true := by decide +kernel
    rw [h] at this
    simp only [Bool.and_eq_true, decide_eq_true_eq] at this
    refine ⟨r.1, r.2, rfl, this.1, ?_, this.2⟩
    exact (C107_outside (D := [py!"store", py!"hb"]) (Sample.call_can {} rfl).cwd (Sample.wf_of_check (by decide +kernel)) _ _ _ _ _ none none (by simp) h (.inr ⟨.inl rfl, rfl⟩)).1

end Verif
