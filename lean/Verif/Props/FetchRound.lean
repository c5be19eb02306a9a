import Verif.Props.Fetching
import Verif.Spec.FetchRound
/-!
# C117: splitting a bag, and restoring it elsewhere from the head bag and fetched member bags
-/

namespace Verif
open Spec

/-- The bags of a split have nothing where fetched bags are put, if the source has no tag files of multibag. -/
theorem splitBag_free {src : Tree} {contents : List Str} {ishead : Bool} {t : Tree} (sb : SplitBag src contents ishead t)
    (hno : ∀ p, [py!"multibag"] <+: p → src.exists p = false) : FreeOfCache t := by
  have hstd : ∀ p, [py!"multibag"] <+: p → ¬ Standard p := by
    rintro p ⟨l, rfl⟩ h
    rcases h with h | h | ⟨a, h | h⟩ <;> simp at h
  constructor
  · cases hx : t.exists [py!"multibag", py!"_membercache"] with
    | false => rfl
    | true =>
      exfalso
      have hd : t.isfile [py!"multibag", py!"_membercache"] = true ∨ t.isdir [py!"multibag", py!"_membercache"] = true := by
        have := (exists_iff (by simp)).1 hx
        cases hg : dget t [py!"multibag", py!"_membercache"] with
        | none => exact absurd hg this
        | some v =>
          cases v with
          | file c => exact .inl (isfile_iff.2 ⟨c, hg⟩)
          | dir => exact .inr (isdir_iff.2 (.inr hg))
      rcases hd with hd | hd
      · rcases sb.only _ hd with ⟨h, _⟩ | h | ⟨_, h⟩
        · have := hno [py!"multibag", py!"_membercache"] ⟨[py!"_membercache"], rfl⟩
          rw [exists_of_isfile h] at this; cases this
        · exact hstd _ ⟨[py!"_membercache"], rfl⟩ h
        · rcases h with h | h | h <;> revert h <;> decide
      · rcases (sb.dirs _).1 hd with h | h | ⟨_, h⟩ | ⟨f, _, ⟨h1, h2⟩ | ⟨h1, h2⟩⟩
        · cases h
        · cases h
        · cases h
        · have := hno _ (List.IsPrefix.trans ⟨[py!"_membercache"], rfl⟩ h2)
          rw [exists_of_isdir h1] at this; cases this
        · have := hno _ (List.IsPrefix.trans (List.IsPrefix.trans ⟨[py!"_membercache"], rfl⟩ h2) (List.dropLast_prefix _))
          rw [exists_of_isfile h1] at this; cases this
  · cases hx : t.isfile [py!"multibag"] with
    | false => rfl
    | true =>
      exfalso
      rcases sb.only _ hx with ⟨h, _⟩ | h | ⟨_, h⟩
      · have := hno _ (List.prefix_refl _)
        rw [exists_of_isfile h] at this; cases this
      · exact hstd _ (List.prefix_refl _) h
      · rcases h with h | h | h <;> cases h

/-- Opening a head bag that is a directory, for restoring into a new directory. -/
theorem head_opened {cwd : Str} {wd : Path} (hc : AbsPath cwd wd) {W : Tree} (E : RestoreEnv)
    (archives : Path → Option Tree) (dirs : Tree → List Path) {p dest : Str} {O : Path} {n : Str}
    (habs : abspath cwd p = '/' :: joinPath (O ++ [n])) (hp : leadsTo wd p = O ++ [n]) (hn : GoodName n) (hne : p ≠ [])
    (hurl : contains py!"://" p = false) (hdir : W.isdir (O ++ [n]) = true) {hb : RBag}
    (hopen : openBag { E.base with bagpath := abspath cwd p } (W.below (O ++ [n])) = .ok hb)
    (hhead : py!"Multibag-Head-Version" ∈ dkeys hb.info) (hd : dest ≠ []) (hpar : W.isdir (leadsTo wd dest).dropLast = true) (f : Bool) :
    Restorer.make cwd W (isHeadFrom cwd (diskPlaces cwd archives dirs W) E.base) (.location p) (some dest) none f =
      .ok { headPath := p, inplace := decide (abspath cwd dest = abspath cwd p), destdir := abspath cwd dest,
            cachedir := if f then pathJoin (pathJoin (abspath cwd dest) py!"multibag") py!"_membercache" else dirName (abspath cwd p) } ∧
    headAt cwd (diskPlaces cwd archives dirs W) E.base p =
      .ok { name := n, path := abspath cwd p, tree := hb.tree, info := hb.info, mode := .codecs } := by
  have hcp : comps (abspath cwd p) = O ++ [n] := by rw [comps_abspath hc, hp]
  have hat : (diskPlaces cwd archives dirs W).at_ p = some (.dir (W.below (O ++ [n]))) := by
    unfold diskPlaces
    simp only [hcp, hdir, if_true]
  have hfrom : openFrom cwd (diskPlaces cwd archives dirs W) E.base p = .ok (baseName p, hb) := by
    unfold openFrom openPlace
    rw [if_neg hne, hurl, hat]
    simp only [Bool.false_eq_true, if_false, hopen]
  constructor
  · have hex : diskExists cwd W p = true := by rw [diskExists_eq hc, hp]; exact exists_of_isdir hdir
    have his : isHeadFrom cwd (diskPlaces cwd archives dirs W) E.base p = .ok true := by
      unfold isHeadFrom
      rw [hfrom]
      simp only
      rw [show dmem hb.info py!"Multibag-Head-Version" = true from by
        unfold dmem
        obtain ⟨v, hv⟩ := mem_dkeys_iff.1 hhead
        rw [hv]; rfl]
    have hgd : given (some dest) = some dest := by
      cases dest with
      | nil => exact absurd rfl hd
      | cons => rfl
    have hdirp : diskIsdir cwd W (dirName (abspath cwd dest)) = true := by
      rw [diskIsdir_eq hc, leadsTo_dirName hc]; exact hpar
    unfold Restorer.make
    simp only [hex, Bool.not_true, Bool.false_eq_true, if_false, his, hgd, Option.getD_some, hdirp, HeadArg.path]
    rfl
  · unfold headAt
    rw [hfrom]
    simp only [hat]
    rw [show baseName (abspath cwd p) = n by rw [habs]; exact baseName_abs hn.noslash]

/-- What a call that splits a bag leaves: bags that can be restored wherever they are found. -/
theorem split_call_bags {X : SplitEnv} {s : Splitter} {W : Tree} {wd : Path} {bagpath outdir : Str} {b : RBag}
    (h : CanSplit X s W wd bagpath outdir b) (basis : Option Str) (nopass : List Str) (hb : '/' ∉ nameBase bagpath basis)
    (hbase : CleanStart (nameBase bagpath basis))
    (hfree : ∀ k, ∀ n ∈ numbered (nameBase bagpath basis) k, W.exists (leadsTo wd outdir ++ [n]) = false)
    {E : RestoreEnv} (hcfg : E.base = X.cfg) (hblen : E.blen = X.blen) {D : Str} {dir : Path} (hD : AbsPath D dir)
    (hE : EnvOk E) (hF : EnvFits (E.into D E.find)) (hdol : ∀ a ∈ E.base.algs, '$' ∉ a)
    (hsz : ∀ t i, Trimmed (E.sizeText t i)) {hostOk : Str → Bool} {A : Str → Prop}
    (hs : SplitSource hostOk (E.into D E.find) A (rstripBy (· = '/') bagpath) b.tree b)
    (hpaths : ∀ p, b.tree.exists p = true → p ≠ [] → ListablePath (joinPath p)) :
    ∃ (init : List (Str × Tree)) (hn : Str) (ht : Tree) (W' : Tree),
      splitCall X s bagpath outdir basis nopass W = (.ok ((init.map Prod.fst ++ [hn]).map (pathJoin outdir)), W') ∧
      (∀ e ∈ init ++ [(hn, ht)], GoodName e.1 ∧ W'.isdir (leadsTo wd outdir ++ [e.1]) = true ∧
        W'.below (leadsTo wd outdir ++ [e.1]) = e.2 ∧ WfTree e.2 ∧ FreeOfCache e.2) ∧ (init.map Prod.fst ++ [hn]).Nodup ∧
      ∀ find H srcs, BagsFound (E.into D find) (init ++ [(hn, ht)]) H srcs → ∀ rm, ∃ out b', restore (E.into D find) H true rm [] = .ok out ∧
        openBag { E.base with bagpath := D } out = .ok b' ∧ bagValidate hostOk E.sum E.blen { E.base with bagpath := D } b' = .ok () ∧
        ((∃ hb, openBag { E.base with bagpath := H.path } H.tree = .ok hb ∧ py!"Multibag-Head-Version" ∈ dkeys hb.info) ∧
          iterMembers H.mode H.tree H.info = .ok ((init.map Prod.fst ++ [hn]).map (fun n => { name := n }))) ∧
        ∀ p, ¬ Special p → out.read p = b.tree.read p ∧ (out.isdir p = true ↔ b.tree.isdir p = true) := by
  obtain ⟨plan, hplan, hnames, hcall⟩ := splitCall_eq h basis nopass
  have hentries := call_entries h (simpleNamer (nameBase bagpath basis))
  have hpos := plan_nonempty h (simpleNamer (nameBase bagpath basis))
  have hparts := fun find => every_split_parts (hostOk := hostOk) (E := E.into D find) (A := A)
    (src := rstripBy (· = '/') bagpath) (t := b.tree) (b := b) ⟨hE.walk, hE.algs⟩
    ⟨hF.utf, hF.algs, hF.sums, hF.info, hF.manifests⟩ hdol (dest := dir) hD hsz
    ⟨hs.opens, hs.valid, hs.ordinary, hs.tagFile, hs.tidy, hs.nohead, hs.notags, hs.nofetch⟩ hpaths s h.word h.look h.head h.odd
    (baseName (rstripBy (· = '/') bagpath)) (X.size b.tree) h.listing hbase (o := { nopass := nopass })
    ⟨(show ∀ c ∈ (py!"1" : Str), isNl c = false by decide), (show Trimmed (py!"1" : Str) by unfold Trimmed; decide)⟩ (by intro x hx; cases hx)
  rw [← hplan] at hentries hpos
  simp only [← hplan] at hparts
  clear hplan
  have hord := h.ordinary
  rw [← hcfg] at hcall hord
  rw [← hblen] at hcall
  obtain ⟨d', hrun, _⟩ := hparts E.find
  have hrun : applyPlan copyFS (b.source { E.base with bagpath := rstripBy (· = '/') bagpath }) E.blen { nopass := nopass } plan []
      { src := b.tree } = .ok d' := hrun
  obtain ⟨w, hw1, hw2, hw3⟩ := disk_made h.wf (src := leadsTo wd bagpath) ⟨h.source.1, goodName_leadsTo h.cwd.1.2 bagpath⟩
    (call_out h) h.out.2 (S := b.source { E.base with bagpath := rstripBy (· = '/') bagpath }) ⟨hord.algs, hord.hashes⟩ hord.wf
    (bagAt_of_canSplit h) h.apart (o := { nopass := nopass }) hentries (names := []) (by
      intro n hn
      rw [chosenNames_nil, hnames] at hn
      obtain ⟨n', hn', e⟩ := List.mem_map.1 hn
      cases e
      exact ⟨numbered_good hb _ n hn', hfree _ n hn'⟩) hrun
  rw [hw1] at hcall
  simp only at hcall
  obtain ⟨bags, hd1, hd2, hd5, _, hd3⟩ := C36_contents (d := { src := b.tree }) rfl hentries hord.algs hord.hashes hrun
  rw [List.nil_append] at hd1
  have hfst : d'.done.map Prod.fst = numbered (nameBase bagpath basis) plan.length := by
    rw [hd1]
    have h1 : (bags.map Prod.fst).map some = plan.map (·.name) := by
      refine List.ext_getElem? (fun i => ?_)
      rw [List.getElem?_map, List.getElem?_map, List.getElem?_map]
      cases hi : bags[i]? with
      | none =>
        rw [List.getElem?_eq_none_iff] at hi
        rw [List.getElem?_eq_none_iff.2 (by omega)]
        rfl
      | some e =>
        have hlt := (List.getElem?_eq_some_iff.1 hi).1
        have hm := List.getElem?_eq_getElem (show i < plan.length by omega)
        have := (hd3 i _ e.1 e.2 hm hi).1
        rw [hm]
        simp only [List.getElem?_nil, Option.none_or] at this
        simp [this]
    rw [hnames] at h1
    exact (List.map_inj_right (fun _ _ e => Option.some.inj e)).1 h1
  have hdne : d'.done ≠ [] := by
    intro e
    rw [hd1] at e
    rw [e] at hd2
    simp at hd2
    omega
  obtain ⟨init, ⟨hn, ht⟩, hdone⟩ : ∃ init l, d'.done = init ++ [l] := ⟨_, _, (List.dropLast_concat_getLast hdne).symm⟩
  have hnm : init.map Prod.fst ++ [hn] = d'.done.map Prod.fst := by rw [hdone, List.map_append]; rfl
  refine ⟨init, hn, ht, w.disk, ?_, ?_, ?_, ?_⟩
  · rw [hcall, hnm, ← hfst]
  · rw [← hdone]
    intro e he
    obtain ⟨g1, g2⟩ := hw3 e he
    obtain ⟨i, hi⟩ := List.mem_iff_getElem?.1 (hd1 ▸ he)
    have hlt := (List.getElem?_eq_some_iff.1 hi).1
    have sb := (hd3 i _ e.1 e.2 (List.getElem?_eq_getElem (show i < plan.length by omega)) hi).2
    exact ⟨numbered_good hb _ _ (hfst ▸ List.mem_map.2 ⟨e, he, rfl⟩), g1, g2, sb.wf, splitBag_free sb hs.notags⟩
  · rw [hnm, hd1]
    exact hd5
  · intro find H srcs hfound rm
    obtain ⟨d'', hrun', hrest⟩ := hparts find
    have hdd : d'' = d' := by
      have : (.ok d'' : Except PyErr CopyDisk) = .ok d' := hrun'.symm.trans hrun
      injection this
    subst hdd
    obtain ⟨out, b', r1, r2, r3, r4, _, r5⟩ := hrest H srcs (hdone ▸ hfound) rm
    rw [hnm]
    exact ⟨out, b', r1, r2, r3, r4, r5⟩

/-- C117: a valid bag is split by one call.  The head bag, the last whose path is returned, is brought to some other place,
maybe on another machine, and there restored into a new directory, with a function that can deliver the other bags of the
split.  The restore succeeds; the bag it returns is valid and has the files and directories of the original one; it is in
the new directory, and nothing else is changed or left behind; and each of the other bags was asked for, once. -/
theorem C117_split_fetched {X : SplitEnv} {s : Splitter} {W : Tree} {wd : Path} {bagpath outdir : Str} {b : RBag}
    (h : CanSplit X s W wd bagpath outdir b) (basis : Option Str) (nopass : List Str) (hb : '/' ∉ nameBase bagpath basis)
    (hbase : CleanStart (nameBase bagpath basis))
    (hfree : ∀ k, ∀ n ∈ numbered (nameBase bagpath basis) k, W.exists (leadsTo wd outdir ++ [n]) = false)
    {E : RestoreEnv} (hcfg : E.base = X.cfg) (hblen : E.blen = X.blen)
    -- the other place
    {cwd : Str} {here : Path} (hc : AbsPath cwd here) {dest : Str} (hroot : leadsTo here dest ≠ []) (hone : ¬ py!"//" <+: dest)
    (hE : EnvOk E) (hF : EnvFits (E.into (abspath cwd dest) E.find)) (hdol : ∀ a ∈ E.base.algs, '$' ∉ a)
    (hsz : ∀ t i, Trimmed (E.sizeText t i)) {hostOk : Str → Bool} {A : Str → Prop}
    (hs : SplitSource hostOk (E.into (abspath cwd dest) E.find) A (rstripBy (· = '/') bagpath) b.tree b)
    (hpaths : ∀ p, b.tree.exists p = true → p ≠ [] → ListablePath (joinPath p))
    {exts : List Str} (hx : ∀ e, e ∈ exts ↔ e ∈ serialized) (archives : Path → Option Tree) (dirs : Tree → List Path) :
    ∃ names head W', splitCall X s bagpath outdir basis nopass W = (.ok ((names ++ [head]).map (pathJoin outdir)), W') ∧
      (∀ n ∈ names ++ [head], GoodName n ∧ W'.isdir (leadsTo wd outdir ++ [n]) = true ∧ WfTree (W'.below (leadsTo wd outdir ++ [n]))) ∧
      ∀ V headbag f, WfTree V → NewPlace V here dest → BroughtTo V here headbag head (W'.below (leadsTo wd outdir ++ [head])) → ¬ Inside (leadsTo here headbag) (leadsTo here dest) →
        Delivers f (fun n => if n ∈ names then some (W'.below (leadsTo wd outdir ++ [n])) else none)
          (pathJoin (pathJoin (abspath cwd dest) py!"multibag") py!"_membercache") (leadsTo here dest ++ [py!"multibag", py!"_membercache"]) →
        ∃ b' V' asked, restoreBagFetching E cwd exts archives dirs headbag (some dest) none (some f) V = .ok (b', V', asked) ∧
          bagValidate hostOk E.sum E.blen { E.base with bagpath := abspath cwd dest } b' = .ok () ∧
          BagAt V' (leadsTo here dest) b'.tree ∧
          (∀ p, ¬ Special p → b'.tree.read p = b.tree.read p ∧ (b'.tree.isdir p = true ↔ b.tree.isdir p = true)) ∧
          (∀ q, ¬ Inside (leadsTo here dest) q → SameThing V' V q) ∧
          asked.Nodup ∧ ∀ n, n ∈ asked ↔ n ∈ names := by
  have hgD := goodName_leadsTo hc.1.2 dest
  have hDabs : AbsPath (abspath cwd dest) (leadsTo here dest) := ⟨⟨hroot, hgD⟩, abspath_one hc hone⟩
  obtain ⟨init, hn, ht, W', h1, h2, h3, h4⟩ := split_call_bags h basis nopass hb hbase hfree hcfg hblen hDabs hE hF hdol hsz hs hpaths
  refine ⟨init.map Prod.fst, hn, W', h1, ?_, ?_⟩
  · intro n hm
    have hm : n ∈ (init ++ [(hn, ht)]).map Prod.fst := by rw [List.map_append]; exact hm
    obtain ⟨e, he, rfl⟩ := List.mem_map.1 hm
    obtain ⟨g1, g2, g3, g4, _⟩ := h2 e he
    exact ⟨g1, g2, g3 ▸ g4⟩
  intro V p f hV hnew hp hapart hf
  obtain ⟨g1, _, g3, g4, g5⟩ := h2 (hn, ht) (by simp)
  simp only at g1 g3 g4 g5
  obtain ⟨O, hO⟩ : ∃ O, leadsTo here p = O ++ [hn] := by
    have := hp.name_
    obtain ⟨O, hO⟩ := List.getLast?_eq_some_iff.1 this
    exact ⟨O, hO⟩
  have hgp := goodName_leadsTo hc.1.2 p
  have habs : abspath cwd p = '/' :: joinPath (O ++ [hn]) := by rw [abspath_one hc hp.single, hO]
  have hpabs : AbsPath (abspath cwd p) (leadsTo here p) := ⟨⟨by rw [hO]; simp, hgp⟩, by rw [habs, hO]; rfl⟩
  let cache := pathJoin (pathJoin (abspath cwd dest) py!"multibag") py!"_membercache"
  let bags : Str → Option Tree := fun n => if n ∈ init.map Prod.fst then some (W'.below (leadsTo wd outdir ++ [n])) else none
  let find : Str → Option RSource := fun n => (bags n).map (fun t => ⟨abspath cwd (pathJoin cache n), t⟩)
  have hcne : cache ≠ [] := pathJoin_ne_nil (by decide)
  have hcl : ∀ n, GoodName n → leadsTo here (pathJoin cache n) = leadsTo here dest ++ [py!"multibag", py!"_membercache", n] := by
    intro n hg
    rw [leadsTo_join_name here hcne hg]
    show leadsTo here (pathJoin (pathJoin (abspath cwd dest) py!"multibag") py!"_membercache") ++ [n] = _
    rw [leadsTo_join_name here (pathJoin_ne_nil (by decide)) goodName_cache, leadsTo_join_name here (abspath_ne_nil' hc _) goodName_mb,
      leadsTo_abspath hc]
    simp
  have hunc : ¬ py!"//" <+: abspath cwd dest := by
    rw [show abspath cwd dest = '/' :: joinPath (leadsTo here dest) from hDabs.2]
    intro hp
    have := (List.cons_prefix_cons.1 hp).2
    cases hj : joinPath (leadsTo here dest) with
    | nil => rw [hj] at this; simp at this
    | cons c t =>
      rw [hj] at this
      have hc := joinPath_head hDabs.1 c (by rw [hj]; rfl)
      exact hc (List.cons_prefix_cons.1 this).1.symm
  have hca : ∀ n, GoodName n → AbsPath (abspath cwd (pathJoin cache n)) (leadsTo here dest ++ [py!"multibag", py!"_membercache", n]) := by
    intro n hg
    refine ⟨⟨by simp, ?_⟩, ?_⟩
    · intro c hm
      rcases List.mem_append.1 hm with hm | hm
      · exact hgD c hm
      · simp only [List.mem_cons, List.not_mem_nil, or_false] at hm
        rcases hm with rfl | rfl | rfl
        · exact goodName_mb
        · exact goodName_cache
        · exact hg
    · rw [abspath_one hc (join_noUNC (join_noUNC (join_noUNC hunc goodName_mb) goodName_cache) hg), hcl n hg]
      rfl
  have hbn : ∀ e ∈ init, bags e.1 = some e.2 := by
    intro e he
    show (if e.1 ∈ init.map Prod.fst then _ else _) = _
    rw [if_pos (List.mem_map.2 ⟨e, he, rfl⟩), (h2 e (List.mem_append_left _ he)).2.2.1]
  let H : RHead := { name := hn, path := abspath cwd p, tree := ht, mode := .codecs,
                     info := match openBag { E.base with bagpath := abspath cwd p } ht with
                       | .ok b => b.info
                       | .error _ => [] }
  have hfound : BagsFound (E.into (abspath cwd dest) find) (init ++ [(hn, ht)]) H
      (init.map (fun e => ⟨abspath cwd (pathJoin cache e.1), e.2⟩)) := by
    refine ⟨⟨init, rfl, ?_⟩, ?_, ⟨_, hpabs⟩, ?_⟩
    · have : ∀ l : List (Str × Tree), (∀ e ∈ l, e ∈ init) → Forall₂ (fun b s =>
          find b.1 = some s ∧ s.tree = b.2 ∧ s.path ≠ abspath cwd dest ∧ ∃ dir, AbsPath s.path dir) l
          (l.map (fun e => (⟨abspath cwd (pathJoin cache e.1), e.2⟩ : RSource))) := by
        intro l
        induction l with
        | nil => intro _; exact .nil
        | cons e l ih =>
          intro hl
          have he := hl e List.mem_cons_self
          have hg := (h2 e (List.mem_append_left _ he)).1
          refine .cons ⟨?_, rfl, ?_, _, hca e.1 hg⟩ (ih fun x hx => hl x (List.mem_cons_of_mem _ hx))
          · show (bags e.1).map _ = _
            rw [hbn e he]; rfl
          · intro hx
            have hx : abspath cwd (pathJoin cache e.1) = abspath cwd dest := hx
            rw [(hca e.1 hg).2, hDabs.2] at hx
            injection hx with _ hx
            have := congrArg List.length (joinPath_inj (hca e.1 hg).1 hDabs.1 hx)
            simp at this
      exact this init (fun _ h => h)
    · intro hx
      have hx : abspath cwd p = abspath cwd dest := hx
      rw [hpabs.2, hDabs.2] at hx
      injection hx with _ hx
      exact hapart (joinPath_inj hpabs.1 hDabs.1 hx ▸ List.prefix_refl _)
    · intro b hbo
      have hbo : openBag { E.base with bagpath := abspath cwd p } ht = .ok b := hbo
      show (match openBag { E.base with bagpath := abspath cwd p } ht with
        | .ok b => b.info
        | .error _ => []) = _
      rw [hbo]
  obtain ⟨out, b', r1, r2, r3, ⟨⟨hbag, ho, hmem⟩, hms⟩, r4⟩ := h4 find H _ hfound true
  have ho : openBag { E.base with bagpath := abspath cwd p } ht = .ok hbag := ho
  have hH : H = { name := hn, path := abspath cwd p, tree := hbag.tree, info := hbag.info, mode := .codecs } := by
    have h1 : hbag.tree = ht := (openBag_parts ho).1
    have h2 : H.info = hbag.info := by
      show (match openBag { E.base with bagpath := abspath cwd p } ht with
          | .ok b => b.info
          | .error _ => []) = _
      rw [ho]
    rw [h1, ← h2]
  have hdir : V.isdir (O ++ [hn]) = true := hO ▸ hp.dir
  have hbel : V.below (O ++ [hn]) = ht := by rw [← hO, hp.contents, g3]
  obtain ⟨hm, hhead⟩ := head_opened hc (W := V) E archives dirs (dest := dest) habs hO g1 hp.given hp.local_ hdir
    (hb := hbag) (by rw [hbel]; exact ho) hmem hnew.given hnew.parent true
  rw [← hH] at hhead
  simp only [if_true] at hm
  obtain ⟨V', asked, k1, k2, k3, k4, k5, k6, k7⟩ := C111_same hc hV (.inl rfl) hm
    (leadsTo_abspath hc dest) hnew.root hx archives (f := f) (bags := bags)
    hf (E := E.into (abspath cwd dest) find) ⟨hE.walk, hE.algs⟩ (fun _ => rfl) (H := H) g4 g5 hms (names := init.map Prod.fst)
    (.inl (by simp [Function.comp_def, H])) (by
      intro n hn
      obtain ⟨e, he, rfl⟩ := List.mem_map.1 hn
      obtain ⟨q1, _, _, q4, q5⟩ := h2 e (List.mem_append_left _ he)
      exact ⟨q1, _, hbn e he, q4, q5⟩) (.inl ⟨hnew.free, rfl⟩) r1
  have hbt : b'.tree = out := (openBag_parts r2).1
  refine ⟨b', V', asked, ?_, r3, ?_, ?_, k5, k6, k7⟩
  · unfold restoreBagFetching
    simp only [Option.isSome_some, hm, hhead]
    have e1 : FetchSite.restore { exts, fetcher := some f, cwd, archives } { E with base := { E.base with bagpath := abspath cwd dest } }
        { headPath := p, inplace := decide (abspath cwd dest = abspath cwd p), destdir := abspath cwd dest, cachedir := cache } H true true V =
        .ok (V', asked) := by
      rw [← k1]
      exact (FetchSite.restore_find _ _ _ _ _ _ _ _).symm
    rw [e1]
    simp only [FetchSite.destPath]
    rw [comps_abspath hc, leadsTo_abspath hc, k3, r2]
  · refine bagAt_iff.2 ⟨k2, ?_⟩
    intro q hq
    rw [hbt, ← k3, dget_below hq]
  · rw [hbt]
    exact r4

/-- The sample bag, whichever way it is split into `/work`, is restored to `/home/restored` of a machine on which there is,
besides the directory `/home`, only the head bag, in `/in`. -/
example (s : Splitter) (hs : s.forhead = []) : ∃ names head W' f b' V' asked,
    splitCall Sample.callEnv s py!"../src/bag" py!"/work" none [] Sample.callWorld =
      (.ok ((names ++ [head]).map (pathJoin py!"/work")), W') ∧
    restoreBagFetching Sample.callRenv py!"/home" serialized (fun _ => none) (fun _ => []) (pathJoin py!"/in" head) (some py!"restored") none (some f)
      (Tree.withBelow [([py!"home"], .dir), ([py!"in"], .dir), ([py!"in", head], .dir)] [py!"in", head] (W'.below [py!"work", head])) =
      .ok (b', V', asked) ∧
    b'.tree.read [py!"data", py!"b"] = some py!"uvw" ∧ BagAt V' [py!"home", py!"restored"] b'.tree ∧ ∀ n, n ∈ asked ↔ n ∈ names := by
  have ht : Sample.okBag.tree = Sample.okTree := by decide +kernel
  obtain ⟨names, head, W', h1, h2, h3⟩ := C117_split_fetched (Sample.call_can s hs) none [] (by decide)
    (cleanStart_of_check (by decide)) (fun k => Sample.call_free _ k) (E := Sample.callRenv) rfl rfl
    Sample.home_abs (dest := py!"restored") (by decide) (by decide)
    ⟨fun _ h => isWalk_walkOf h, Sample.renv_ok.2⟩ Sample.call_fits (by decide)
    (fun t i => by show Trimmed py!"1 kB"; unfold Trimmed; decide) (by rw [ht]; exact Sample.call_source)
    (by rw [ht]; exact Sample.ok_listable) (exts := serialized) (fun _ => Iff.rfl) (fun _ => none) (fun _ => [])
  have hw : leadsTo [py!"home"] py!"/work" = [py!"work"] := by decide
  have hd : leadsTo [py!"home"] py!"restored" = [py!"home", py!"restored"] := by decide
  rw [hw, hd] at h3
  rw [hw] at h2
  obtain ⟨g1, g2, g3⟩ := h2 head (by simp)
  have g3 : WfTree (W'.below [py!"work", head]) := g3
  have hlead : leadsTo [py!"home"] (pathJoin py!"/in" head) = [py!"in", head] := by
    rw [leadsTo_join_plain _ _ g1]
    rfl
  have hdir : Tree.isdir [([py!"home"], .dir), ([py!"in"], .dir), ([py!"in", head], .dir)] [py!"in", head] = true := by
    simp [Tree.isdir, dget]
  have hwf : WfTree [([py!"home"], .dir), ([py!"in"], .dir), ([py!"in", head], .dir)] := by
    have h0 : WfTree [([py!"home"], .dir), ([py!"in"], .dir)] := Sample.wf_of_check (by decide)
    have h1 := wf_dset h0 (p := [py!"in", head]) (n := .dir) ⟨by simp, by
      intro c hc
      simp only [List.mem_cons, List.not_mem_nil, or_false] at hc
      rcases hc with rfl | rfl
      · exact Sample.goodName_of_check (by decide)
      · exact g1⟩ (by rfl) (.inr rfl)
    simpa [dset] using h1
  obtain ⟨b', V', asked, k1, k2, k3, k4, k5, k6, k7⟩ := h3 (Tree.withBelow [([py!"home"], .dir), ([py!"in"], .dir), ([py!"in", head], .dir)]
      [py!"in", head] (W'.below [py!"work", head])) (pathJoin py!"/in" head) (bring (fun n => if n ∈ names then some (W'.below [py!"work", n]) else none))
    (wf_withBelow hwf g3 hdir (fun c hc => by
      simp only [List.mem_cons, List.not_mem_nil, or_false] at hc
      rcases hc with rfl | rfl
      · exact Sample.goodName_of_check (by decide)
      · exact g1))
    ⟨by decide, by decide, by decide, by
      rw [hd]
      rw [isdir_iff]
      right
      show dget (Tree.withBelow _ _ _) [py!"home"] = _
      rw [dget_withBelow_other _ _ (by intro h; have := List.IsPrefix.length_le h; simp at this)]
      rfl, by
      rw [hd]
      unfold Tree.exists
      rw [dget_withBelow_other _ _ (by intro h; obtain ⟨l, hl⟩ := h; simp at hl)]
      simp [dget]⟩
    ⟨pathJoin_ne_nil g1.1, join_noUNC (by decide) g1, join_noURL (by decide) g1, by rw [hlead]; rfl,
      by rw [hlead]; exact isdir_withBelow_self _ _ hdir,
      by rw [hlead]; exact below_withBelow _ _ (entries_ne_nil g3)⟩
    (by rw [hlead]; intro h; obtain ⟨l, hl⟩ := h; simp at hl)
    (bring_delivers (fun n t h => by
      by_cases hm : n ∈ names
      · simp only [hm, if_true, Option.some.injEq] at h
        obtain ⟨q1, _, q3⟩ := h2 n (List.mem_append_left _ hm)
        exact ⟨q1, h ▸ q3⟩
      · simp [hm] at h) (by decide) (fun c hc => by
        simp only [List.cons_append, List.nil_append, List.mem_cons, List.not_mem_nil, or_false] at hc
        rcases hc with rfl | rfl | rfl | rfl <;> exact Sample.goodName_of_check (by decide)))
  refine ⟨names, head, W', _, b', V', asked, h1, k1, ?_, k3, k7⟩
  rw [(k4 [py!"data", py!"b"] Sample.not_special_b).1, ht]
  decide

end Verif
