import Verif.Model.SplitCall
import Verif.Spec.SplitCall
import Verif.Props.SplitDisk
import Verif.Props.SplitRestored
/-!
# C106: splitting by one call
-/

namespace Verif
open Spec

/-- C106: the default base of the names is the file name of the bag's path without its extension. -/
theorem C106_stem (s : Str) : Stem s (splitextRoot s) := by
  unfold splitextRoot
  cases h : s.reverse.dropWhile (· ≠ '.') with
  | nil =>
    refine .plain s (fun r e hs he => ?_)
    exfalso
    rw [hs] at h
    have : '.' ∈ (r ++ '.' :: e).reverse := by simp
    have key : ∀ l : Str, '.' ∈ l → l.dropWhile (· ≠ '.') ≠ [] := by
      intro l hl
      induction l with
      | nil => cases hl
      | cons a l ih =>
        rw [List.dropWhile_cons]
        by_cases ha : a = '.'
        · simp [ha]
        · rw [if_pos (by simpa using ha)]
          exact ih (by simpa [Ne.symm ha] using hl)
    exact key _ this h
  | cons d r =>
    have hs := List.takeWhile_append_dropWhile (p := fun c : Char => decide (c ≠ '.')) (l := s.reverse)
    have hd : d = '.' := by
      have := List.head?_dropWhile_not (p := fun c : Char => decide (c ≠ '.')) (l := s.reverse)
      rw [h] at this
      simpa using this
    rw [h] at hs
    have htw : '.' ∉ s.reverse.takeWhile (fun c => decide (c ≠ '.')) := by
      intro hm
      have := List.all_eq_true.1 (List.all_takeWhile (p := fun c : Char => decide (c ≠ '.')) (l := s.reverse)) _ hm
      simp at this
    generalize s.reverse.takeWhile (fun c => decide (c ≠ '.')) = e at hs htw
    have es : s = r.reverse ++ '.' :: e.reverse := by
      have := congrArg List.reverse hs
      rw [List.reverse_reverse, hd] at this
      rw [← this]
      simp
    simp only
    split
    · rename_i hall
      refine .plain s (fun r' e' hs' he' => ?_)
      have huniq : r' = r.reverse := by
        rw [es] at hs'
        have hh := congrArg List.reverse hs'
        simp only [List.reverse_append, List.reverse_cons, List.reverse_reverse, List.append_assoc, List.singleton_append] at hh
        have key : ∀ (a b x y : Str), '.' ∉ a → '.' ∉ b → a ++ '.' :: x = b ++ '.' :: y → x = y := by
          intro a
          induction a with
          | nil =>
            intro b x y _ hb h
            cases b with
            | nil => injection h
            | cons c b => injection h with h1 h2; exact absurd (h1 ▸ List.mem_cons_self ..) hb
          | cons c a ih =>
            intro b x y ha hb h
            cases b with
            | nil => injection h with h1 h2; exact absurd (h1 ▸ List.mem_cons_self ..) ha
            | cons c' b =>
              injection h with h1 h2
              exact ih b x y (fun hm => ha (List.mem_cons_of_mem _ hm)) (fun hm => hb (List.mem_cons_of_mem _ hm)) h2
        have := key e e'.reverse r r'.reverse htw (by simpa using he') hh
        rw [this, List.reverse_reverse]
      subst huniq
      intro c hc
      simpa using List.all_eq_true.1 hall c (by simpa using hc)
    · rename_i hall
      rw [es]
      refine .ext _ _ ?_ (by simpa using htw)
      simp only [List.all_eq_true, decide_eq_true_eq] at hall
      have ⟨c, hc⟩ := Classical.not_forall.1 hall
      have ⟨h1, h2⟩ := Classical.not_imp.1 hc
      exact ⟨c, by simpa using h1, h2⟩

theorem chosenNames_nil (plan : List Manifest) : chosenNames plan [] = plan.map (·.name) := by
  induction plan with
  | nil => rfl
  | cons m plan ih => rw [chosenNames, List.map_cons]; exact congrArg _ ih

theorem numbered_good {base : Str} (h : '/' ∉ base) (k : Nat) : ∀ n ∈ numbered base k, GoodName n := by
  intro n hn
  obtain ⟨i, _, rfl⟩ := List.mem_map.1 hn
  have hl : 5 ≤ (base ++ py!"_" ++ natStr (i + 1) ++ py!".mbag").length := by simp; omega
  refine ⟨(by intro e; rw [e] at hl; cases hl), ?_, (by intro e; rw [e] at hl; revert hl; decide),
    (by intro e; rw [e] at hl; revert hl; decide)⟩
  simp only [List.mem_append]
  rintro (((hc | hc) | hc) | hc)
  · exact h hc
  · revert hc; decide
  · have := isDigit_natStr hc
    revert this; decide
  · revert hc; decide

namespace Spec

/-- An ordinary bag `b`, that is not a head bag, at the path `bagpath` on the disk `W`, and an output directory outside
of it.  (What is said of names is what C24 and C36 ask for.) -/
structure CanSplit (E : SplitEnv) (s : Splitter) (W : Tree) (wd : Path) (bagpath outdir : Str) (b : RBag) : Prop where
  cwd : AbsPath E.cwd wd
  wf : WfTree W
  source : leadsTo wd bagpath ≠ [] ∧ W.isdir (leadsTo wd bagpath) = true
  out : leadsTo wd outdir ≠ [] ∧ W.isdir (leadsTo wd outdir) = true
  apart : ¬ Inside (leadsTo wd bagpath) (leadsTo wd outdir)
  opens : openBag { E.cfg with bagpath := rstripBy (· = '/') bagpath } (W.below (leadsTo wd bagpath)) = .ok b
  ordinary : Ordinary (b.source { E.cfg with bagpath := rstripBy (· = '/') bagpath })
  nohead : py!"Multibag-Head-Version" ∉ dkeys b.info
  word : E.word '/' = false
  listing : (E.listing b.tree).Perm (treeListing (E.size b.tree) b.tree)
  look : NoLookalike E.word b.tree
  head : HeadOrdinary E.word b.tree s.forhead
  odd : NoOddManifest E.word b.tree

end Spec

/-- What `splitCall` comes to. -/
theorem splitCall_eq {E : SplitEnv} {s : Splitter} {W : Tree} {wd : Path} {bagpath outdir : Str} {b : RBag}
    (h : CanSplit E s W wd bagpath outdir b) (basis : Option Str) (nopass : List Str) :
    ∃ plan : List Manifest,
      plan = (s.plan E.word (baseName (rstripBy (· = '/') bagpath)) (E.size b.tree) b.tree (E.listing b.tree)
        (simpleNamer (nameBase bagpath basis))).2 ∧
      plan.map (·.name) = (numbered (nameBase bagpath basis) plan.length).map some ∧
      splitCall E s bagpath outdir basis nopass W =
        match applyRun diskFS (b.source { E.cfg with bagpath := rstripBy (· = '/') bagpath }) E.blen { nopass := nopass } plan []
            { disk := W, src := leadsTo wd bagpath, outdir := '/' :: joinPath (leadsTo wd outdir) } with
        | (.error e, d) => (.error e, d.disk)
        | (.ok _, d) => (.ok ((numbered (nameBase bagpath basis) plan.length).map (pathJoin outdir)), d.disk) := by
  obtain ⟨h1, _, h2⟩ := C33_plan_names s E.word (baseName (rstripBy (· = '/') bagpath)) (E.size b.tree) b.tree (E.listing b.tree)
    (nameBase bagpath basis)
  refine ⟨_, rfl, ?_⟩
  unfold splitCall absolute
  simp only [comps_abspath h.cwd, h.source.2, h.opens]
  cases hp : s.plan E.word (baseName (rstripBy (· = '/') bagpath)) (E.size b.tree) b.tree (E.listing b.tree)
    (simpleNamer (nameBase bagpath basis)) with
  | mk r plan =>
    rw [hp] at h1 h2
    simp only at h1 h2 ⊢
    subst h1
    have hn : plan.map (·.name) = (numbered (nameBase bagpath basis) plan.length).map some := by
      refine List.ext_getElem? (fun i => ?_)
      unfold numbered
      rw [List.map_map, List.getElem?_map, List.getElem?_map]
      by_cases hi : i < plan.length
      · rw [List.getElem?_range hi, List.getElem?_eq_getElem hi]
        simp only [Option.map_some, Function.comp]
        rw [h2 i _ (List.getElem?_eq_getElem hi)]
      · rw [List.getElem?_eq_none (by omega), List.getElem?_eq_none (by simp; omega)]
        rfl
    refine ⟨hn, ?_⟩
    have hm : plan.map (fun m => pathJoin outdir (m.name.getD [])) =
        (numbered (nameBase bagpath basis) plan.length).map (pathJoin outdir) := by
      have := congrArg (List.map (fun o : Option Str => pathJoin outdir (o.getD []))) hn
      rw [List.map_map, List.map_map] at this
      exact this
    rw [← hm]
    rfl

theorem numbered_nodup (base : Str) (k : Nat) : (numbered base k).Nodup := by
  unfold numbered List.Nodup
  rw [List.pairwise_map]
  refine List.nodup_range.imp (fun hne e => hne ?_)
  have := List.append_cancel_right e
  have := natStr_injective (List.append_cancel_left this)
  omega

theorem plan_nonempty {E : SplitEnv} {s : Splitter} {W : Tree} {wd : Path} {bagpath outdir : Str} {b : RBag}
    (h : CanSplit E s W wd bagpath outdir b) (names : Nat → Option Str) :
    0 < (s.plan E.word (baseName (rstripBy (· = '/') bagpath)) (E.size b.tree) b.tree (E.listing b.tree) names).2.length := by
  have hwf : WfTree b.tree := h.ordinary.wf
  have h24 := C24_exactly_once_partial s E.word h.word (baseName (rstripBy (· = '/') bagpath)) (E.size b.tree) b.tree (E.listing b.tree)
    names hwf h.listing h.look h.head
  simp only at h24
  have hdata : b.tree.isdir [py!"data"] = true := h.ordinary.data
  obtain ⟨q, hq, hleaf⟩ := leaf_below hwf hdata
  have : ToPlace E.word b.tree q := by
    rcases hleaf with hf | hf
    · refine .inl ⟨hf, ?_⟩
      rintro ⟨f, rfl, _⟩
      have h0 := (List.cons_prefix_cons.1 hq).1
      subst h0
      exact not_file_dir hf hdata hwf
    · exact .inr hf
  have := h24.1 q this
  generalize (s.plan E.word (baseName (rstripBy (· = '/') bagpath)) (E.size b.tree) b.tree (E.listing b.tree) names).2 = plan at this
  cases plan with
  | nil => cases this
  | cons m plan => simp

/-- C106: splitting an ordinary bag by one call succeeds if the numbered names are free, and returns the paths of bags
that together have all of its files. -/
theorem C106_split {E : SplitEnv} {s : Splitter} {W : Tree} {wd : Path} {bagpath outdir : Str} {b : RBag}
    (h : CanSplit E s W wd bagpath outdir b) (basis : Option Str) (nopass : List Str) (hb : '/' ∉ nameBase bagpath basis)
    (hfree : ∀ k, ∀ n ∈ numbered (nameBase bagpath basis) k, W.exists (leadsTo wd outdir ++ [n]) = false) :
    ∃ k W', splitCall E s bagpath outdir basis nopass W = (.ok ((numbered (nameBase bagpath basis) k).map (pathJoin outdir)), W') ∧
      0 < k ∧ SplitMade E.word b.tree W' (leadsTo wd outdir) (numbered (nameBase bagpath basis) k) ∧
      BagAt W' (leadsTo wd bagpath) b.tree := by
  obtain ⟨plan, hplan, hnames, hcall⟩ := splitCall_eq h basis nopass
  have hwf : WfTree b.tree := h.ordinary.wf
  have htree : b.tree = W.below (leadsTo wd bagpath) := (openBag_parts h.opens).1
  have hentries := plan_entries h.ordinary s E.word h.word (baseName (rstripBy (· = '/') bagpath)) (E.size b.tree) (E.listing b.tree)
    (simpleNamer (nameBase bagpath basis)) h.listing h.look h.head h.odd
  have h24 := C24_exactly_once_partial s E.word h.word (baseName (rstripBy (· = '/') bagpath)) (E.size b.tree) b.tree (E.listing b.tree)
    (simpleNamer (nameBase bagpath basis)) hwf h.listing h.look h.head
  rw [show (b.source { E.cfg with bagpath := rstripBy (· = '/') bagpath }).tree = b.tree from rfl, ← hplan] at hentries
  simp only [← hplan] at h24
  have hplan' := hplan
  clear hplan
  obtain ⟨w, hrun, hsrc, hbags⟩ := C105_succeeds h.wf (src := leadsTo wd bagpath) ⟨h.source.1, goodName_leadsTo h.cwd.1.2 bagpath⟩
    (outdir := '/' :: joinPath (leadsTo wd outdir)) (O := leadsTo wd outdir) ⟨⟨h.out.1, goodName_leadsTo h.cwd.1.2 outdir⟩, rfl⟩ h.out.2
    h.ordinary h.nohead (bagAt_iff.2 ⟨h.source.2, holds_below htree.symm⟩) h.apart E.blen { nopass := nopass } hentries (names := [])
    (ns := numbered (nameBase bagpath basis) plan.length) (by rw [chosenNames_nil, hnames]) (numbered_nodup ..)
    (fun n hn => ⟨numbered_good hb _ n hn, hfree _ n hn⟩)
  rw [hrun] at hcall
  refine ⟨plan.length, w.disk, hcall, ?_, ?_, hsrc⟩
  · exact hplan' ▸ plan_nonempty h _
  · have hlen : (numbered (nameBase bagpath basis) plan.length).length = plan.length := by simp [numbered]
    generalize numbered (nameBase bagpath basis) plan.length = ns at hnames hbags hlen
    have hidx : ∀ n ∈ ns, ∃ i m t, ns[i]? = some n ∧ plan[i]? = some m ∧ BagAt w.disk (leadsTo wd outdir ++ [n]) t ∧
        SplitBag b.tree m.contents (decide (i + 1 = plan.length)) t := by
      intro n hn
      obtain ⟨i, hi⟩ := List.mem_iff_getElem?.1 hn
      have hlt : i < plan.length := by rw [← hlen]; exact (List.getElem?_eq_some_iff.1 hi).1
      obtain ⟨t, h1, h2⟩ := hbags i plan[i] n (List.getElem?_eq_getElem hlt) hi
      exact ⟨i, _, t, hi, List.getElem?_eq_getElem hlt, h1, h2⟩
    have hread : ∀ n t, BagAt w.disk (leadsTo wd outdir ++ [n]) t → ∀ p, p ≠ [] →
        w.disk.read (leadsTo wd outdir ++ n :: p) = t.read p ∧ w.disk.isfile (leadsTo wd outdir ++ n :: p) = t.isfile p ∧
        w.disk.isdir (leadsTo wd outdir ++ n :: p) = t.isdir p := by
      intro n t ht p hp
      have e : leadsTo wd outdir ++ n :: p = leadsTo wd outdir ++ [n] ++ p := by simp
      have hg := (bagAt_iff.1 ht).2 p hp
      rw [e]
      refine ⟨ht.files p hp, ?_, ht.dirs p hp⟩
      unfold Tree.isfile
      rw [hg]
    have hplace : ∀ p, ToPlace E.word b.tree p → ∃ i m n t, ns[i]? = some n ∧ plan[i]? = some m ∧ joinPath p ∈ m.contents ∧
        BagAt w.disk (leadsTo wd outdir ++ [n]) t ∧ SplitBag b.tree m.contents (decide (i + 1 = plan.length)) t ∧
        ∀ j m', plan[j]? = some m' → joinPath p ∈ m'.contents → j = i := by
      intro p hp
      have h1 := h24.1 p hp
      obtain ⟨i, c, hi, hc⟩ := occurrences_pos (l := plan.map (·.contents)) (x := joinPath p) (by rw [h1]; decide)
      rw [List.getElem?_map] at hi
      cases hm : plan[i]? with
      | none => rw [hm] at hi; cases hi
      | some m =>
        rw [hm] at hi
        cases hi
        have hlt : i < ns.length := by rw [hlen]; exact (List.getElem?_eq_some_iff.1 hm).1
        obtain ⟨t, h2, h3⟩ := hbags i m ns[i] hm (List.getElem?_eq_getElem hlt)
        refine ⟨i, m, ns[i], t, List.getElem?_eq_getElem hlt, hm, hc, h2, h3, fun j m' hj hc' => ?_⟩
        have two : ∀ (a c : Nat) (x y : Manifest), a < c → plan[a]? = some x → plan[c]? = some y → joinPath p ∈ x.contents →
            joinPath p ∈ y.contents → False := by
          intro a c x y hac hx hy hx' hy'
          have := occurrences_two (l := plan.map (·.contents)) hac (by rw [List.getElem?_map, hx]; rfl)
            (by rw [List.getElem?_map, hy]; rfl) hx' hy'
          omega
        rcases Nat.lt_trichotomy j i with hlt | heq | hlt
        · exact absurd (two j i m' m hlt hj hm hc' hc) id
        · exact heq
        · exact absurd (two i j m m' hlt hm hj hc hc') id
    have hgood : ∀ p, b.tree.isfile p = true → GoodPath p := fun p hp => isfile_good hwf hp
    refine ⟨fun p hf hr hh => ?_, fun p hp => ?_, fun n hn p hp => ?_, fun n hn => ?_, fun n hn p hp => ?_⟩
    · have hg := hgood p hf
      obtain ⟨i, m, n, t, h1, h2, h3, h4, h5, h6⟩ := hplace p (.inl ⟨hf, hr⟩)
      obtain ⟨c, hc⟩ := isfile_iff.1 hf
      have hrd : b.tree.read p = some c := by unfold Tree.read; rw [hc]
      refine ⟨n, List.mem_iff_getElem?.2 ⟨i, h1⟩, ?_, fun n' hn' hf' => ?_⟩
      · rw [(hread n t h4 p hg.1).1, hrd]
        have := h5.files _ h3 c
        rw [comps_joinPath hg] at this
        exact this hrd (fun hx => hh hx.2)
      · obtain ⟨j, m', t', g1, g2, g3, g4⟩ := hidx n' hn'
        rw [(hread n' t' g3 p hg.1).2.1] at hf'
        rcases g4.only p hf' with ⟨_, f, hfm, hfp⟩ | hst | ⟨_, hhd⟩
        · obtain ⟨q, hq1, hq2, _⟩ := hentries m' (List.mem_iff_getElem?.2 ⟨j, g2⟩) f hfm
          have hpq : q = p := by rw [← hfp, hq2, comps_joinPath hq1]
          subst hpq
          have := h6 j m' g2 (hq2 ▸ hfm)
          subst this
          rw [h1] at g1
          injection g1 with g1
          exact g1.symm
        · exfalso
          obtain ⟨q, hq1, hq2, hq3⟩ := hentries m (List.mem_iff_getElem?.2 ⟨i, h2⟩) _ h3
          have := comps_joinPath hq1
          rw [← hq2, comps_joinPath hg] at this
          exact hq3 (this ▸ hst)
        · exact absurd hhd hh
    · obtain ⟨i, m, n, t, h1, h2, h3, h4, h5, h6⟩ := hplace p (.inr hp)
      refine ⟨n, List.mem_iff_getElem?.2 ⟨i, h1⟩, ?_⟩
      have hne : p ≠ [] := by
        rintro rfl
        have hdata : b.tree.isdir [py!"data"] = true := h.ordinary.data
        exact hp.2 [py!"data"] (exists_of_isdir hdata) (by simp) rfl
      have hg : GoodPath p := isdir_good hwf hp.1 hne
      rw [(hread n t h4 p hne).2.2]
      exact (h5.dirs p).2 (.inr (.inr (.inr ⟨_, h3, .inl ⟨by rw [comps_joinPath hg]; exact hp.1, by
        rw [comps_joinPath hg]; exact List.prefix_refl _⟩⟩)))
    · obtain ⟨i, m, t, h1, h2, h3, h4⟩ := hidx n hn
      have hne : p ≠ [] := by
        rintro rfl
        have := h3.isdir
        rw [show leadsTo wd outdir ++ [n] = leadsTo wd outdir ++ n :: [] from rfl] at this
        have hg := isfile_iff.1 hp
        obtain ⟨c, hc⟩ := hg
        rcases isdir_iff.1 this with h0 | h0
        · simp at h0
        · rw [hc] at h0; cases h0
      obtain ⟨r1, r2, _⟩ := hread n t h3 p hne
      rw [r2] at hp
      rcases h4.only p hp with ⟨hf, f, hfm, hfp⟩ | hst | ⟨hi, hhd⟩
      · by_cases hx : decide (i + 1 = plan.length) = true ∧ HeadFile p
        · right; right
          refine ⟨?_, hx.2⟩
          have := hx.1
          rw [decide_eq_true_eq] at this
          rw [List.getLast?_eq_getElem?, hlen, show plan.length - 1 = i by omega]
          exact h1
        · left
          refine ⟨hf, ?_⟩
          obtain ⟨c, hc⟩ := isfile_iff.1 hf
          have hrd : b.tree.read p = some c := by unfold Tree.read; rw [hc]
          rw [r1, hrd]
          have := h4.files f hfm c
          rw [hfp] at this
          exact this hrd hx
      · exact .inr (.inl hst)
      · right; right
        refine ⟨?_, hhd⟩
        rw [decide_eq_true_eq] at hi
        rw [List.getLast?_eq_getElem?, hlen, show plan.length - 1 = i by omega]
        exact h1
    · obtain ⟨i, m, t, h1, h2, h3, h4⟩ := hidx n hn
      obtain ⟨r1, r2, _⟩ := hread n t h3 [py!"bagit.txt"] (by simp)
      rw [r1, r2, (hread n t h3 [py!"bag-info.txt"] (by simp)).2.1]
      exact ⟨h4.bagit.1, h4.bagit.2, h4.baginfo⟩
    · have hn' : n ∈ ns := List.mem_of_getLast? hn
      rw [List.getLast?_eq_getElem?, hlen] at hn
      have hlt : plan.length - 1 < plan.length := by
        have := (List.getElem?_eq_some_iff.1 hn).1
        omega
      obtain ⟨t, h3, h4⟩ := hbags _ _ n (List.getElem?_eq_getElem hlt) hn
      rw [(hread n t h3 p (by rintro rfl; rcases hp with hp | hp | hp <;> cases hp)).2.1]
      exact h4.head (by rw [decide_eq_true_eq]; omega) p hp

/-! ## What a call leaves as it is -/

theorem call_entries {E : SplitEnv} {s : Splitter} {W : Tree} {wd : Path} {bagpath outdir : Str} {b : RBag}
    (h : CanSplit E s W wd bagpath outdir b) (names : Nat → Option Str) :
    ∀ m ∈ (s.plan E.word (baseName (rstripBy (· = '/') bagpath)) (E.size b.tree) b.tree (E.listing b.tree) names).2,
      ∀ f ∈ m.contents, PlanEntry f :=
  plan_entries h.ordinary s E.word h.word (baseName (rstripBy (· = '/') bagpath)) (E.size b.tree) (E.listing b.tree)
    names h.listing h.look h.head h.odd

theorem call_out {E : SplitEnv} {s : Splitter} {W : Tree} {wd : Path} {bagpath outdir : Str} {b : RBag}
    (h : CanSplit E s W wd bagpath outdir b) : AbsPath ('/' :: joinPath (leadsTo wd outdir)) (leadsTo wd outdir) :=
  ⟨⟨h.out.1, goodName_leadsTo h.cwd.1.2 outdir⟩, rfl⟩

theorem call_kept {E : SplitEnv} {s : Splitter} {W : Tree} {wd : Path} {bagpath outdir : Str} {b : RBag}
    (h : CanSplit E s W wd bagpath outdir b) (basis : Option Str) (nopass : List Str) :
    ∃ k d, d.disk = (splitCall E s bagpath outdir basis nopass W).2 ∧
      DiskKept W (leadsTo wd bagpath) ('/' :: joinPath (leadsTo wd outdir)) (leadsTo wd outdir)
        (fun n => n ∈ numbered (nameBase bagpath basis) k) d := by
  obtain ⟨plan, hplan, hnames, hcall⟩ := splitCall_eq h basis nopass
  have hentries := call_entries h (simpleNamer (nameBase bagpath basis))
  rw [← hplan] at hentries
  have K := disk_kept h.wf (leadsTo wd bagpath) (call_out h) ⟨h.ordinary.algs, h.ordinary.hashes⟩ E.blen { nopass := nopass }
    hentries []
  refine ⟨plan.length, (applyRun diskFS (b.source { E.cfg with bagpath := rstripBy (· = '/') bagpath }) E.blen { nopass := nopass } plan []
    { disk := W, src := leadsTo wd bagpath, outdir := '/' :: joinPath (leadsTo wd outdir) }).2, ?_, ?_⟩
  · rw [hcall]
    cases applyRun diskFS (b.source { E.cfg with bagpath := rstripBy (· = '/') bagpath }) E.blen { nopass := nopass } plan []
      { disk := W, src := leadsTo wd bagpath, outdir := '/' :: joinPath (leadsTo wd outdir) } with
    | mk r d => cases r <;> rfl
  · have e : ∀ n, (some n ∈ chosenNames plan []) = (n ∈ numbered (nameBase bagpath basis) plan.length) := by
      intro n
      rw [chosenNames_nil, hnames]
      simp
    simp only [e] at K
    exact K

/-- C106: whatever the outcome of the call, everything that existed before is as it was. -/
theorem C106_kept {E : SplitEnv} {s : Splitter} {W : Tree} {wd : Path} {bagpath outdir : Str} {b : RBag}
    (h : CanSplit E s W wd bagpath outdir b) (basis : Option Str) (nopass : List Str) (q : Path) (hq : W.exists q = true) :
    SameThing (splitCall E s bagpath outdir basis nopass W).2 W q := by
  obtain ⟨k, d, e, K⟩ := call_kept h basis nopass
  rw [← e]
  exact kept_same K q hq

/-- C106: and everything new is in a directory with one of the numbered names in the output directory. -/
theorem C106_new {E : SplitEnv} {s : Splitter} {W : Tree} {wd : Path} {bagpath outdir : Str} {b : RBag}
    (h : CanSplit E s W wd bagpath outdir b) (basis : Option Str) (nopass : List Str) (hb : '/' ∉ nameBase bagpath basis) (q : Path)
    (hq : (splitCall E s bagpath outdir basis nopass W).2.exists q = true) (hn : W.exists q = false) :
    ∃ k, ∃ n ∈ numbered (nameBase bagpath basis) k, Inside (leadsTo wd outdir ++ [n]) q := by
  obtain ⟨k, d, e, K⟩ := call_kept h basis nopass
  rw [← e] at hq
  rcases K.same q with h1 | ⟨_, n, h2, h3⟩
  · exfalso
    unfold Tree.exists at hq hn
    rw [h1, hn] at hq
    cases hq
  · rw [leadsTo_plain (numbered_good hb k n h2)] at h3
    exact ⟨k, n, h2, h3⟩

/-- C106: if the first of the numbered names is in use already, the call raises an exception; so a second split of the
same bag into the same directory does. -/
theorem C106_in_use {E : SplitEnv} {s : Splitter} {W : Tree} {wd : Path} {bagpath outdir : Str} {b : RBag}
    (h : CanSplit E s W wd bagpath outdir b) (basis : Option Str) (nopass : List Str) (hb : '/' ∉ nameBase bagpath basis)
    (hex : W.exists (leadsTo wd outdir ++ [nameBase bagpath basis ++ py!"_1.mbag"]) = true) :
    ∃ e, (splitCall E s bagpath outdir basis nopass W).1 = .error e := by
  obtain ⟨plan, hplan, hnames, hcall⟩ := splitCall_eq h basis nopass
  have hentries := call_entries h (simpleNamer (nameBase bagpath basis))
  have hne := plan_nonempty h (simpleNamer (nameBase bagpath basis))
  rw [← hplan] at hentries hne
  have hmem : nameBase bagpath basis ++ py!"_1.mbag" ∈ numbered (nameBase bagpath basis) plan.length := by
    refine List.mem_map.2 ⟨0, List.mem_range.2 hne, ?_⟩
    rw [List.append_assoc, List.append_assoc]
    rfl
  obtain ⟨e, he⟩ := C105_in_use h.wf (leadsTo wd bagpath) (call_out h) ⟨h.ordinary.algs, h.ordinary.hashes⟩ E.blen { nopass := nopass }
    hentries (names := []) (n := nameBase bagpath basis ++ py!"_1.mbag") (by
      rw [chosenNames_nil, hnames]
      exact List.mem_map.2 ⟨_, hmem, rfl⟩) (by rw [leadsTo_plain (numbered_good hb _ _ hmem)]; exact hex)
  refine ⟨e, ?_⟩
  rw [hcall]
  cases hr : applyRun diskFS (b.source { E.cfg with bagpath := rstripBy (· = '/') bagpath }) E.blen { nopass := nopass } plan []
      { disk := W, src := leadsTo wd bagpath, outdir := '/' :: joinPath (leadsTo wd outdir) } with
  | mk r d =>
    rw [hr] at he
    simp only at he
    subst he
    rfl

/-! ## Several bags in one directory -/

/-- C106: names with different bases are different. -/
theorem C106_distinct {base base' : Str} (h : base ≠ base') {k k' : Nat} {n : Str} (hn : n ∈ numbered base k) :
    n ∉ numbered base' k' := by
  intro hn'
  obtain ⟨i, _, rfl⟩ := List.mem_map.1 hn
  obtain ⟨j, _, e⟩ := List.mem_map.1 hn'
  have e := List.append_cancel_right e
  have hd : ∀ m, '_' ∉ natStr m := by
    intro m hm
    have := isDigit_natStr hm
    revert this; decide
  have key : ∀ (a b x y : Str), '_' ∉ x → '_' ∉ y → a ++ py!"_" ++ x = b ++ py!"_" ++ y → a = b := by
    intro a b x y hx hy h
    have hh := congrArg List.reverse h
    simp only [List.reverse_append, List.append_assoc] at hh
    have aux : ∀ (a b x y : Str), '_' ∉ x → '_' ∉ y → x ++ '_' :: a = y ++ '_' :: b → a = b := by
      intro a b x
      induction x with
      | nil =>
        intro y _ hy h
        cases y with
        | nil => injection h
        | cons c y => injection h with h1 _; exact absurd (h1 ▸ List.mem_cons_self ..) hy
      | cons c x ih =>
        intro y hx hy h
        cases y with
        | nil => injection h with h1 _; exact absurd (h1 ▸ List.mem_cons_self ..) hx
        | cons c' y =>
          injection h with _ h2
          exact ih y (fun hm => hx (List.mem_cons_of_mem _ hm)) (fun hm => hy (List.mem_cons_of_mem _ hm)) h2
    have := aux _ _ _ _ (by simpa using hx) (by simpa using hy) hh
    exact List.reverse_inj.1 this
  exact h (key _ _ _ _ (hd _) (hd _) e).symm

theorem splitMade_congr {w : Char → Bool} {t d1 d2 : Tree} {O : Path} {names : List Str}
    (h : ∀ n ∈ names, ∀ p, dget d2 (O ++ n :: p) = dget d1 (O ++ n :: p)) (H : SplitMade w t d1 O names) : SplitMade w t d2 O names := by
  have hr : ∀ n ∈ names, ∀ p, d2.read (O ++ n :: p) = d1.read (O ++ n :: p) := by
    intro n hn p
    unfold Tree.read
    rw [h n hn p]
  have hf : ∀ n ∈ names, ∀ p, d2.isfile (O ++ n :: p) = d1.isfile (O ++ n :: p) := by
    intro n hn p
    unfold Tree.isfile
    rw [h n hn p]
  have hd : ∀ n ∈ names, ∀ p, d2.isdir (O ++ n :: p) = d1.isdir (O ++ n :: p) := by
    intro n hn p
    unfold Tree.isdir
    rw [h n hn p]
  refine ⟨?_, ?_, ?_, ?_, ?_⟩
  · intro p h1 h2 h3
    obtain ⟨n, hn, e, hu⟩ := H.files p h1 h2 h3
    exact ⟨n, hn, by rw [hr n hn, e], fun m hm hm2 => hu m hm (by rwa [hf m hm] at hm2)⟩
  · intro p h1
    obtain ⟨n, hn, e⟩ := H.dirs p h1
    exact ⟨n, hn, by rw [hd n hn, e]⟩
  · intro n hn p hp
    rw [hf n hn] at hp
    rw [hr n hn]
    exact H.only n hn p hp
  · intro n hn
    have := H.bags n hn
    rw [hr n hn, hf n hn, hf n hn]
    exact this
  · intro n hn p hp
    rw [hf n (List.mem_of_getLast? hn)]
    exact H.head n hn p hp

theorem canSplit_after {E : SplitEnv} {s : Splitter} {W : Tree} {wd : Path} {bagpath outdir : Str} {b : RBag}
    (h : CanSplit E s W wd bagpath outdir b) {src : Path} {out : Str} {d : SplitDisk} {M : Str → Prop}
    (K : DiskKept W src out (leadsTo wd outdir) M d) (hM : ∀ n, M n → GoodName n)
    (hfree : ∀ n, M n → W.exists (leadsTo wd outdir ++ [n]) = false) :
    CanSplit E s d.disk wd bagpath outdir b := by
  have hd : ∀ q, W.isdir q = true → d.disk.isdir q = true := by
    intro q hq
    have := kept_same K q (exists_of_isdir hq)
    rw [this.2.2]
    exact hq
  have hsrc : dget W (leadsTo wd bagpath) = some .dir := by
    rcases isdir_iff.1 h.source.2 with e | e
    · exact absurd e h.source.1
    · exact e
  refine { cwd := h.cwd, wf := K.wf, source := ⟨h.source.1, hd _ h.source.2⟩, out := ⟨h.out.1, hd _ h.out.2⟩, apart := h.apart,
           opens := ?_, ordinary := h.ordinary, nohead := h.nohead, word := h.word, listing := h.listing, look := h.look,
           head := h.head, odd := h.odd }
  rw [K.elsewhere (leadsTo wd bagpath)]
  · exact h.opens
  · intro n hn
    have hf := hfree n hn
    rw [leadsTo_plain (hM n hn)]
    have hno : ¬ leadsTo wd outdir ++ [n] <+: leadsTo wd bagpath := by
      intro hp
      have := wf_prefix h.wf (p := leadsTo wd bagpath) (by rw [hsrc]; rfl) hp (by simp)
      unfold Tree.exists at hf
      simp only [Bool.or_eq_false_iff] at hf
      rw [hf.2] at this
      cases this
    refine ⟨?_, hno⟩
    intro hp
    rcases List.prefix_concat_iff.1 hp with e | e
    · exact hno (e ▸ List.prefix_refl _)
    · exact h.apart e

theorem bagAt_of_canSplit {E : SplitEnv} {s : Splitter} {W : Tree} {wd : Path} {bagpath outdir : Str} {b : RBag}
    (h : CanSplit E s W wd bagpath outdir b) : BagAt W (leadsTo wd bagpath) b.tree :=
  bagAt_iff.2 ⟨h.source.2, holds_below (openBag_parts h.opens).1.symm⟩

/-- C106: two bags whose names have different bases can be split into the same directory, one after the other; at the end
the bags made from either are all there. -/
theorem C106_two {E : SplitEnv} {s s' : Splitter} {W : Tree} {wd : Path} {bagpath bagpath' outdir : Str} {b b' : RBag}
    (h : CanSplit E s W wd bagpath outdir b) (h' : CanSplit E s' W wd bagpath' outdir b') (basis basis' : Option Str)
    (nopass nopass' : List Str) (hb : '/' ∉ nameBase bagpath basis) (hb' : '/' ∉ nameBase bagpath' basis')
    (hne : nameBase bagpath basis ≠ nameBase bagpath' basis')
    (hfree : ∀ k, ∀ n ∈ numbered (nameBase bagpath basis) k, W.exists (leadsTo wd outdir ++ [n]) = false)
    (hfree' : ∀ k, ∀ n ∈ numbered (nameBase bagpath' basis') k, W.exists (leadsTo wd outdir ++ [n]) = false) :
    ∃ k k' W' W'',
      splitCall E s bagpath outdir basis nopass W = (.ok ((numbered (nameBase bagpath basis) k).map (pathJoin outdir)), W') ∧
      splitCall E s' bagpath' outdir basis' nopass' W' = (.ok ((numbered (nameBase bagpath' basis') k').map (pathJoin outdir)), W'') ∧
      SplitMade E.word b.tree W'' (leadsTo wd outdir) (numbered (nameBase bagpath basis) k) ∧
      SplitMade E.word b'.tree W'' (leadsTo wd outdir) (numbered (nameBase bagpath' basis') k') ∧
      BagAt W'' (leadsTo wd bagpath) b.tree ∧ BagAt W'' (leadsTo wd bagpath') b'.tree := by
  obtain ⟨k, W', e, hk, hmade, hat⟩ := C106_split h basis nopass hb hfree
  obtain ⟨k0, d, ed, K⟩ := call_kept h basis nopass
  rw [e] at ed
  simp only at ed
  have hsame : ∀ q, W.exists q = true → SameThing W' W q := fun q hq => ed ▸ kept_same K q hq
  have h2 : CanSplit E s' W' wd bagpath' outdir b' :=
    ed ▸ canSplit_after h' K (fun n hn => numbered_good hb k0 n hn) (fun n hn => hfree k0 n hn)
  have hfree2 : ∀ k, ∀ n ∈ numbered (nameBase bagpath' basis') k, W'.exists (leadsTo wd outdir ++ [n]) = false := by
    intro k1 n hn
    cases hx : W'.exists (leadsTo wd outdir ++ [n]) with
    | false => rfl
    | true =>
      obtain ⟨k2, m, hm, hin⟩ := C106_new h basis nopass hb (leadsTo wd outdir ++ [n]) (by rw [e]; exact hx) (hfree' k1 n hn)
      have hin : leadsTo wd outdir ++ [m] <+: leadsTo wd outdir ++ [n] := hin
      have := List.prefix_append_right_inj (leadsTo wd outdir) |>.1 hin
      have hmn : m = n := (List.cons_prefix_cons.1 this).1
      subst hmn
      exact absurd hn (C106_distinct hne hm)
  obtain ⟨k', W'', e', hk', hmade', hat'⟩ := C106_split h2 basis' nopass' hb' hfree2
  obtain ⟨k3, d', ed', K'⟩ := call_kept h2 basis' nopass'
  rw [e'] at ed'
  simp only at ed'
  refine ⟨k, k', W', W'', e, e', splitMade_congr ?_ hmade, hmade', ?_, hat'⟩
  · intro n hn p
    rw [← ed']
    rcases K'.same (leadsTo wd outdir ++ n :: p) with h1 | ⟨_, m, hm, hp⟩
    · exact h1
    · rw [leadsTo_plain (numbered_good hb' k3 m hm)] at hp
      have := List.prefix_append_right_inj (leadsTo wd outdir) |>.1 hp
      have hmn : m = n := (List.cons_prefix_cons.1 this).1
      subst hmn
      exact absurd hm (C106_distinct hne hn)
  · have h3 : CanSplit E s W' wd bagpath outdir b :=
      ed ▸ canSplit_after h K (fun n hn => numbered_good hb k0 n hn) (fun n hn => hfree k0 n hn)
    exact bagAt_of_canSplit (ed' ▸ canSplit_after h3 K' (fun n hn => numbered_good hb' k3 n hn) (fun n hn => hfree2 k3 n hn))

namespace Sample

/-- A file system with a bag in `/src/bag`, an empty output directory and a working directory. -/
def callWorld : Tree :=
  [([py!"src"], .dir), ([py!"src", py!"bag"], .dir), ([py!"home"], .dir), ([py!"work"], .dir), ([py!"work", py!"note"], .file py!"n")] ++
    okTree.map (fun e => ([py!"src", py!"bag"] ++ e.1, e.2))

def callEnv : SplitEnv :=
  { cfg := okCfg, word := word, blen := List.length, size := fun _ _ => 1, listing := fun t => treeListing (fun _ => 1) t, cwd := py!"/home" }

theorem call_can (s : Splitter) (hs : s.forhead = []) :
    CanSplit callEnv s callWorld [py!"home"] py!"../src/bag" py!"/work" okBag := by
  have hb : callWorld.below [py!"src", py!"bag"] = okTree := by decide +kernel
  have ht : okBag.tree = okTree := by decide +kernel
  refine { cwd := ⟨⟨by simp, ?_⟩, rfl⟩, wf := wf_of_check (by decide), source := ⟨by decide, by decide⟩,
           out := ⟨by decide, by decide⟩, apart := by decide, opens := by decide +kernel, ordinary := ?_,
           nohead := by decide +kernel, word := by decide, listing := .refl _, look := ?_,
           head := fun _ _ _ h => by simp [hs] at h, odd := ?_ }
  · intro c hc
    simp at hc
    subst hc
    exact goodName_of_check (by decide)
  · exact ok_ordinary
  · rw [ht]; exact ok_look
  · rw [ht]; exact ok_odd

theorem call_free (base : Str) (k : Nat) : ∀ n ∈ numbered base k, callWorld.exists ([py!"work"] ++ [n]) = false := by
  intro n hn
  obtain ⟨i, _, rfl⟩ := List.mem_map.1 hn
  cases h : callWorld.exists ([py!"work"] ++ [base ++ py!"_" ++ natStr (i + 1) ++ py!".mbag"]) with
  | false => rfl
  | true =>
    exfalso
    rw [exists_iff (by simp)] at h
    cases hd : dget callWorld ([py!"work"] ++ [base ++ py!"_" ++ natStr (i + 1) ++ py!".mbag"]) with
    | none => exact h hd
    | some v =>
      have hk := mem_dkeys_iff.2 ⟨v, hd⟩
      have : ∀ q ∈ dkeys callWorld, q.head? = some py!"work" → ∀ c ∈ q.getLast?, c.getLast? ≠ some 'g' := by decide
      exact this _ hk rfl _ rfl (by
        show (base ++ py!"_" ++ natStr (i + 1) ++ py!".mbag").getLast? = some 'g'
        rw [List.getLast?_append]; rfl)

end Sample

/-- A sample call: the bag `../src/bag` split into `/work` with the names' default base, and again with another one. -/
example (s : Splitter) (hs : s.forhead = []) : ∃ k k' W' W'',
    splitCall Sample.callEnv s py!"../src/bag" py!"/work" none [] Sample.callWorld =
      (.ok ((numbered py!"bag" k).map (pathJoin py!"/work")), W') ∧
    splitCall Sample.callEnv s py!"../src/bag" py!"/work" (some py!"other") [] W' =
      (.ok ((numbered py!"other" k').map (pathJoin py!"/work")), W'') ∧
    SplitMade Sample.word Sample.okBag.tree W'' [py!"work"] (numbered py!"bag" k) ∧
    SplitMade Sample.word Sample.okBag.tree W'' [py!"work"] (numbered py!"other" k') := by
  obtain ⟨k, k', W', W'', h1, h2, h3, h4, _⟩ := C106_two (Sample.call_can s hs) (Sample.call_can s hs) none (some py!"other") [] []
    (by decide) (by decide) (by decide) (fun k => Sample.call_free _ k) (fun k => Sample.call_free _ k)
  exact ⟨k, k', W', W'', h1, h2, h3, h4⟩

/-- A second split of the same bag into the same directory raises an exception. -/
example (s : Splitter) (hs : s.forhead = []) : ∃ k W' e,
    splitCall Sample.callEnv s py!"../src/bag" py!"/work" none [] Sample.callWorld =
      (.ok ((numbered py!"bag" k).map (pathJoin py!"/work")), W') ∧
    (splitCall Sample.callEnv s py!"../src/bag" py!"/work" none [] W').1 = .error e := by
  obtain ⟨k, W', h1, hk, hm, _⟩ := C106_split (Sample.call_can s hs) none [] (by decide) (fun k => Sample.call_free _ k)
  obtain ⟨k0, d, ed, K⟩ := call_kept (Sample.call_can s hs) none []
  rw [h1] at ed
  simp only at ed
  have h2 : CanSplit Sample.callEnv s W' [py!"home"] py!"../src/bag" py!"/work" Sample.okBag :=
    ed ▸ canSplit_after (Sample.call_can s hs) K (fun n hn => numbered_good (by decide) k0 n hn) (fun n hn => Sample.call_free _ k0 n hn)
  have hmem : py!"bag_1.mbag" ∈ numbered py!"bag" k := List.mem_map.2 ⟨0, List.mem_range.2 hk, by decide⟩
  have hex := (hm.bags _ hmem).2.1
  have hpre : W'.isdir ([py!"work"] ++ [py!"bag_1.mbag"]) = true := by
    have := h2.wf.parent [py!"work", py!"bag_1.mbag", py!"bagit.txt"] (mem_dkeys_iff.2 (by
      obtain ⟨c, hc⟩ := isfile_iff.1 hex
      exact ⟨_, hc⟩))
    exact this
  obtain ⟨e, he⟩ := C106_in_use h2 none [] (by decide) (exists_of_isdir hpre)
  exact ⟨k, W', e, h1, he⟩

/-- C106 for any two bags would be false of the default base: two bags in different directories, and also two bags in the
same directory of which the names differ after the last dot, have the same base, so that the second call raises an
exception (`C106_in_use`). -/
theorem C106_negation_base : (py!"/a/bag" : Str) ≠ py!"/b/bag" ∧ nameBase py!"/a/bag" none = nameBase py!"/b/bag" none ∧
    nameBase py!"/a/run.1" none = nameBase py!"/a/run.2" none := by decide

/-- C106: the default base is empty for a path that ends with a slash, though the bag is found: the bags get the names
`_1.mbag` and so on. -/
theorem C106_negation_slash {p : Str} (hp : p ≠ []) (wd : Path) : leadsTo wd (p ++ py!"/") = leadsTo wd p ∧
    nameBase (p ++ py!"/") none = [] := by
  have e : splitOn '/' (p ++ ['/']) = splitOn '/' p ++ [[]] := splitOn_append_slash p []
  constructor
  · unfold leadsTo
    rw [e, follow_append]
    have : (p ++ ['/']).head? = p.head? := by cases p with
      | nil => exact absurd rfl hp
      | cons c p => rfl
    rw [this]
    rfl
  · show splitextRoot (baseName (p ++ ['/'])) = []
    unfold baseName
    rw [e, List.getLast?_concat]
    rfl

end Verif
