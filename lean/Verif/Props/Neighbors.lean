import Verif.Lemmas.Neighbors
import Verif.Spec.Neighbors
import Verif.Props.Split
/-!
# C112: the neighborly splitter keeps the files of a directory together
-/

namespace Verif

open Spec

theorem dk_joinPath {d : Path} {f : Str} (hf : GoodName f) :
    dk (joinPath (d ++ [f])) = if d = [] then ['/'] else '/' :: joinPath d ++ ['/'] := by
  have key : ∀ Y : Str, dirPart (Y ++ '/' :: f) = Y ++ ['/'] := by
    intro Y
    unfold dirPart
    rw [if_pos (by simp)]
    have e : (Y ++ '/' :: f).reverse = f.reverse ++ '/' :: Y.reverse := by simp
    rw [e, List.dropWhile_append_of_pos (fun c hc => by
      have := hf.noslash
      simp only [ne_eq, decide_not, Bool.not_eq_true', decide_eq_false_iff_not]
      intro e; subst e; exact this (List.mem_reverse.1 hc))]
    simp
  unfold dk
  by_cases hd : d = []
  · subst hd
    rw [if_pos rfl, List.nil_append, show joinPath [f] = f from rfl]
    exact key []
  · rw [if_neg hd, joinPath_append hd (by simp), show joinPath [f] = f from rfl]
    exact key ('/' :: joinPath d)

/-- The splitter tells directories apart by their paths. -/
theorem dk_iff {p q : Path} (hp : GoodPath p) (hq : GoodPath q) :
    dk (joinPath p) = dk (joinPath q) ↔ directoryOf (joinPath p) = directoryOf (joinPath q) := by
  unfold directoryOf
  rw [comps_joinPath hp, comps_joinPath hq]
  obtain ⟨d, f, rfl⟩ : ∃ d f, p = d ++ [f] := ⟨_, _, (List.dropLast_concat_getLast hp.1).symm⟩
  obtain ⟨e, g, rfl⟩ : ∃ d f, q = d ++ [f] := ⟨_, _, (List.dropLast_concat_getLast hq.1).symm⟩
  rw [dk_joinPath (hp.2 f (by simp)), dk_joinPath (hq.2 g (by simp)), List.dropLast_concat, List.dropLast_concat]
  have hd : GoodOrRoot d := by
    by_cases h : d = []
    · exact .inl h
    · exact .inr ⟨h, fun c hc => hp.2 c (by simp [hc])⟩
  have he : GoodOrRoot e := by
    by_cases h : e = []
    · exact .inl h
    · exact .inr ⟨h, fun c hc => hq.2 c (by simp [hc])⟩
  constructor
  · intro h
    by_cases h1 : d = [] <;> by_cases h2 : e = []
    · rw [h1, h2]
    · rw [if_pos h1, if_neg h2] at h
      have := congrArg List.length h
      simp at this
    · rw [if_neg h1, if_pos h2] at h
      have := congrArg List.length h
      simp at this
    · rw [if_neg h1, if_neg h2] at h
      simp only [List.cons_append, List.cons.injEq, true_and] at h
      exact joinPath_inj' hd he (List.append_cancel_right h)
  · rintro rfl; rfl

theorem sum_sub {size : Str → Nat} {l l' : List Str} (h : l.Nodup) (hs : ∀ x ∈ l, x ∈ l') : (l.map size).sum ≤ (l'.map size).sum := by
  induction l generalizing l' with
  | nil => simp
  | cons x l ih =>
    obtain ⟨a, b, rfl⟩ := List.append_of_mem (hs x (by simp))
    have := ih (l' := a ++ b) (List.nodup_cons.1 h).2 (by
      intro y hy
      have hxy : y ≠ x := fun e => (List.nodup_cons.1 h).1 (e ▸ hy)
      have := hs y (by simp [hy])
      simp only [List.mem_append, List.mem_cons] at this ⊢
      rcases this with h | h | h
      · exact .inl h
      · exact absurd h hxy
      · exact .inr h)
    simp only [List.map_append, List.map_cons, List.sum_append, List.sum_cons] at this ⊢
    omega

/-- The first of a list that does not have a property. -/
theorem first_not {α : Type} (P : α → Prop) [DecidablePred P] (l : List α) : (∀ x ∈ l, P x) ∨ ∃ a x b, l = a ++ x :: b ∧ (∀ y ∈ a, P y) ∧ ¬ P x := by
  induction l with
  | nil => exact .inl (by simp)
  | cons y l ih =>
    by_cases hy : P y
    · rcases ih with h | ⟨a, x, b, rfl, h1, h2⟩
      · exact .inl (by simpa using ⟨hy, h⟩)
      · exact .inr ⟨y :: a, x, b, rfl, by simpa using ⟨hy, h1⟩, h2⟩
    · exact .inr ⟨[], y, l, rfl, by simp, hy⟩

/-- C112: in the bags that the neighborly splitter makes (all but the possible last one of leftovers), the files of a
directory are listed next to each other.  Each bag begins with the largest file that is left.  A file is left for a later bag,
while others of its directory are in this one, only if it did not fit when the first file of another directory was added.  So
if the files of the directory with which a bag begins fit in a bag together, none of them is left for a later one. -/
theorem C112_neighbors (s : Splitter) (hk : s.kind = .neighborly) (w : Char → Bool) (bagName : Str) (size : Str → Nat) (t : Tree)
    (listing : List FInfo) (names : Nat → Option Str) (h : WfTree t) (hl : listing.Perm (treeListing size t)) :
    ∃ main extra, (s.plan w bagName size t listing names).2 = main ++ extra ∧ extra.length ≤ 1 ∧
      (s.forhead = [] → (∀ d, ¬ EmptyDir t d) →
        (∀ d f, t.isfile (d ++ [f]) = true → TakenForReserved w (joinPath (d ++ [f])) → d = []) → extra = []) ∧
      (∀ m ∈ main, Together m.contents) ∧
      main.Pairwise (fun a b => ∀ p, a.contents.head? = some p → ∀ g ∈ b.contents, size g ≤ size p) ∧
      main.Pairwise (fun a b => ∀ g ∈ b.contents, LeftForSize size s.max a.contents g) ∧
      ∀ earlier a later p, main = earlier ++ a :: later → a.contents.head? = some p →
        (((((main.flatMap (·.contents)).filter (fun g => directoryOf g = directoryOf p)).map size).sum : Nat) : Int) ≤ s.max →
        (((((main.flatMap (·.contents)).filter (fun g => directoryOf g = directoryOf p)).map size).sum : Nat) : Int) ≤ s.tsz →
        ∀ m ∈ later, ∀ g ∈ m.contents, directoryOf g ≠ directoryOf p := by
  obtain ⟨main, extra, e, hb, hlen, hx⟩ := plan_parts s w bagName size names h hl
  have r := main_result s w size h hl
  have hgreedy := pairwise_of_greedy r.greedy
  have hrun : s.run (sortedFiles w s.forhead listing) = nbRun s.max s.tsz (sortedFiles w s.forhead listing) := by
    unfold Splitter.run; rw [hk]
  have hnear : NearBags s.max size (s.run (sortedFiles w s.forhead listing)) [] := by
    rw [hrun]
    refine nbRun_near (sorted_desc _ _ _) (sorted_sizes h hl) ?_
    intro f hf
    obtain ⟨q, _, _, _, rfl⟩ := (mem_sorted h hl).1 hf
    rfl
  -- all entries are files of the bag
  have hfile : ∀ m ∈ s.run (sortedFiles w s.forhead listing), ∀ p ∈ m.contents, ∃ q, GoodPath q ∧ p = joinPath q := by
    intro m hm p hp
    obtain ⟨q, hq, _, _, rfl⟩ := (mem_main s w size h hl).1 (List.mem_flatMap.2 ⟨m, hm, hp⟩)
    obtain ⟨c, hc⟩ := isfile_iff.1 hq
    exact ⟨q, h.good q (mem_dkeys_iff.2 ⟨_, hc⟩), rfl⟩
  have hdk : ∀ m ∈ s.run (sortedFiles w s.forhead listing), ∀ m' ∈ s.run (sortedFiles w s.forhead listing),
      ∀ p ∈ m.contents, ∀ g ∈ m'.contents, dk p = dk g ↔ directoryOf p = directoryOf g := by
    intro m hm m' hm' p hp g hg
    obtain ⟨q, hq, rfl⟩ := hfile m hm p hp
    obtain ⟨q', hq', rfl⟩ := hfile m' hm' g hg
    exact dk_iff hq hq'
  -- what is known about the bags before they are named
  have hparts : ∀ ms, (∀ m ∈ ms, m ∈ s.run (sortedFiles w s.forhead listing)) → NearBags s.max size ms [] →
      (∀ m ∈ ms, Together m.contents) ∧
      ms.Pairwise (fun a b => ∀ p, a.contents.head? = some p → ∀ g ∈ b.contents, size g ≤ size p) ∧
      ms.Pairwise (fun a b => ∀ g ∈ b.contents, LeftForSize size s.max a.contents g) := by
    intro ms
    induction ms with
    | nil => exact fun _ _ => ⟨by simp, .nil, .nil⟩
    | cons m ms ih =>
      rintro hms ⟨h1, h2, ⟨p0, h3, h4⟩, h5⟩
      obtain ⟨i1, i2, i3⟩ := ih (fun x hx => hms x (List.mem_cons_of_mem _ hx)) h5
      have hm := hms m List.mem_cons_self
      have hin : ∀ b ∈ ms, ∀ g ∈ b.contents, g ∈ contentsOf ms ++ [] := fun b hb g hg =>
        List.mem_append_left _ (List.mem_flatMap.2 ⟨b, hb, hg⟩)
      refine ⟨?_, .cons ?_ i2, .cons ?_ i3⟩
      · intro x hx
        rcases List.mem_cons.1 hx with rfl | hx
        · intro a b c y z e hyz u hu
          have hy : y ∈ x.contents := by rw [e]; simp
          have hz : z ∈ x.contents := by rw [e]; simp
          have hu' : u ∈ x.contents := by rw [e]; simp [hu]
          exact (hdk x hm x hm u hu' y hy).1 (h1 a b c y z e ((hdk x hm x hm y hy z hz).2 hyz) u hu)
        · exact i1 x hx
      · intro b hb p hp g hg
        rw [h3] at hp
        cases hp
        exact h4 g (hin b hb g hg)
      · intro b hb g hg a x c e hy hx
        have hbm := hms b (List.mem_cons_of_mem _ hb)
        obtain ⟨y, hy, hyg⟩ := hy
        have hya : y ∈ m.contents := by rw [e]; simp [hy]
        have hxm : x ∈ m.contents := by rw [e]; simp
        refine h2 g (hin b hb g hg) a x c e ⟨y, hy, (hdk m hm b hbm y hya g hg).2 hyg⟩ (fun hh => hx ((hdk m hm b hbm x hxm g hg).1 hh))
  obtain ⟨p1, p2, p3⟩ := hparts _ (fun _ hm => hm) hnear
  have q1 : ∀ m ∈ main, Together m.contents := by
    intro m hm
    obtain ⟨m', hm', hc, _⟩ := body_mem hb hm
    rw [← hc]
    exact p1 m' hm'
  have q2 : main.Pairwise (fun a b => ∀ p, a.contents.head? = some p → ∀ g ∈ b.contents, size g ≤ size p) := by
    refine pairwise_body ?_ hb.symm p2
    intro a a' b b' ha hb' hR
    simp only [Manifest.body, Prod.mk.injEq] at ha hb'
    rwa [← ha.1, ← hb'.1]
  have q3 : main.Pairwise (fun a b => ∀ g ∈ b.contents, LeftForSize size s.max a.contents g) := by
    refine pairwise_body ?_ hb.symm p3
    intro a a' b b' ha hb' hR
    simp only [Manifest.body, Prod.mk.injEq] at ha hb'
    rwa [← ha.1, ← hb'.1]
  have q4 : main.Pairwise (fun a b => ((a.total : Nat) : Int) > s.tsz ∨ ∀ p ∈ b.contents, ((a.total + size p : Nat) : Int) > s.max) := by
    refine pairwise_body ?_ hb.symm hgreedy
    intro a a' b b' ha hb' hR
    simp only [Manifest.body, Prod.mk.injEq] at ha hb'
    rwa [← ha.2, ← hb'.1]
  refine ⟨main, extra, e, hlen, ?_, q1, q2, q3, ?_⟩
  · intro hf hd hlook
    cases extra with
    | nil => rfl
    | cons m ms =>
      exfalso
      obtain ⟨hne, _, hp⟩ := hx m (by simp)
      obtain ⟨p, hpm⟩ := List.exists_mem_of_ne_nil _ hne
      rcases hp p hpm with hp | ⟨d, hd', _⟩ | ⟨d, f, hdne, hf', rfl, hs⟩
      · rw [hf] at hp; cases hp
      · exact hd d hd'
      · exact hdne (hlook d f hf' (special_iff.1 hs))
  · intro earlier a later p hmain hhead hmax htsz m hm g hg hdir
    have hnd : (main.flatMap (·.contents)).Nodup := by
      have hnd := plan_nodup s w bagName size (t := t) h hl
      rw [← contentsOf_of_body (plan_body s w bagName size t listing names), e, contentsOf_append, List.nodup_append] at hnd
      exact hnd.1
    have htot : a.total = (a.contents.map size).sum := by
      obtain ⟨m', hm', hc, ht⟩ := body_mem hb (show a ∈ main by rw [hmain]; simp)
      rw [← hc, ← ht]
      exact r.totals m' hm'
    rw [hmain] at q3 q4
    have q3 := (List.pairwise_cons.1 (List.pairwise_append.1 q3).2.1).1 m hm g hg
    have q4 := (List.pairwise_cons.1 (List.pairwise_append.1 q4).2.1).1 m hm
    -- files of the directory, with `g`
    have hsub : ∀ l : List Str, l <+: a.contents → (∀ y ∈ l, directoryOf y = directoryOf p) →
        (l.map size).sum + size g ≤ (((main.flatMap (·.contents)).filter (fun g => directoryOf g = directoryOf p)).map size).sum := by
      intro l hl' hd
      have hcat : (a.contents ++ m.contents).Nodup := by
        rw [hmain, List.flatMap_append, List.flatMap_cons] at hnd
        have h2 := (List.nodup_append.1 hnd).2.1
        rw [List.nodup_append] at h2 ⊢
        refine ⟨h2.1, ?_, fun x hx y hy => h2.2.2 x hx y (List.mem_flatMap.2 ⟨m, hm, hy⟩)⟩
        obtain ⟨u, v, rfl⟩ := List.append_of_mem hm
        have h3 := h2.2.1
        rw [List.flatMap_append, List.flatMap_cons] at h3
        exact (List.nodup_append.1 (List.nodup_append.1 h3).2.1).1
      have hlg : (l ++ [g]).Nodup := by
        rw [List.nodup_append] at hcat ⊢
        refine ⟨hcat.1.sublist hl'.sublist, by simp, ?_⟩
        intro x hx y hy
        rw [List.mem_singleton] at hy
        subst hy
        exact hcat.2.2 x (hl'.subset hx) y hg
      have := sum_sub (size := size) hlg (l' := (main.flatMap (·.contents)).filter (fun g => directoryOf g = directoryOf p)) (by
        intro x hx
        rw [List.mem_filter, decide_eq_true_eq]
        rcases List.mem_append.1 hx with hx | hx
        · exact ⟨List.mem_flatMap.2 ⟨a, by rw [hmain]; simp, hl'.subset hx⟩, hd x hx⟩
        · rw [List.mem_singleton] at hx
          subst hx
          exact ⟨List.mem_flatMap.2 ⟨m, by rw [hmain]; simp [hm], hg⟩, hdir⟩)
      simpa using this
    rcases first_not (fun y => directoryOf y = directoryOf p) a.contents with hall | ⟨u, x, v, hu, hu1, hx⟩
    · have := hsub a.contents (List.prefix_refl _) hall
      rcases q4 with q4 | q4
      · omega
      · have := q4 g hg; omega
    · have h1 := hsub u ⟨x :: v, hu.symm⟩ hu1
      have hp : p ∈ u := by
        cases u with
        | nil =>
          rw [hu] at hhead
          simp only [List.nil_append, List.head?_cons, Option.some.injEq] at hhead
          exact absurd (by rw [hhead]) hx
        | cons y u =>
          rw [hu] at hhead
          simp only [List.cons_append, List.head?_cons, Option.some.injEq] at hhead
          simp [hhead]
      have := q3 u x v hu ⟨p, hp, hdir.symm⟩ (by rw [hdir]; exact hx)
      omega

namespace Sample

/-- Two directories with files of 5 bytes, and 3 bytes each. -/
def dirs2 : Tree :=
  [([py!"bagit.txt"], .file []), ([py!"data"], .dir), ([py!"data", py!"a"], .dir), ([py!"data", py!"b"], .dir),
   ([py!"data", py!"b", py!"y"], .file py!"yyy"), ([py!"data", py!"b", py!"z"], .file py!"zzz"),
   ([py!"data", py!"a", py!"x"], .file py!"xxxxx")]

def size5 (p : Str) : Nat := if p = py!"data/a/x" then 5 else 3

theorem wf_dirs2 : WfTree dirs2 := wf_of_check (by decide)

def near8 : Splitter := { kind := .neighborly, max := 8 }

theorem near8_plan (w : Char → Bool) (listing : List FInfo) (hl : listing.Perm (treeListing size5 dirs2)) (names : Nat → Option Str) :
    (near8.plan w py!"bag" size5 dirs2 listing names).2.map Manifest.body =
      [([py!"data/a/x", py!"data/b/y"], 8), ([py!"data/b/z"], 3)] := by
  rw [plan_body]
  have hs : sortedFiles w near8.forhead listing = [⟨py!"/data/a/x", 5⟩, ⟨py!"/data/b/y", 3⟩, ⟨py!"/data/b/z", 3⟩] := by
    rw [sortedFiles_congr w _ hl]
    apply sortedFiles_eq
    · simp [FBefore]; decide
    · have e : (treeListing size5 dirs2).filter (fun f => !specialPath w f.path && !decide (f.path ∈ near8.forhead)) =
          [⟨py!"/data/b/y", 3⟩, ⟨py!"/data/b/z", 3⟩, ⟨py!"/data/a/x", 5⟩] := rfl
      rw [e]
      decide
  have e1 : dirPart py!"/data/a/x" = py!"/data/a/" := by decide
  have e2 : dirPart py!"/data/b/y" = py!"/data/b/" := by decide
  have e3 : dirPart py!"/data/b/z" = py!"/data/b/" := by decide
  have l1 : strLe py!"/data/a/" py!"/data/b/" = true := by decide
  have l2 : strLe py!"/data/b/" py!"/data/b/" = true := by decide
  have d1 : dirpathsFor [⟨py!"/data/a/x", 5⟩, ⟨py!"/data/b/y", 3⟩, ⟨py!"/data/b/z", 3⟩] = [py!"/data/a/", py!"/data/b/"] := by
    simp [dirpathsFor, e1, e2, e3, l1, l2, List.mergeSort, List.merge, uniqLoop, List.idxOf, List.findIdx, List.findIdx.go]
  have d2 : dirpathsFor [⟨py!"/data/b/z", 3⟩] = [py!"/data/b/"] := by
    simp [dirpathsFor, e3, uniqLoop]
  have hr : near8.run [⟨py!"/data/a/x", 5⟩, ⟨py!"/data/b/y", 3⟩, ⟨py!"/data/b/z", 3⟩] =
      [{ contents := [py!"data/a/x", py!"data/b/y"], total := 8 }, { contents := [py!"data/b/z"], total := 3 }] := by
    simp [Splitter.run, near8, Splitter.tsz, nbRun, nbLoop, nbFill, selectFromDir, Manifest.add, d1, d2, e1, e2, e3]
  unfold Splitter.createPlan
  rw [hs, hr]
  rfl

end Sample

/-- The hypotheses of `C112_neighbors` are met: two files of the sample come from one directory. -/
example : Sample.near8.kind = .neighborly ∧ WfTree Sample.dirs2 ∧
    Sample.dirs2.isfile [py!"data", py!"b", py!"y"] = true ∧ Sample.dirs2.isfile [py!"data", py!"b", py!"z"] = true :=
  ⟨rfl, Sample.wf_dirs2, by decide, by decide⟩

/-- C112, limit: a directory is not always kept together if its files fit in one bag.  With at most 8 bytes in a bag, of two
files of 3 bytes each in a directory `b` one is used to fill up the bag with a file of 5 bytes of a directory `a`. -/
theorem C112_negation_apart (w : Char → Bool) (listing : List FInfo) (hl : listing.Perm (treeListing Sample.size5 Sample.dirs2))
    (names : Nat → Option Str) :
    (Sample.near8.plan w py!"bag" Sample.size5 Sample.dirs2 listing names).2.map (·.contents) =
      [[py!"data/a/x", py!"data/b/y"], [py!"data/b/z"]] ∧
    directoryOf py!"data/b/y" = directoryOf py!"data/b/z" ∧
    ((Sample.size5 py!"data/b/y" + Sample.size5 py!"data/b/z" : Nat) : Int) ≤ Sample.near8.max := by
  refine ⟨?_, by decide, by decide⟩
  have := congrArg (List.map Prod.fst) (Sample.near8_plan w listing hl names)
  simpa [Manifest.body, List.map_map, Function.comp_def] using this

end Verif
