import Verif.Props.Fetching
import Verif.Lemmas.OwnCache
/-!
# C119: A directory of one's own for fetched bags
-/

namespace Verif

open Spec

theorem own_start {cwd : Str} {wd : Path} (hc : AbsPath cwd wd) {W : Tree} (hW : WfTree W) (bags : Str → Option Tree)
    {isHead : Str → Except PyErr Bool} {head : HeadArg} {dest : Option Str} {k : Str} (hk : k ≠ []) {r : Restorer}
    (hmake : Restorer.make cwd W isHead head dest (some k) true = .ok r) {D : Path} (hD : leadsTo wd r.destdir = D) (hroot : D ≠ [])
    (hplace : W.isdir (leadsTo wd k) = true) (hout : ¬ Inside D (leadsTo wd k))
    {d : Tree} (hd : (W.exists D = false ∧ d = []) ∨ (W.isdir D = true ∧ d = W.below D)) :
    r.cachedir = k ∧ ∃ W1, (if diskExists cwd W r.destdir then .ok W else r.createDest cwd W) = .ok W1 ∧ KeptApart W bags D (leadsTo wd k) [] d W1 := by
  obtain ⟨_, hparent, hreq⟩ := make_ok hmake
  have hdd : r.destdir = abspath cwd ((given dest).getD head.path) := by rw [hreq]
  have hcd : r.cachedir = k := by
    rw [hreq, given_eq_some.2 ⟨rfl, hk⟩]
    rfl
  refine ⟨hcd, ?_⟩
  have hdex : diskExists cwd W r.destdir = W.exists D := by
    unfold diskExists
    rw [comps_abspath hc, hD]
  rw [hdex]
  rcases hd with ⟨h1, rfl⟩ | ⟨h1, rfl⟩
  · have hgD : GoodPath D := ⟨hroot, by rw [← hD]; exact goodName_leadsTo hc.1.2 _⟩
    have hpar : W.isdir D.dropLast = true := by
      rw [← hdd, diskIsdir_eq hc, hdd, leadsTo_dirName hc, ← leadsTo_abspath hc, ← hdd, hD] at hparent
      exact hparent
    have hmk : W.mkdir D = .ok (dset W D .dir) := by unfold Tree.mkdir; rw [h1, hpar]; rfl
    have hne : D ≠ leadsTo wd k := fun e => hout (e ▸ List.prefix_refl _)
    have hplace1 : Tree.isdir (dset W D .dir) (leadsTo wd k) = true := by
      rw [isdir_iff] at hplace ⊢
      rw [dget_dset, if_neg hne]; exact hplace
    have hlack : r.lacksCache cwd (dset W D .dir) = false := by
      unfold Restorer.lacksCache
      rw [diskExists_eq hc, hcd, exists_of_isdir hplace1]; rfl
    rw [h1]
    refine ⟨dset W D .dir, ?_, wf_dset hW hgD hpar (.inr rfl), isdir_iff.2 (.inr (by rw [dget_dset, if_pos rfl])), ?_, hplace1, by simp, ?_, ?_⟩
    · unfold Restorer.createDest
      rw [hdex, h1]
      simp only [Bool.false_eq_true, if_false]
      rw [comps_abspath hc, hD, hmk]
      simp only [hlack, Bool.false_eq_true, if_false]
    · rw [below_dset_other (fun _ => rfl), below_free hW hroot h1]
    · intro q hq _
      rw [dget_dset, if_neg (fun (e : D = q) => hq (e ▸ List.prefix_refl _))]
    · intro x hx _
      refine below_dset_other (fun hp => ?_)
      obtain ⟨s, hs⟩ := hp
      exact absurd (hs ▸ List.prefix_refl _) (hx s)
  · rw [exists_of_isdir h1]
    exact ⟨W, rfl, hW, h1, rfl, hplace, by simp, fun _ _ _ => rfl, fun _ _ _ => rfl⟩

theorem own_run {cwd : Str} {wd : Path} (hc : AbsPath cwd wd) {W : Tree} (hW : WfTree W)
    {isHead : Str → Except PyErr Bool} {head : HeadArg} {dest : Option Str} {k : Str} (hk : k ≠ []) {r : Restorer}
    (hmake : Restorer.make cwd W isHead head dest (some k) true = .ok r) {D : Path} (hD : leadsTo wd r.destdir = D) (hroot : D ≠ [])
    {exts : List Str} (hx : ∀ e, e ∈ exts ↔ e ∈ serialized) (archives : Path → Option Tree)
    {f : Fetcher} {bags : Str → Option Tree} {C : Path} (hC : leadsTo wd k = C) (hf : Delivers f bags k C)
    {E : RestoreEnv} (hE : EnvOk E) {H : RHead} (hH : WfTree H.tree)
    {ms : List MemberInfo} (hms : iterMembers H.mode H.tree H.info = .ok ms) {names : List Str}
    (hnames : BesidesHead (ms.map (fun m => m.name)) H.name names)
    (hplace : W.isdir C = true) (hout : ¬ Inside D C) (hapart : ∀ n ∈ names, ∀ e ∈ [] :: serialized, ¬ Inside (C ++ [n ++ e]) D)
    (hbags : ∀ n ∈ names, GoodName n ∧ ∃ s, E.find n = some s ∧ Supply W archives bags cwd k C n s ∧ WfTree s.tree)
    {d : Tree} (hd : (W.exists D = false ∧ d = []) ∨ (W.isdir D = true ∧ d = W.below D))
    {us rm : Bool} {out : Tree} (hr : restore E H us rm d = .ok out) :
    ∃ W' asked, FetchSite.restore { exts, fetcher := some f, cwd, archives } E r H us rm W = .ok (W', asked) ∧
      KeptApart W bags D C asked out W' ∧ asked.Nodup ∧ ∀ n, n ∈ asked ↔ n ∈ names ∧ Absent W C n := by
  subst hC
  obtain ⟨hcd, W1, s1, s2⟩ := own_start hc hW bags hk hmake hD hroot hplace hout hd
  have hothers := others_of hnames
  have hwd : WfTree d := by
    rcases hd with ⟨_, rfl⟩ | ⟨h1, rfl⟩
    · exact ⟨by simp [dkeys], by simp [dkeys], by simp [dkeys]⟩
    · exact wf_below hW hroot h1
  have hset : OwnCache { exts, fetcher := some f, cwd, archives } r wd D (leadsTo wd k) f bags (otherMembers H (ms.map (fun m => m.name))) :=
    ⟨hc, hx, rfl, hD, by rw [hcd], by rw [hcd]; exact hk, by rw [hcd]; exact hf, hout, fun n hn => by
      rw [hothers] at hn; exact hapart n (List.mem_reverse.1 hn)⟩
  have hsup : Supplies W { exts, fetcher := some f, cwd, archives } bags r (leadsTo wd k) E (otherMembers H (ms.map (fun m => m.name))) := by
    intro n hn
    rw [hothers] at hn
    rw [hcd]
    exact hbags n (List.mem_reverse.1 hn)
  have hout' : WfTree out := by
    have hsrc : ∀ l : List Str, (∀ n ∈ l, n ∈ otherMembers H (ms.map (fun m => m.name))) →
        ∃ srcs : List RSource, Forall₂ (fun n s => E.find n = some s) l srcs ∧ ∀ s ∈ srcs, WfTree s.tree := by
      intro l
      induction l with
      | nil => exact fun _ => ⟨[], .nil, by simp⟩
      | cons n l ih =>
        intro hl
        obtain ⟨srcs, h1, h2⟩ := ih (fun m hm => hl m (List.mem_cons_of_mem _ hm))
        obtain ⟨_, s, h3, _, h4⟩ := hsup n (hl n List.mem_cons_self)
        refine ⟨s :: srcs, .cons h3 h1, ?_⟩
        intro s' hs
        rcases List.mem_cons.1 hs with rfl | hs
        · exact h4
        · exact h2 s' hs
    obtain ⟨srcs, h1, h2⟩ := hsrc _ (fun _ h => h)
    exact wf_restore hE hr hms h1 hH h2 hwd
  obtain ⟨W', asked, k1, k2, k3, k4⟩ := hset.run hroot hE hH hms hsup s1 s2 hr hout'
  refine ⟨W', asked, k1, k2, k3, fun n => ?_⟩
  rw [k4, hothers, List.mem_reverse]

/-- C119: restoring with a function that fetches member bags into a directory of one's own, outside the destination, to
which `k` leads.  If restoring succeeds with the bags at hand, it succeeds; the function is called once for each member bag
besides the head bag that is not there, as a directory or an archive, and for nothing else; the bag that is made is the
same, file by file; the fetched bags stay; and nothing else is changed. -/
theorem C119_same {cwd : Str} {wd : Path} (hc : AbsPath cwd wd) {W : Tree} (hW : WfTree W)
    {isHead : Str → Except PyErr Bool} {head : HeadArg} {dest : Option Str} {k : Str} (hk : k ≠ []) {r : Restorer}
    (hmake : Restorer.make cwd W isHead head dest (some k) true = .ok r) {D : Path} (hD : leadsTo wd r.destdir = D) (hroot : D ≠ [])
    {exts : List Str} (hx : ∀ e, e ∈ exts ↔ e ∈ serialized) (archives : Path → Option Tree)
    {f : Fetcher} {bags : Str → Option Tree} {C : Path} (hC : leadsTo wd k = C) (hf : Delivers f bags k C)
    {E : RestoreEnv} (hE : EnvOk E) {H : RHead} (hH : WfTree H.tree)
    {ms : List MemberInfo} (hms : iterMembers H.mode H.tree H.info = .ok ms) {names : List Str}
    (hnames : BesidesHead (ms.map (fun m => m.name)) H.name names)
    (hplace : W.isdir C = true) (hout : ¬ Inside D C) (hapart : ∀ n ∈ names, ∀ e ∈ [] :: serialized, ¬ Inside (C ++ [n ++ e]) D)
    (hbags : ∀ n ∈ names, GoodName n ∧ ∃ s, E.find n = some s ∧ Supply W archives bags cwd k C n s ∧ WfTree s.tree)
    {d : Tree} (hd : (W.exists D = false ∧ d = []) ∨ (W.isdir D = true ∧ d = W.below D))
    {us rm : Bool} {out : Tree} (hr : restore E H us rm d = .ok out) :
    ∃ W' asked, FetchSite.restore { exts, fetcher := some f, cwd, archives } E r H us rm W = .ok (W', asked) ∧
      W'.isdir D = true ∧ W'.below D = out ∧ WfTree W' ∧
      (∀ n ∈ asked, W'.isdir (C ++ [n]) = true ∧ bags n = some (W'.below (C ++ [n]))) ∧
      (∀ q, ¬ Inside D q → (∀ n ∈ asked, ¬ Inside (C ++ [n]) q) → SameThing W' W q) ∧
      asked.Nodup ∧ ∀ n, n ∈ asked ↔ n ∈ names ∧ Absent W C n := by
  obtain ⟨W', asked, k1, k2, k3, k4⟩ := own_run hc hW hk hmake hD hroot hx archives hC hf hE hH hms hnames hplace hout hapart hbags hd hr
  exact ⟨W', asked, k1, k2.dest, k2.contents, k2.wf, k2.have_, fun q hq hn => sameThing_of_dget (k2.rest q hq hn), k3, k4⟩

theorem supply_again {cwd k : Str} {W W' : Tree} {archives : Path → Option Tree} {bags : Str → Option Tree} {D C : Path} {asked names : List Str} {out : Tree}
    (hK : KeptApart W bags D C asked out W') (hasked : ∀ n, n ∈ asked ↔ n ∈ names ∧ Absent W C n)
    (hfree : ∀ n ∈ asked, W.exists (C ++ [n]) = false)
    (hout : ¬ Inside D C) (hapart : ∀ n ∈ names, ∀ e ∈ [] :: serialized, ¬ Inside (C ++ [n ++ e]) D)
    {n : Str} (hn : n ∈ names) {s : RSource} (hs : Supply W archives bags cwd k C n s) : Supply W' archives (fun _ => none) cwd k C n s := by
  have hbeside : ∀ e ∈ [] :: serialized, ∀ p, ¬ D <+: C ++ [n ++ e] ++ p := by
    intro e he p hc
    rcases List.prefix_or_prefix_of_prefix hc (List.prefix_append _ p) with hc | hc
    · rcases List.prefix_concat_iff.1 hc with e1 | e1
      · exact hapart n hn e he (e1 ▸ List.prefix_refl _)
      · exact hout e1
    · exact hapart n hn e he hc
  have old : ∀ e ∈ [] :: serialized, n ++ e ∉ asked → dget W' (C ++ [n ++ e]) = dget W (C ++ [n ++ e]) := fun e he hx =>
    hK.rest _ (by simpa using hbeside e he []) (fun m hm hc => hx (snoc_prefix_snoc (p := []) (by rw [List.append_nil]; exact hc) ▸ hm))
  cases hs with
  | unpacked hu =>
    have hng : n ∉ asked := fun hm => ((hasked n).1 hm).2.1 hu
    have hb := hK.below n (fun p => by simpa using hbeside [] List.mem_cons_self p) hng
    rw [← hb]
    refine .unpacked ?_
    unfold HasUnpacked at hu ⊢
    have := old [] List.mem_cons_self (by rw [List.append_nil]; exact hng)
    rw [List.append_nil] at this
    rw [isdir_iff] at hu ⊢
    rw [this]; exact hu
  | packed e t hu ha hone hat =>
    have hng : n ∉ asked := fun hm => ((hasked n).1 hm).2.2 e ha
    have h0 := old [] List.mem_cons_self (by rw [List.append_nil]; exact hng)
    rw [List.append_nil] at h0
    have hfile : ∀ e', HasArchive W' C n e' → HasArchive W C n e' := by
      rintro e' ⟨he', hf⟩
      refine ⟨he', ?_⟩
      by_cases hx : n ++ e' ∈ asked
      · have h1 := (hK.have_ _ hx).1
        obtain ⟨c, hc⟩ := isfile_iff.1 hf
        rw [isdir_iff, hc] at h1
        simp at h1
      · rw [isfile_iff] at hf ⊢
        rw [← old e' (List.mem_cons_of_mem _ he') hx]; exact hf
    refine .packed e t ?_ ?_ (fun e' he' => hone e' (hfile e' he')) hat
    · unfold HasUnpacked at hu ⊢
      rw [isdir_iff] at hu ⊢
      rw [h0]; exact hu
    · refine ⟨ha.1, ?_⟩
      have hx : n ++ e ∉ asked := by
        intro hx
        have h2 := hfree _ hx
        obtain ⟨c, hc⟩ := isfile_iff.1 ha.2
        unfold Tree.exists at h2
        rw [hc] at h2
        simp at h2
      have := ha.2
      rw [isfile_iff] at this ⊢
      rw [old e (List.mem_cons_of_mem _ ha.1) hx]; exact this
  | fetched t hA hf ht =>
    obtain ⟨h1, h2⟩ := hK.have_ n ((hasked n).2 ⟨hn, hA⟩)
    rw [ht] at h2
    injection h2 with h2
    rw [h2]
    exact .unpacked h1

/-- C119, again: after such a run the aggregation can be restored again, to another place, by a restorer with the same
directory, and nothing is fetched any more: whatever the function for fetching is, it is not called. -/
theorem C119_again {cwd : Str} {wd : Path} (hc : AbsPath cwd wd) {W : Tree} (hW : WfTree W)
    {isHead : Str → Except PyErr Bool} {head : HeadArg} {dest : Option Str} {k : Str} (hk : k ≠ []) {r : Restorer}
    (hmake : Restorer.make cwd W isHead head dest (some k) true = .ok r) {D : Path} (hD : leadsTo wd r.destdir = D) (hroot : D ≠ [])
    {exts : List Str} (hx : ∀ e, e ∈ exts ↔ e ∈ serialized) (archives : Path → Option Tree)
    {f : Fetcher} {bags : Str → Option Tree} {C : Path} (hC : leadsTo wd k = C) (hf : Delivers f bags k C)
    {E : RestoreEnv} (hE : EnvOk E) {H : RHead} (hH : WfTree H.tree)
    {ms : List MemberInfo} (hms : iterMembers H.mode H.tree H.info = .ok ms) {names : List Str}
    (hnames : BesidesHead (ms.map (fun m => m.name)) H.name names)
    (hplace : W.isdir C = true) (hout : ¬ Inside D C) (hapart : ∀ n ∈ names, ∀ e ∈ [] :: serialized, ¬ Inside (C ++ [n ++ e]) D)
    (hbags : ∀ n ∈ names, GoodName n ∧ ∃ s, E.find n = some s ∧ Supply W archives bags cwd k C n s ∧ WfTree s.tree)
    {d : Tree} (hd : (W.exists D = false ∧ d = []) ∨ (W.isdir D = true ∧ d = W.below D))
    {us rm : Bool} {out : Tree} (hr : restore E H us rm d = .ok out) :
    ∃ W' asked, FetchSite.restore { exts, fetcher := some f, cwd, archives } E r H us rm W = .ok (W', asked) ∧
      ∀ {isHead' : Str → Except PyErr Bool} {dest' : Option Str} {r' : Restorer} {D' : Path} {E' : RestoreEnv} {d' out' : Tree} {us' rm' : Bool}
        (f' : Fetcher),
        Restorer.make cwd W' isHead' head dest' (some k) true = .ok r' → leadsTo wd r'.destdir = D' → D' ≠ [] →
        ¬ Inside D' C → (∀ n ∈ names, ∀ e ∈ [] :: serialized, ¬ Inside (C ++ [n ++ e]) D') →
        EnvOk E' → E'.find = E.find →
        (W'.exists D' = false ∧ d' = []) ∨ (W'.isdir D' = true ∧ d' = W'.below D') → restore E' H us' rm' d' = .ok out' →
        ∃ W'', FetchSite.restore { exts, fetcher := some f', cwd, archives } E' r' H us' rm' W' = .ok (W'', []) ∧
          W''.isdir D' = true ∧ W''.below D' = out' ∧ ∀ q, ¬ Inside D' q → SameThing W'' W' q := by
  obtain ⟨W', asked, k1, k2, k3, k4⟩ := own_run hc hW hk hmake hD hroot hx archives hC hf hE hH hms hnames hplace hout hapart hbags hd hr
  refine ⟨W', asked, k1, ?_⟩
  intro isHead' dest' r' D' E' d' out' us' rm' f' hmake' hD' hroot' hout' hapart' hE' hfind' hd' hr'
  have hfree : ∀ n ∈ asked, W.exists (C ++ [n]) = false := by
    intro n hn
    obtain ⟨h1, h2⟩ := (k4 n).1 hn
    obtain ⟨_, s, _, h3, _⟩ := hbags n h1
    exact Supply.free h3 h2
  have hbags' : ∀ n ∈ names, GoodName n ∧ ∃ s, E'.find n = some s ∧ Supply W' archives (fun _ => none) cwd k C n s ∧ WfTree s.tree := by
    intro n hn
    obtain ⟨h1, s, h2, h3, h4⟩ := hbags n hn
    exact ⟨h1, s, by rw [hfind']; exact h2, supply_again k2 k4 hfree hout hapart hn h3, h4⟩
  obtain ⟨W'', asked', q1, q2, _, q4⟩ := own_run hc k2.wf hk hmake' hD' hroot' hx archives hC (f := f') (bags := fun _ => none)
    (fun n t W hn => by cases hn) hE' hH hms hnames k2.place hout' hapart' hbags' hd' hr'
  have hnil : asked' = [] := by
    rw [List.eq_nil_iff_forall_not_mem]
    intro n hn
    obtain ⟨h1, h2⟩ := (q4 n).1 hn
    obtain ⟨_, s, _, h3, _⟩ := hbags' n h1
    cases h3 with
    | unpacked hu => exact h2.1 hu
    | packed e t hu ha => exact h2.2 e ha
    | fetched t _ _ h => cases h
  subst hnil
  exact ⟨W'', q1, q2.dest, q2.contents, fun q hq => sameThing_of_dget (q2.rest q hq (by simp))⟩

/-- C119, the call: `restore_bag` with a function that fetches member bags and a directory of one's own for them does what
`restore_bag` does with these bags in a local directory: if the one call succeeds, so does the other; it returns the same
bag, and leaves the same on disk besides the bags that were fetched; these are just the member bags besides the head bag
that were not in the directory, each fetched once, and they stay there as they are. -/
theorem C119_local {cwd : Str} {wd : Path} (hc : AbsPath cwd wd) {W : Tree} (hW : WfTree W) {E : RestoreEnv} (hE : EnvOk E)
    {exts : List Str} (hx : ∀ e, e ∈ exts ↔ e ∈ serialized) (archives : Path → Option Tree) (dirs : Tree → List Path)
    {headbag dest : Str} {comp : Option Str} {b : RBag} {W1 : Tree}
    -- restoring from a local directory
    (hlocal : restoreBag E cwd exts archives dirs headbag (some dest) comp W = .ok (b, W1)) {c : Str}
    (hcomp : (comp = some c ∧ c ≠ [] ∧ W.exists (leadsTo wd c) = true) ∨ ((comp = none ∨ comp = some []) ∧ c = dirName (abspath cwd headbag)))
    (hnew : NewPlace W wd dest)
    -- the aggregation
    {H : RHead} (hhead : headAt cwd (diskPlaces cwd archives dirs W) E.base headbag = .ok H) (hH : WfTree H.tree)
    {ms : List MemberInfo} (hms : iterMembers H.mode H.tree H.info = .ok ms) {names : List Str}
    (hnames : BesidesHead (ms.map (fun m => m.name)) H.name names)
    -- the directory, the function for fetching, and the bags
    {k : Str} (hk : k ≠ []) {C : Path} (hC : leadsTo wd k = C) (hplace : W.isdir C = true) (hout : ¬ Inside (leadsTo wd dest) C)
    {f : Fetcher} {bags : Str → Option Tree} (hf : Delivers f bags k C)
    (hapart : ∀ n ∈ names, ∀ e ∈ [] :: serialized, ¬ Inside (C ++ [n ++ e]) (leadsTo wd dest))
    (hbags : ∀ n ∈ names, GoodName n ∧ W.isdir (leadsTo wd c ++ [n]) = true ∧ ¬ Inside (leadsTo wd c ++ [n]) (leadsTo wd dest) ∧
      ∃ s, Supply W archives bags cwd k C n s ∧ s.tree = W.below (leadsTo wd c ++ [n]) ∧
        ∀ x, openBag { E.base with bagpath := abspath cwd (pathJoin c n) } s.tree = .ok x →
          openBag { E.base with bagpath := s.path } s.tree = .ok x) :
    ∃ W2 asked, restoreBagFetching E cwd exts archives dirs headbag (some dest) (some k) (some f) W = .ok (b, W2, asked) ∧
      (∀ q, (∀ n ∈ asked, ¬ Inside (C ++ [n]) q) → SameThing W2 W1 q) ∧
      (∀ n ∈ asked, W2.isdir (C ++ [n]) = true ∧ W2.below (C ++ [n]) = W.below (leadsTo wd c ++ [n])) ∧
      asked.Nodup ∧ ∀ n, n ∈ asked ↔ n ∈ names ∧ Absent W C n := by
  have hlocal' := hlocal
  unfold restoreBag at hlocal
  simp only at hlocal
  cases hm : Restorer.make cwd W (isHeadFrom cwd (diskPlaces cwd archives dirs W) E.base) (.location headbag) (some dest) comp false with
  | error e => rw [hm] at hlocal; cases hlocal
  | ok r =>
    rw [hm, hhead] at hlocal
    simp only at hlocal
    obtain ⟨r', hm'⟩ := make_fetcher (comp' := some k) true hm
    obtain ⟨m1, _, m3⟩ := make_ok hm
    obtain ⟨_, _, m3'⟩ := make_ok hm'
    have hgd : given (some dest) = some dest := given_eq_some.2 ⟨rfl, hnew.given⟩
    have hdd : r.destdir = abspath cwd dest := by rw [m3]; simp only [hgd, Option.getD_some]
    have hdd' : r'.destdir = abspath cwd dest := by rw [m3']; simp only [hgd, Option.getD_some]
    have hcd : r.cachedir = c := by
      rw [m3]
      rcases hcomp with ⟨rfl, hne, _⟩ | ⟨h, rfl⟩
      · simp only [given_eq_some.2 ⟨rfl, hne⟩, Option.getD_some]
      · simp only [given_eq_none.2 h, Option.getD_none]; rfl
    have hcne : c ≠ [] := hcd ▸ cachedir_ne_nil hc hm
    have hdest : comps (abspath cwd r.destdir) = leadsTo wd dest := by rw [hdd, comps_abspath hc, leadsTo_abspath hc]
    have hD' : leadsTo wd r'.destdir = leadsTo wd dest := by rw [hdd', leadsTo_abspath hc]
    have hexD : diskExists cwd W r.destdir = false := by rw [diskExists, hdest]; exact hnew.free
    have hcex : W.exists (leadsTo wd c) = true := by
      rcases hcomp with ⟨_, _, h⟩ | ⟨_, rfl⟩
      · exact h
      · rw [leadsTo_dirName hc]
        have hx := (m1 headbag rfl).1
        rw [diskExists_eq hc] at hx
        by_cases hne : leadsTo wd headbag = []
        · rw [hne]; rfl
        · rw [exists_iff hne] at hx
          cases hv : dget W (leadsTo wd headbag) with
          | none => exact absurd hv hx
          | some v => exact exists_of_isdir (hW.parent _ (mem_dkeys_iff.2 ⟨v, hv⟩))
    have hcreate : r.createDest cwd W = .ok (dset W (leadsTo wd dest) .dir) := by
      unfold Restorer.createDest
      rw [hexD]
      simp only [Bool.false_eq_true, if_false, hdest]
      rw [show W.mkdir (leadsTo wd dest) = .ok (dset W (leadsTo wd dest) .dir) by unfold Tree.mkdir; rw [hnew.free, hnew.parent]; rfl]
      have : r.lacksCache cwd (dset W (leadsTo wd dest) .dir) = false := by
        unfold Restorer.lacksCache
        rw [diskExists_eq hc, hcd]
        have : Tree.exists (dset W (leadsTo wd dest) .dir) (leadsTo wd c) = true := by
          unfold Tree.exists at hcex ⊢
          rw [dget_dset]
          split
          · simp
          · exact hcex
        rw [this]; rfl
      simp only [this, Bool.false_eq_true, if_false]
    have hdir : Tree.isdir (dset W (leadsTo wd dest) .dir) (leadsTo wd dest) = true := isdir_iff.2 (.inr (by rw [dget_dset, if_pos rfl]))
    have hbelow : Tree.below (dset W (leadsTo wd dest) .dir) (leadsTo wd dest) = [] := by
      rw [below_dset_other (fun _ => rfl), below_free hW hnew.root hnew.free]
    rw [hexD] at hlocal
    simp only [Bool.false_eq_true, if_false, hcreate, hdest, hdir, Bool.not_true, hbelow] at hlocal
    cases hr : restore (E.into r.destdir (r.source exts cwd (dset W (leadsTo wd dest) .dir) archives)) H true true [] with
    | error e => rw [hr] at hlocal; cases hlocal
    | ok out =>
      rw [hr] at hlocal
      simp only at hlocal
      cases ho : openBag (E.into r.destdir (r.source exts cwd (dset W (leadsTo wd dest) .dir) archives)).base out with
      | error e => rw [ho] at hlocal; cases hlocal
      | ok b1 =>
        rw [ho] at hlocal
        cases hlocal
        have hfound : ∀ n ∈ names, (E.into r.destdir (r.source exts cwd (dset W (leadsTo wd dest) .dir) archives)).find n =
            some ⟨abspath cwd (pathJoin c n), W.below (leadsTo wd c ++ [n])⟩ := by
          intro n hn
          obtain ⟨g1, g2, g3, _⟩ := hbags n hn
          have hdn : Tree.isdir (dset W (leadsTo wd dest) .dir) (leadsTo wd c ++ [n]) = true := by
            rcases isdir_iff.1 g2 with e | e
            · simp at e
            · refine isdir_iff.2 (.inr ?_)
              rw [dget_dset, if_neg (fun (e : leadsTo wd dest = leadsTo wd c ++ [n]) => g3 (e ▸ List.prefix_refl _))]
              exact e
          have hfd : r.find exts cwd (dset W (leadsTo wd dest) .dir) n = some (pathJoin c n) := by
            unfold Restorer.find
            simp only [hcd]
            rw [diskIsdir_eq hc, leadsTo_join_name wd hcne g1, hdn]
            rfl
          show r.source exts cwd (dset W (leadsTo wd dest) .dir) archives n = _
          unfold Restorer.source
          rw [hfd]
          simp only
          rw [comps_abspath hc, leadsTo_join_name wd hcne g1, hdn, if_pos rfl, below_dset_other (fun x => absurd x g3)]
        have hsrc : ∀ n, ∃ s : Option RSource, (n ∈ names → ∃ s', s = some s' ∧ Supply W archives bags cwd k C n s' ∧ s'.tree = W.below (leadsTo wd c ++ [n]) ∧
            ∀ x, openBag { E.base with bagpath := abspath cwd (pathJoin c n) } s'.tree = .ok x →
              openBag { E.base with bagpath := s'.path } s'.tree = .ok x) := by
          intro n
          by_cases hn : n ∈ names
          · obtain ⟨_, _, _, s, g⟩ := hbags n hn
            exact ⟨some s, fun _ => ⟨s, rfl, g⟩⟩
          · exact ⟨none, fun h => absurd h hn⟩
        obtain ⟨find', hfind'⟩ := Classical.axiomOfChoice hsrc
        have hr2 := restore_opens (find' := find') hms (by
          rw [others_of hnames]
          intro n hn
          have hn := List.mem_reverse.1 hn
          obtain ⟨g1, g2, g3, _⟩ := hbags n hn
          obtain ⟨s, g4, g5, g6, g7⟩ := hfind' n hn
          refine ⟨_, s, hfound n hn, g4, g6, ?_, ?_, fun x hx => ?_⟩
          · intro e
            have e : abspath cwd (pathJoin c n) = r.destdir := e
            have := congrArg (leadsTo wd) e
            rw [leadsTo_abspath hc, leadsTo_join_name wd hcne g1, hdd, leadsTo_abspath hc] at this
            exact g3 (this ▸ List.prefix_refl _)
          · intro e
            have e : s.path = r.destdir := e
            have e := congrArg (leadsTo wd) e
            rw [hdd, leadsTo_abspath hc] at e
            have hp : ∃ x ∈ [] :: serialized, leadsTo wd s.path = C ++ [n ++ x] := by
              cases g5 with
              | unpacked _ => exact ⟨[], List.mem_cons_self, by rw [leadsTo_abspath hc, leadsTo_join_name wd hk g1, hC, List.append_nil]⟩
              | packed x _ _ ha => exact ⟨x, List.mem_cons_of_mem _ ha.1, by
                  rw [leadsTo_abspath hc, (find_file (r := { r with cachedir := k }) (disk := W) hc hk g1 ha.1).1, hC]⟩
              | fetched _ _ => exact ⟨[], List.mem_cons_self, by rw [leadsTo_abspath hc, leadsTo_join_name wd hk g1, hC, List.append_nil]⟩
            obtain ⟨x, hx1, hx2⟩ := hp
            exact hapart n hn x hx1 (by rw [← e, hx2]; exact List.prefix_refl _)
          · have hx : openBag { E.base with bagpath := abspath cwd (pathJoin c n) } (W.below (leadsTo wd c ++ [n])) = .ok x := hx
            rw [← g6] at hx
            have := g7 x hx
            rw [g6] at this
            exact this) hr
        obtain ⟨W2, asked, k1, k2, k3, k4⟩ := own_run hc hW hk hm' hD' hnew.root hx archives hC hf
          (E := { E.into r.destdir (r.source exts cwd (dset W (leadsTo wd dest) .dir) archives) with find := find' }) ⟨hE.walk, hE.algs⟩ hH hms hnames
          hplace hout hapart (fun n hn => by
            obtain ⟨g1, g2, g3, _⟩ := hbags n hn
            obtain ⟨s, g4, g5, g6, g7⟩ := hfind' n hn
            exact ⟨g1, s, g4, g5, by rw [g6]; exact wf_below hW (by simp) g2⟩) (.inl ⟨hnew.free, rfl⟩) hr2
        refine ⟨W2, asked, ?_, ?_, ?_, k3, k4⟩
        · unfold restoreBagFetching
          simp only [Option.isSome_some, hm', hhead]
          have e1 : FetchSite.restore { exts, fetcher := some f, cwd, archives } { E with base := { E.base with bagpath := r'.destdir } } r' H true true W =
              .ok (W2, asked) := by
            rw [← k1, hdd', hdd]
            exact (FetchSite.restore_find _ _ _ _ _ _ _ _).symm
          rw [e1]
          simp only [FetchSite.destPath]
          rw [hdd', ← hdd, hdest, k2.contents]
          have ho : openBag { E.base with bagpath := r.destdir } out = .ok b := ho
          rw [ho]
        · intro q hqn
          by_cases hq : leadsTo wd dest <+: q
          · apply sameThing_of_dget
            obtain ⟨s, rfl⟩ := hq
            by_cases hs : s = []
            · subst hs
              rw [List.append_nil]
              have a1 := (isdir_iff.1 k2.dest).resolve_left hnew.root
              have a2 := (isdir_iff.1 (isdir_withBelow_self _ out hdir)).resolve_left hnew.root
              rw [a1, a2]
            · rw [dget_withBelow _ _ _ hs, ← k2.contents, dget_below hs]
          · apply sameThing_of_dget
            rw [k2.rest q hq hqn, dget_withBelow_other _ _ hq, dget_dset, if_neg (fun (e : leadsTo wd dest = q) => hq (e ▸ List.prefix_refl _))]
        · intro n hn
          obtain ⟨h1, h2⟩ := k2.have_ n hn
          refine ⟨h1, ?_⟩
          obtain ⟨h3, h4⟩ := (k4 n).1 hn
          obtain ⟨_, _, _, s, g5, g6, _⟩ := hbags n h3
          cases g5 with
          | unpacked hu => exact absurd hu h4.1
          | packed e t hu ha => exact absurd ha (h4.2 e)
          | fetched t _ _ ht =>
            rw [ht] at h2
            injection h2 with h2
            exact h2.symm.trans g6

/-! ## Samples -/

namespace Sample

/-- The sample world with a directory for fetched bags. -/
def cacheWorld : Tree := storeWorld ++ [([py!"cache"], .dir)]

theorem m1_absent : Absent cacheWorld [py!"cache"] py!"m1" := by
  refine ⟨by unfold HasUnpacked; decide +kernel, fun e he => ?_⟩
  obtain ⟨h1, h2⟩ := he
  have : ∀ e ∈ serialized, cacheWorld.isfile ([py!"cache"] ++ [py!"m1" ++ e]) = false := by decide +kernel
  rw [this e h1] at h2
  cases h2

theorem m1_supply (cwd : Str) : Supply cacheWorld (fun _ => none) m1Bags cwd py!"/cache" [py!"cache"] py!"m1"
    ⟨abspath cwd (pathJoin py!"/cache" py!"m1"), m1⟩ :=
  .fetched m1 m1_absent (by decide +kernel) rfl

theorem m1_apart : ∀ n ∈ [py!"m1"], ∀ e ∈ [] :: serialized, ¬ Inside ([py!"cache"] ++ [n ++ e]) [py!"home", py!"out"] := by decide

theorem m1_delivers : Delivers (bring m1Bags) m1Bags py!"/cache" [py!"cache"] :=
  bring_delivers m1Bags_good (by decide) (fun c hc => by
    rw [List.mem_singleton] at hc
    subst hc
    exact goodName_of_check (by decide))

/-- The restorers for the sample's head bag with this directory. -/
def ownRestorer (dest : Str) : Restorer where
  headPath := py!"/store/hb"
  inplace := false
  destdir := dest
  cachedir := py!"/cache"

def renvOwn (dest : Str) : RestoreEnv :=
  { renv with
    base := { renv.base with bagpath := dest }
    find := fun n => (m1Bags n).map (fun t => ⟨abspath py!"/home" (pathJoin py!"/cache" n), t⟩) }

end Sample

/-- The hypotheses of `C119_local` are met: the sample's member bag is fetched and kept. -/
example : ∃ b W1 W2 asked, restoreBag Sample.renv py!"/home" serialized (fun _ => none) (fun _ => []) py!"../store/hb" (some py!"out") none Sample.cacheWorld = .ok (b, W1) ∧
    restoreBagFetching Sample.renv py!"/home" serialized (fun _ => none) (fun _ => []) py!"../store/hb" (some py!"out") (some py!"/cache") (some (bring Sample.m1Bags))
      Sample.cacheWorld = .ok (b, W2, asked) ∧ (∀ q, (∀ n ∈ asked, ¬ Inside ([py!"cache"] ++ [n]) q) → SameThing W2 W1 q) ∧
    W2.below [py!"cache", py!"m1"] = Sample.m1 ∧ asked = [py!"m1"] := by
  obtain ⟨x, hx, _⟩ := Sample.ok_of_check (f := fun _ => true)
    (r := restoreBag Sample.renv py!"/home" serialized (fun _ => none) (fun _ => []) py!"../store/hb" (some py!"out") none Sample.cacheWorld) (by decide +kernel)
  obtain ⟨b, W1⟩ := x
  have hm1 : Sample.cacheWorld.below [py!"store", py!"m1"] = Sample.m1 := by decide +kernel
  have hlead : leadsTo [py!"home"] py!"out" = [py!"home", py!"out"] := by decide
  obtain ⟨W2, asked, h1, h2, h3, h4, h5⟩ := C119_local Sample.home_abs (Sample.wf_of_check (by decide +kernel)) Sample.renv_ok (fun _ => Iff.rfl) (fun _ => none) (fun _ => []) hx
    (c := py!"/store") (.inr ⟨.inl rfl, rfl⟩) ⟨by decide, by decide, by decide, by decide +kernel, by decide +kernel⟩
    (H := Sample.head) (by decide +kernel) (Sample.wf_of_check (by decide))
    (ms := [⟨py!"m1", none, none, []⟩, ⟨py!"hb", none, none, []⟩]) rfl (names := [py!"m1"]) (.inl rfl)
    (k := py!"/cache") (by decide) (C := [py!"cache"]) (by decide) (by decide +kernel) (by rw [hlead]; decide)
    (f := bring Sample.m1Bags) (bags := Sample.m1Bags) Sample.m1_delivers (by rw [hlead]; exact Sample.m1_apart)
    (by
      intro n hn
      rw [List.mem_singleton] at hn
      subst hn
      have e : leadsTo [py!"home"] py!"/store" ++ [py!"m1"] = [py!"store", py!"m1"] := by decide
      rw [e, hm1, hlead]
      refine ⟨Sample.goodName_of_check (by decide), by decide +kernel, by decide, _, Sample.m1_supply _, rfl, ?_⟩
      intro x hx
      rw [← hx]
      decide +kernel)
  have hin : py!"m1" ∈ asked := (h5 _).2 ⟨by simp, Sample.m1_absent⟩
  refine ⟨b, W1, W2, asked, hx, h1, h2, ?_, ?_⟩
  · rw [← hm1]; exact (h3 _ hin).2
  · match asked, h4, h5, hin with
    | [x], _, h5, _ => rw [List.mem_singleton.1 ((h5 x).1 List.mem_cons_self).1]
    | x :: y :: l, h4, h5, _ =>
      have e1 := List.mem_singleton.1 ((h5 x).1 List.mem_cons_self).1
      have e2 := List.mem_singleton.1 ((h5 y).1 (List.mem_cons_of_mem _ List.mem_cons_self)).1
      rw [e1, e2] at h4
      simp at h4

/-- The hypotheses of `C119_again` are met: the sample is restored twice, the second time with a function for fetching that
always fails. -/
example : ∃ W' W'' asked out, FetchSite.restore { exts := serialized, fetcher := some (bring Sample.m1Bags), cwd := py!"/home", archives := fun _ => none }
      (Sample.renvOwn py!"/home/out") (Sample.ownRestorer py!"/home/out") Sample.head true true Sample.cacheWorld = .ok (W', asked) ∧
    FetchSite.restore { exts := serialized, fetcher := some (fun _ _ _ => .error .osError), cwd := py!"/home", archives := fun _ => none }
      (Sample.renvOwn py!"/home/more") (Sample.ownRestorer py!"/home/more") Sample.head true true W' = .ok (W'', []) ∧
    W''.below [py!"home", py!"more"] = out ∧ out.read [py!"data", py!"b"] = some py!"bb" := by
  obtain ⟨out, hx, _⟩ := Sample.ok_of_check (f := fun _ => true)
    (r := restore (Sample.renvOwn py!"/home/out") Sample.head true true []) (by decide +kernel)
  obtain ⟨out', hy, hb⟩ := Sample.ok_of_check (f := fun x => x.read [py!"data", py!"b"] = some py!"bb")
    (r := restore (Sample.renvOwn py!"/home/more") Sample.head true true []) (by decide +kernel)
  obtain ⟨W1, asked, h1, h2⟩ := C119_again Sample.home_abs (W := Sample.cacheWorld) (Sample.wf_of_check (by decide +kernel))
    (isHead := fun _ => .ok true) (head := .location py!"/store/hb") (dest := some py!"/home/out") (k := py!"/cache") (by decide)
    (r := Sample.ownRestorer py!"/home/out") (by decide +kernel) (D := [py!"home", py!"out"]) (by decide) (by simp)
    (exts := serialized) (fun _ => Iff.rfl) (fun _ => none) (C := [py!"cache"]) (by decide) Sample.m1_delivers
    (E := Sample.renvOwn py!"/home/out") ⟨Sample.renv_ok.walk, Sample.renv_ok.algs⟩
    (H := Sample.head) (Sample.wf_of_check (by decide))
    (ms := [⟨py!"m1", none, none, []⟩, ⟨py!"hb", none, none, []⟩]) rfl (names := [py!"m1"]) (.inl rfl)
    (by decide +kernel) (by decide) Sample.m1_apart
    (by
      intro n hn
      rw [List.mem_singleton] at hn
      subst hn
      exact ⟨Sample.goodName_of_check (by decide), _, rfl, Sample.m1_supply _, Sample.wf_of_check (by decide)⟩)
    (.inl ⟨by decide +kernel, rfl⟩) hx
  obtain ⟨x, hz, hc⟩ := Sample.ok_of_check
    (f := fun x => decide (Restorer.make py!"/home" x.1 (fun _ => .ok true) (.location py!"/store/hb") (some py!"/home/more") (some py!"/cache") true =
      .ok (Sample.ownRestorer py!"/home/more")) && !x.1.exists [py!"home", py!"more"])
    (r := FetchSite.restore { exts := serialized, fetcher := some (bring Sample.m1Bags), cwd := py!"/home", archives := fun _ => none }
      (Sample.renvOwn py!"/home/out") (Sample.ownRestorer py!"/home/out") Sample.head true true Sample.cacheWorld) (by decide +kernel)
  rw [h1] at hz
  cases hz
  simp only [Bool.and_eq_true, decide_eq_true_eq, Bool.not_eq_true'] at hc
  obtain ⟨W2, h3, _, h4, _⟩ := h2 (D' := [py!"home", py!"more"]) (E' := Sample.renvOwn py!"/home/more") (fun _ _ _ => .error .osError) hc.1 (by decide) (by simp)
    (by decide) (by decide) ⟨Sample.renv_ok.walk, Sample.renv_ok.algs⟩ rfl (.inl ⟨hc.2, rfl⟩) hy
  exact ⟨W1, W2, asked, out', h1, h3, h4, by simpa using hb⟩

end Verif
