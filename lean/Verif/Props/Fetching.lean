import Verif.Lemmas.FetchRun
import Verif.Props.RestoreCall
/-!
# C111: restoring with a function that fetches member bags
-/

namespace Verif

open Spec

theorem others_of {H : RHead} {listed names : List Str} (h : BesidesHead listed H.name names) :
    otherMembers H listed = names.reverse := by
  rcases h with rfl | ⟨rfl, h⟩
  · exact otherMembers_head
  · exact otherMembers_all h

theorem clearBag_of {t : Tree} (h : FreeOfCache t) : ClearBag t := ⟨h.1, h.2⟩

/-- Nothing is below a place where there is nothing. -/
theorem free_below {W : Tree} (hW : WfTree W) {D : Path} (hD : D ≠ []) (hf : W.exists D = false) (p : Path) : dget W (D ++ p) = none := by
  cases hg : dget W (D ++ p) with
  | none => rfl
  | some v =>
    exfalso
    have := wf_prefix hW (p := D ++ p) (q := D) (by rw [hg]; rfl) (List.prefix_append _ _) hD
    unfold Tree.exists at hf
    rw [this] at hf
    simp at hf

theorem below_free {W : Tree} (hW : WfTree W) {D : Path} (hD : D ≠ []) (hf : W.exists D = false) : W.below D = [] :=
  below_nil (fun q _ => free_below hW hD hf q) (fun k hk => by
    obtain ⟨v, hv⟩ := mem_dkeys_iff.1 hk
    rw [hv]; rfl)

/-- A new destination with the directory for fetched bags. -/
theorem fetched_fresh {W : Tree} (hW : WfTree W) (bags : Str → Option Tree) {D : Path} (hD : GoodPath D) (hf : W.exists D = false)
    (hpar : W.isdir D.dropLast = true) :
    Fetched W bags D [] [] (dset (dset (dset W D .dir) (D ++ mbDir) .dir) (D ++ cacheRel) .dir) := by
  have hgm : GoodPath (D ++ mbDir) := ⟨by simp [mbDir], fun c hc => by
    rcases List.mem_append.1 hc with hc | hc
    · exact hD.2 c hc
    · simp only [mbDir, List.mem_singleton] at hc; subst hc; exact goodName_mb⟩
  have hgc : GoodPath (D ++ cacheRel) := ⟨by simp [cacheRel], fun c hc => by
    rcases List.mem_append.1 hc with hc | hc
    · exact hD.2 c hc
    · simp only [cacheRel, List.mem_cons, List.not_mem_nil, or_false] at hc
      rcases hc with rfl | rfl
      · exact goodName_mb
      · exact goodName_cache⟩
  have n1 : D ++ mbDir ≠ D := by simp [mbDir]
  have n2 : D ++ cacheRel ≠ D := by simp [cacheRel]
  have n3 : D ++ cacheRel ≠ D ++ mbDir := by simp [mbDir, cacheRel]
  have d1 : (D ++ mbDir).dropLast = D := by unfold mbDir; rw [List.dropLast_concat]
  have d2 : (D ++ cacheRel).dropLast = D ++ mbDir := by
    rw [show D ++ cacheRel = (D ++ mbDir) ++ [py!"_membercache"] by simp [mbDir, cacheRel], List.dropLast_concat]
  have w1 : WfTree (dset W D .dir) := wf_dset hW hD hpar (.inr rfl)
  have w2 : WfTree (dset (dset W D .dir) (D ++ mbDir) .dir) :=
    wf_dset w1 hgm (by rw [d1]; exact isdir_iff.2 (.inr (by rw [dget_dset, if_pos rfl]))) (.inr rfl)
  have w3 : WfTree (dset (dset (dset W D .dir) (D ++ mbDir) .dir) (D ++ cacheRel) .dir) :=
    wf_dset w2 hgc (by rw [d2]; exact isdir_iff.2 (.inr (by rw [dget_dset, if_pos rfl]))) (.inr rfl)
  have hb : Tree.below (dset (dset (dset W D .dir) (D ++ mbDir) .dir) (D ++ cacheRel) .dir) D =
      [(mbDir, .dir), (cacheRel, .dir)] := by
    rw [below_dset (by simp [cacheRel]), below_dset (by simp [mbDir]), below_dset_other (fun _ => rfl), below_free hW hD.1 hf]
    rfl
  refine ⟨w3, ?_, ?_, by simp, ?_, .inr (by rw [dget_dset, if_pos rfl]), ?_⟩
  · refine isdir_iff.2 (.inr ?_)
    rw [dget_dset, if_neg n2, dget_dset, if_neg n1, dget_dset, if_pos rfl]
  · rw [hb]
    refine ⟨rfl, ?_, fun _ _ => rfl, rfl⟩
    intro p hp hc
    by_cases e : p = mbDir
    · subst e; exact .inr ⟨rfl, rfl, rfl⟩
    · left
      simp only [dget]
      rw [if_neg (fun x => e x.symm), if_neg (fun (x : cacheRel = p) => hc (x ▸ List.prefix_refl _))]
  · intro n _
    have x1 : D ++ cacheRel ≠ D ++ cacheRel ++ [n] := fun e => by simpa using congrArg List.length e
    have x2 : D ++ mbDir ≠ D ++ cacheRel ++ [n] := fun e => by simpa [mbDir, cacheRel] using congrArg List.length e
    have x3 : D ≠ D ++ cacheRel ++ [n] := fun e => by have := congrArg List.length e; simp only [List.length_append, List.length_cons] at this; omega
    rw [dget_dset, if_neg x1, dget_dset, if_neg x2, dget_dset, if_neg x3, List.append_assoc]
    exact free_below hW hD.1 hf _
  · intro q hq
    rw [dget_dset, if_neg (fun (e : D ++ cacheRel = q) => hq (e ▸ List.prefix_append _ _)),
      dget_dset, if_neg (fun (e : D ++ mbDir = q) => hq (e ▸ List.prefix_append _ _)),
      dget_dset, if_neg (fun (e : D = q) => hq (e ▸ List.prefix_refl _))]

/-- An existing destination, which has a directory with multibag tag files. -/
theorem fetched_there {W : Tree} (hW : WfTree W) (bags : Str → Option Tree) {D : Path} (hd : W.isdir D = true)
    (hmb : W.isdir (D ++ mbDir) = true) (hcache : W.exists (D ++ cacheRel) = false) : Fetched W bags D [] (W.below D) W := by
  have hfree : ∀ p, dget W (D ++ cacheRel ++ p) = none := free_below hW (by simp [cacheRel]) hcache
  refine ⟨hW, hd, ⟨rfl, fun _ _ _ => .inl rfl, ?_, ?_⟩, by simp, fun n _ => hfree [n], .inl (by simpa using hfree []), fun _ _ => rfl⟩
  · rintro p ⟨s, rfl⟩
    rw [dget_below (by simp [cacheRel]), ← List.append_assoc]
    exact hfree s
  · rw [dget_below (by simp [mbDir])]
    rcases isdir_iff.1 hmb with e | e
    · simp [mbDir] at e
    · exact e

theorem join_prefix {a c : Str} (hc : GoodName c) : a <+: pathJoin a c := by
  rcases join_cases (a := a) hc with ⟨h, _⟩ | ⟨h, _⟩
  · rw [h]; exact List.prefix_append _ _
  · rw [h]; exact List.prefix_append _ _

/-- C111: restoring with a function that fetches member bags into the default place, into a new directory, or into an
existing one with multibag tag files, like that of the head bag.  If restoring succeeds with the bags at hand, it succeeds;
the function is called once for each member bag besides the head bag and for nothing else; the bag that is made is the same,
file by file - none of what was fetched is left in it; and nothing outside its directory is changed. -/
theorem C111_same {cwd : Str} {wd : Path} (hc : AbsPath cwd wd) {W : Tree} (hW : WfTree W)
    {isHead : Str → Except PyErr Bool} {head : HeadArg} {dest comp : Option Str} (hcomp : comp = none ∨ comp = some []) {r : Restorer}
    (hmake : Restorer.make cwd W isHead head dest comp true = .ok r) {D : Path} (hD : leadsTo wd r.destdir = D) (hroot : D ≠ [])
    {exts : List Str} (hx : ∀ e, e ∈ exts ↔ e ∈ serialized) (archives : Path → Option Tree)
    {f : Fetcher} {bags : Str → Option Tree} (hf : Delivers f bags r.cachedir (D ++ [py!"multibag", py!"_membercache"]))
    {E : RestoreEnv} (hE : EnvOk E) (hfind : ∀ n, E.find n = (bags n).map (fun t => ⟨abspath cwd (pathJoin r.cachedir n), t⟩))
    {H : RHead} (hH : WfTree H.tree) (hHc : FreeOfCache H.tree)
    {ms : List MemberInfo} (hms : iterMembers H.mode H.tree H.info = .ok ms) {names : List Str}
    (hnames : BesidesHead (ms.map (fun m => m.name)) H.name names)
    (hbags : ∀ n ∈ names, GoodName n ∧ ∃ t, bags n = some t ∧ WfTree t ∧ FreeOfCache t)
    {d : Tree} (hd : (W.exists D = false ∧ d = []) ∨
      (W.isdir D = true ∧ W.isdir (D ++ [py!"multibag"]) = true ∧
        W.exists (D ++ [py!"multibag", py!"_membercache"]) = false ∧ d = W.below D))
    {us : Bool} {out : Tree} (hr : restore E H us true d = .ok out) :
    ∃ W' asked, FetchSite.restore { exts, fetcher := some f, cwd, archives } E r H us true W = .ok (W', asked) ∧
      W'.isdir D = true ∧ W'.below D = out ∧ WfTree W' ∧ (∀ q, ¬ Inside D q → SameThing W' W q) ∧
      asked.Nodup ∧ ∀ n, n ∈ asked ↔ n ∈ names := by
  have hset := C97_setup hc hmake
  have hcache := hset.2.2.2.2.2.2 hcomp rfl
  rw [hD] at hcache
  have hne := cachedir_ne_nil hc hmake
  obtain ⟨_, hparent, hreq⟩ := make_ok hmake
  have hdd : r.destdir = abspath cwd ((given dest).getD head.path) := by rw [hreq]
  have hcd : r.cachedir = pathJoin (pathJoin r.destdir py!"multibag") py!"_membercache" := by
    rw [hreq, given_eq_none.2 hcomp]
    rfl
  have hset : FetchSetting { exts, fetcher := some f, cwd, archives } r wd D f bags := by
    refine ⟨hc, hx, rfl, hD, hcache, hne, ?_, hf⟩
    rw [startsWith_iff, hcd]
    exact (join_prefix goodName_mb).trans (join_prefix goodName_cache)
  have hclean := hset.clean
  have hothers := others_of hnames
  have hfb : FetchableBags bags (otherMembers H (ms.map (fun m => m.name))) := by
    rw [hothers]
    intro n hn
    obtain ⟨h1, t, h2, h3, h4⟩ := hbags n (List.mem_reverse.1 hn)
    exact ⟨h1, t, h2, h3, clearBag_of h4⟩
  have hwd : WfTree d := by
    rcases hd with ⟨_, rfl⟩ | ⟨h1, _, _, rfl⟩
    · exact ⟨by simp [dkeys], by simp [dkeys], by simp [dkeys]⟩
    · exact wf_below hW hroot h1
  have hout : WfTree out := by
    have hsrc : ∀ l : List Str, (∀ n ∈ l, n ∈ otherMembers H (ms.map (fun m => m.name))) →
        ∃ srcs : List RSource, Forall₂ (fun n s => E.find n = some s) l srcs ∧ ∀ s ∈ srcs, WfTree s.tree := by
      intro l
      induction l with
      | nil => exact fun _ => ⟨[], .nil, by simp⟩
      | cons n l ih =>
        intro hl
        obtain ⟨srcs, h1, h2⟩ := ih (fun m hm => hl m (List.mem_cons_of_mem _ hm))
        obtain ⟨_, t, h3, h4, _⟩ := hfb n (hl n List.mem_cons_self)
        refine ⟨⟨abspath cwd (pathJoin r.cachedir n), t⟩ :: srcs, .cons (by rw [hfind, h3]; rfl) h1, ?_⟩
        intro s hs
        rcases List.mem_cons.1 hs with rfl | hs
        · exact h4
        · exact h2 s hs
    obtain ⟨srcs, h1, h2⟩ := hsrc _ (fun _ h => h)
    exact wf_restore hE hr hms h1 hH h2 hwd
  have hdex : diskExists cwd W r.destdir = W.exists D := by
    unfold diskExists
    rw [comps_abspath hc, hD]
  have hstart : ∃ W1, (if diskExists cwd W r.destdir then .ok W else r.createDest cwd W) = .ok W1 ∧ Fetched W bags D [] d W1 := by
    rw [hdex]
    rcases hd with ⟨h1, rfl⟩ | ⟨h1, h2, h3, rfl⟩
    · have hgD : GoodPath D := ⟨hroot, hclean⟩
      have hpar : W.isdir D.dropLast = true := by
        rw [← hdd, diskIsdir_eq hc, hdd, leadsTo_dirName hc, ← leadsTo_abspath hc, ← hdd, hD] at hparent
        exact hparent
      rw [h1]
      refine ⟨_, ?_, fetched_fresh hW bags hgD h1 hpar⟩
      have hmk : W.mkdir D = .ok (dset W D .dir) := by unfold Tree.mkdir; rw [h1, hpar]; rfl
      have w1 : WfTree (dset W D .dir) := wf_dset hW hgD hpar (.inr rfl)
      have hdir1 : Tree.isdir (dset W D .dir) D = true := isdir_iff.2 (.inr (by rw [dget_dset, if_pos rfl]))
      have hnone : ∀ p, p ≠ [] → dget (dset W D .dir) (D ++ p) = none := by
        intro p hp
        rw [dget_dset, if_neg (fun (e : D = D ++ p) => hp (by simpa using e))]
        exact free_below hW hroot h1 p
      have hnone2 : dget (dset (dset W D .dir) (D ++ mbDir) .dir) (D ++ cacheRel) = none := by
        rw [dget_dset, if_neg (by simp [mbDir, cacheRel])]
        exact hnone _ (by simp [cacheRel])
      have hlack : r.lacksCache cwd (dset W D .dir) = true := by
        unfold Restorer.lacksCache diskExists
        rw [comps_abspath hc, hcache, hset.inside]
        unfold Tree.exists
        rw [show D ++ [py!"multibag", py!"_membercache"] = D ++ cacheRel from rfl, hnone cacheRel (by simp [cacheRel])]
        simp [cacheRel]
      unfold Restorer.createDest
      rw [hdex, h1]
      simp only [Bool.false_eq_true, if_false]
      rw [comps_abspath hc, hD, hmk]
      simp only
      rw [hlack, if_pos rfl, comps_abspath hc, hcache, makedirs_at w1 hdir1]
      simp only [Tree.makedirsFrom]
      have e1 : D ++ [py!"multibag"] = D ++ mbDir := rfl
      have e2 : D ++ mbDir ++ [py!"_membercache"] = D ++ cacheRel := by simp [mbDir, cacheRel]
      have m1 : Tree.isdir (dset W D .dir) (D ++ mbDir) = false := by
        unfold Tree.isdir; rw [hnone mbDir (by simp [mbDir])]; simp [mbDir]
      have m2 : Tree.mkdir (dset W D .dir) (D ++ mbDir) = .ok (dset (dset W D .dir) (D ++ mbDir) .dir) := by
        unfold Tree.mkdir Tree.exists
        rw [hnone mbDir (by simp [mbDir])]
        rw [show (D ++ mbDir).dropLast = D by unfold mbDir; rw [List.dropLast_concat], hdir1]
        simp [mbDir]
      have m3 : Tree.isdir (dset (dset W D .dir) (D ++ mbDir) .dir) (D ++ cacheRel) = false := by
        unfold Tree.isdir; rw [hnone2]; simp [cacheRel]
      have m4 : Tree.mkdir (dset (dset W D .dir) (D ++ mbDir) .dir) (D ++ cacheRel) =
          .ok (dset (dset (dset W D .dir) (D ++ mbDir) .dir) (D ++ cacheRel) .dir) := by
        unfold Tree.mkdir Tree.exists
        rw [hnone2, ← e2, List.dropLast_concat, show Tree.isdir (dset (dset W D .dir) (D ++ mbDir) .dir) (D ++ mbDir) = true from
          isdir_iff.2 (.inr (by rw [dget_dset, if_pos rfl]))]
        simp
      rw [e1, m1]
      simp only [Bool.false_eq_true, if_false, m2, e2, m3, m4]
    · rw [exists_of_isdir h1]
      exact ⟨W, rfl, fetched_there hW bags h1 h2 h3⟩
  obtain ⟨W1, s1, s2⟩ := hstart
  obtain ⟨W', asked, k1, k2, k3, k4, k5, k6, k7⟩ := hset.run hroot hE hfind hH (clearBag_of hHc) hms hfb s1 s2 hr hout
  refine ⟨W', asked, k1, k2, k3, k4, fun q hq => sameThing_of_dget (k5 q hq), k6, fun n => ?_⟩
  rw [k7, hothers, List.mem_reverse]

/-! ## The call -/

theorem abspath_ne_nil' {cwd : Str} {wd : Path} (hc : AbsPath cwd wd) (p : Str) : abspath cwd p ≠ [] := by
  obtain ⟨k, hk, e⟩ := abspath_shape hc p
  rw [e]
  intro e'
  have := (List.append_eq_nil_iff.1 e').1
  rw [List.replicate_eq_nil_iff] at this
  omega

/-- The bags a restore reads may be elsewhere, if they are read alike there. -/
theorem restoreMembers_opens {E : RestoreEnv} {find' : Str → Option RSource} {skip : List Str} {names : List Str}
    (h : ∀ n ∈ names, ∃ s s', E.find n = some s ∧ find' n = some s' ∧ s'.tree = s.tree ∧ s.path ≠ E.base.bagpath ∧ s'.path ≠ E.base.bagpath ∧
      ∀ x, openBag { E.base with bagpath := s.path } s.tree = .ok x → openBag { E.base with bagpath := s'.path } s.tree = .ok x)
    {d out : Tree} (hr : restoreMembers E skip names d = .ok out) : restoreMembers { E with find := find' } skip names d = .ok out := by
  induction names generalizing d with
  | nil => exact hr
  | cons n l ih =>
    obtain ⟨s, s', h1, h2, h3, h4, h5, h6⟩ := h n List.mem_cons_self
    unfold restoreMembers at hr ⊢
    unfold restoreMember at hr ⊢
    rw [h1] at hr
    simp only [h2]
    simp only at hr
    unfold restoreFrom at hr ⊢
    rw [if_neg h4] at hr
    simp only [if_neg h5, h3]
    cases ho : openBag { E.base with bagpath := s.path } s.tree with
    | error e => rw [ho] at hr; cases hr
    | ok x =>
      rw [ho] at hr
      rw [h6 x ho]
      simp only at hr ⊢
      cases ha : runActs false s.tree (actsOf skip (E.walk s.tree)) { dest := d, updated := [] } with
      | error e => rw [ha] at hr; cases hr
      | ok st =>
        rw [ha] at hr
        simp only at hr ⊢
        cases hu : (if st.updated = [] then .ok st.dest else updateManifests E.base x.entries st.updated st.dest : Except PyErr Tree) with
        | error e => rw [hu] at hr; cases hr
        | ok d1 =>
          rw [hu] at hr
          simp only at hr ⊢
          exact ih (fun m hm => h m (List.mem_cons_of_mem _ hm)) hr

theorem collectFetch_opens {E : RestoreEnv} {find' : Str → Option RSource} {names : List Str}
    (h : ∀ n ∈ names, ∃ s s', E.find n = some s ∧ find' n = some s' ∧ s'.tree = s.tree ∧ s.path ≠ E.base.bagpath ∧ s'.path ≠ E.base.bagpath ∧
      ∀ x, openBag { E.base with bagpath := s.path } s.tree = .ok x → openBag { E.base with bagpath := s'.path } s.tree = .ok x)
    {a out : List (Str × Str)} (hr : collectFetch E names a = .ok out) : collectFetch { E with find := find' } names a = .ok out := by
  induction names generalizing a with
  | nil => exact hr
  | cons n l ih =>
    obtain ⟨s, s', h1, h2, h3, _, _, h6⟩ := h n List.mem_cons_self
    unfold collectFetch at hr ⊢
    rw [h1] at hr
    simp only [h2, h3]
    simp only at hr
    cases ho : openBag { E.base with bagpath := s.path } s.tree with
    | error e => rw [ho] at hr; cases hr
    | ok x =>
      rw [ho] at hr
      rw [h6 x ho]
      exact ih (fun m hm => h m (List.mem_cons_of_mem _ hm)) hr

theorem restore_opens {E : RestoreEnv} {find' : Str → Option RSource} {H : RHead} {ms : List MemberInfo}
    (hms : iterMembers H.mode H.tree H.info = .ok ms)
    (h : ∀ n ∈ otherMembers H (ms.map (fun m => m.name)), ∃ s s', E.find n = some s ∧ find' n = some s' ∧ s'.tree = s.tree ∧
      s.path ≠ E.base.bagpath ∧ s'.path ≠ E.base.bagpath ∧
      ∀ x, openBag { E.base with bagpath := s.path } s.tree = .ok x → openBag { E.base with bagpath := s'.path } s.tree = .ok x)
    {us rm : Bool} {d out : Tree} (hr : restore E H us rm d = .ok out) : restore { E with find := find' } H us rm d = .ok out := by
  unfold restore at hr ⊢
  cases hd : iterDeleted H.mode H.tree H.info with
  | error e => rw [hd] at hr; cases hr
  | ok del =>
    rw [hd, hms] at hr
    rw [hms]
    simp only at hr ⊢
    have e1 : startRestore { E with find := find' } H (pySet del) d = startRestore E H (pySet del) d := rfl
    rw [e1]
    cases hs : startRestore E H (pySet del) d with
    | error e => rw [hs] at hr; cases hr
    | ok d1 =>
      rw [hs] at hr
      simp only at hr ⊢
      cases hm : restoreMembers E (pySet del) (otherMembers H (ms.map (fun m => m.name))) d1 with
      | error e => rw [hm] at hr; cases hr
      | ok d2 =>
        rw [hm] at hr
        rw [restoreMembers_opens h hm]
        simp only at hr ⊢
        have e2 : ∀ y, (if otherMembers H (ms.map (fun m => m.name)) = [] then .ok d2
            else restoreFetch E (otherMembers H (ms.map (fun m => m.name))) d2 : Except PyErr Tree) = .ok y →
            (if otherMembers H (ms.map (fun m => m.name)) = [] then .ok d2
            else restoreFetch { E with find := find' } (otherMembers H (ms.map (fun m => m.name))) d2 : Except PyErr Tree) = .ok y := by
          intro y hy
          by_cases ho : otherMembers H (ms.map (fun m => m.name)) = []
          · rw [if_pos ho] at hy ⊢; exact hy
          · rw [if_neg ho] at hy ⊢
            unfold restoreFetch at hy ⊢
            cases hc : collectFetch E (otherMembers H (ms.map (fun m => m.name))) [] with
            | error e => rw [hc] at hy; cases hy
            | ok fs =>
              rw [hc] at hy
              rw [collectFetch_opens h hc]
              exact hy
        cases hf : (if otherMembers H (ms.map (fun m => m.name)) = [] then .ok d2
            else restoreFetch E (otherMembers H (ms.map (fun m => m.name))) d2 : Except PyErr Tree) with
        | error e => rw [hf] at hr; cases hr
        | ok d3 =>
          rw [hf] at hr
          rw [e2 d3 hf]
          exact hr

/-- Whether a function for fetching is given makes a difference only to where bags are looked for. -/
theorem make_fetcher {cwd : Str} {W : Tree} {isHead : Str → Except PyErr Bool} {head : HeadArg} {dest comp comp' : Option Str} {a : Bool} (b : Bool)
    {r : Restorer} (h : Restorer.make cwd W isHead head dest comp a = .ok r) : ∃ r', Restorer.make cwd W isHead head dest comp' b = .ok r' := by
  unfold Restorer.make at h ⊢
  split at h
  · cases h
  · simp only at h ⊢
    split at h
    · cases h
    · next hd => rw [if_neg hd]; exact ⟨_, rfl⟩

/-- The bags that are found are not those a fetching restorer works with. -/
theorem FetchSite.members_find (S : FetchSite) (E : RestoreEnv) (find' : Str → Option RSource) (r : Restorer) (skip names : List Str) (d : Tree) :
    S.members { E with find := find' } r skip names d = S.members E r skip names d := by
  induction names generalizing d with
  | nil => rfl
  | cons n l ih =>
    simp only [FetchSite.members, ih]
    rfl

theorem FetchSite.collectFetch_find (S : FetchSite) (E : RestoreEnv) (find' : Str → Option RSource) (r : Restorer) (names : List Str) (d : Tree)
    (a : List (Str × Str)) : S.collectFetch { E with find := find' } r names d a = S.collectFetch E r names d a := by
  induction names generalizing d a with
  | nil => rfl
  | cons n l ih => simp only [FetchSite.collectFetch, ih]

theorem FetchSite.restore_find (S : FetchSite) (E : RestoreEnv) (find' : Str → Option RSource) (r : Restorer) (H : RHead) (us rm : Bool) (d : Tree) :
    S.restore { E with find := find' } r H us rm d = S.restore E r H us rm d := by
  simp only [FetchSite.restore, FetchSite.restoreFetch, FetchSite.members_find, FetchSite.collectFetch_find]
  rfl

/-- C111: `restore_bag` with a function that fetches member bags does what `restore_bag` does with these bags in a local
directory: if the one call succeeds, so does the other; it returns the same bag, and leaves the same on disk - everything that
was fetched is gone again; and every member bag besides the head bag is fetched once, and nothing else. -/
theorem C111_local {cwd : Str} {wd : Path} (hc : AbsPath cwd wd) {W : Tree} (hW : WfTree W) {E : RestoreEnv} (hE : EnvOk E)
    {exts : List Str} (hx : ∀ e, e ∈ exts ↔ e ∈ serialized) (archives : Path → Option Tree) (dirs : Tree → List Path)
    {headbag dest : Str} {comp : Option Str} {b : RBag} {W1 : Tree}
    -- restoring from a local directory
    (hlocal : restoreBag E cwd exts archives dirs headbag (some dest) comp W = .ok (b, W1)) {c : Str}
    (hcomp : (comp = some c ∧ c ≠ [] ∧ W.exists (leadsTo wd c) = true) ∨ ((comp = none ∨ comp = some []) ∧ c = dirName (abspath cwd headbag)))
    (hnew : NewPlace W wd dest)
    -- the aggregation
    {H : RHead} (hhead : headAt cwd (diskPlaces cwd archives dirs W) E.base headbag = .ok H) (hH : WfTree H.tree) (hHc : FreeOfCache H.tree)
    {ms : List MemberInfo} (hms : iterMembers H.mode H.tree H.info = .ok ms) {names : List Str}
    (hnames : BesidesHead (ms.map (fun m => m.name)) H.name names)
    -- the function for fetching, and the bags
    {cache : Str} (hcache : cache = pathJoin (pathJoin (abspath cwd dest) py!"multibag") py!"_membercache")
    {f : Fetcher} {bags : Str → Option Tree} (hf : Delivers f bags cache (leadsTo wd dest ++ [py!"multibag", py!"_membercache"]))
    (hbags : ∀ n ∈ names, GoodName n ∧ W.isdir (leadsTo wd c ++ [n]) = true ∧ ¬ Inside (leadsTo wd c ++ [n]) (leadsTo wd dest) ∧
      bags n = some (W.below (leadsTo wd c ++ [n])) ∧ FreeOfCache (W.below (leadsTo wd c ++ [n])) ∧
      ∀ x, openBag { E.base with bagpath := abspath cwd (pathJoin c n) } (W.below (leadsTo wd c ++ [n])) = .ok x →
        openBag { E.base with bagpath := abspath cwd (pathJoin cache n) } (W.below (leadsTo wd c ++ [n])) = .ok x) :
    ∃ W2 asked, restoreBagFetching E cwd exts archives dirs headbag (some dest) none (some f) W = .ok (b, W2, asked) ∧
      (∀ q, SameThing W2 W1 q) ∧ asked.Nodup ∧ ∀ n, n ∈ asked ↔ n ∈ names := by
  have hlocal' := hlocal
  unfold restoreBag at hlocal
  simp only at hlocal
  cases hm : Restorer.make cwd W (isHeadFrom cwd (diskPlaces cwd archives dirs W) E.base) (.location headbag) (some dest) comp false with
  | error e => rw [hm] at hlocal; cases hlocal
  | ok r =>
    rw [hm, hhead] at hlocal
    simp only at hlocal
    obtain ⟨r', hm'⟩ := make_fetcher (comp' := none) true hm
    obtain ⟨m1, _, m3⟩ := make_ok hm
    obtain ⟨_, _, m3'⟩ := make_ok hm'
    have hgd : given (some dest) = some dest := given_eq_some.2 ⟨rfl, hnew.given⟩
    have hdd : r.destdir = abspath cwd dest := by rw [m3]; simp only [hgd, Option.getD_some]
    have hdd' : r'.destdir = abspath cwd dest := by rw [m3']; simp only [hgd, Option.getD_some]
    have hcd' : r'.cachedir = cache := by rw [m3', hcache]; simp only [hgd, Option.getD_some, given_eq_none.2 (.inl rfl)]; rfl
    have hcd : r.cachedir = c := by
      rw [m3]
      rcases hcomp with ⟨rfl, hne, _⟩ | ⟨h, rfl⟩
      · simp only [given_eq_some.2 ⟨rfl, hne⟩, Option.getD_some]
      · simp only [given_eq_none.2 h, Option.getD_none]; rfl
    have hcne : c ≠ [] := hcd ▸ cachedir_ne_nil hc hm
    have hcne' : cache ≠ [] := hcd' ▸ cachedir_ne_nil hc hm'
    have hdest : comps (abspath cwd r.destdir) = leadsTo wd dest := by rw [hdd, comps_abspath hc, leadsTo_abspath hc]
    have hD' : leadsTo wd r'.destdir = leadsTo wd dest := by rw [hdd', leadsTo_abspath hc]
    have hexD : diskExists cwd W r.destdir = false := by rw [diskExists, hdest]; exact hnew.free
    have hcex : W.exists (leadsTo wd c) = true := by
      rcases hcomp with ⟨_, _, h⟩ | ⟨_, rfl⟩
      · exact h
      · rw [leadsTo_dirName hc]
        have hx := (m1 headbag rfl).1
        rw [diskExists_eq hc] at hx
        by_cases hne : leadsTo wd headbag = []
        · rw [hne]; rfl
        · rw [exists_iff hne] at hx
          cases hv : dget W (leadsTo wd headbag) with
          | none => exact absurd hv hx
          | some v => exact exists_of_isdir (hW.parent _ (mem_dkeys_iff.2 ⟨v, hv⟩))
    have hcreate : r.createDest cwd W = .ok (dset W (leadsTo wd dest) .dir) := by
      unfold Restorer.createDest
      rw [hexD]
      simp only [Bool.false_eq_true, if_false, hdest]
      rw [show W.mkdir (leadsTo wd dest) = .ok (dset W (leadsTo wd dest) .dir) by unfold Tree.mkdir; rw [hnew.free, hnew.parent]; rfl]
      have : r.lacksCache cwd (dset W (leadsTo wd dest) .dir) = false := by
        unfold Restorer.lacksCache
        rw [diskExists_eq hc, hcd]
        have : Tree.exists (dset W (leadsTo wd dest) .dir) (leadsTo wd c) = true := by
          unfold Tree.exists at hcex ⊢
          rw [dget_dset]
          split
          · simp
          · exact hcex
        rw [this]; rfl
      simp only [this, Bool.false_eq_true, if_false]
    have hdir : Tree.isdir (dset W (leadsTo wd dest) .dir) (leadsTo wd dest) = true := isdir_iff.2 (.inr (by rw [dget_dset, if_pos rfl]))
    have hbelow : Tree.below (dset W (leadsTo wd dest) .dir) (leadsTo wd dest) = [] := by
      rw [below_dset_other (fun _ => rfl), below_free hW hnew.root hnew.free]
    rw [hexD] at hlocal
    simp only [Bool.false_eq_true, if_false, hcreate, hdest, hdir, Bool.not_true, hbelow] at hlocal
    cases hr : restore (E.into r.destdir (r.source exts cwd (dset W (leadsTo wd dest) .dir) archives)) H true true [] with
    | error e => rw [hr] at hlocal; cases hlocal
    | ok out =>
      rw [hr] at hlocal
      simp only at hlocal
      cases ho : openBag (E.into r.destdir (r.source exts cwd (dset W (leadsTo wd dest) .dir) archives)).base out with
      | error e => rw [ho] at hlocal; cases hlocal
      | ok b1 =>
        rw [ho] at hlocal
        cases hlocal
        have hfound : ∀ n ∈ names, (E.into r.destdir (r.source exts cwd (dset W (leadsTo wd dest) .dir) archives)).find n =
            some ⟨abspath cwd (pathJoin c n), W.below (leadsTo wd c ++ [n])⟩ := by
          intro n hn
          obtain ⟨g1, g2, g3, _⟩ := hbags n hn
          have hdn : Tree.isdir (dset W (leadsTo wd dest) .dir) (leadsTo wd c ++ [n]) = true := by
            rcases isdir_iff.1 g2 with e | e
            · simp at e
            · refine isdir_iff.2 (.inr ?_)
              rw [dget_dset, if_neg (fun (e : leadsTo wd dest = leadsTo wd c ++ [n]) => g3 (e ▸ List.prefix_refl _))]
              exact e
          have hfd : r.find exts cwd (dset W (leadsTo wd dest) .dir) n = some (pathJoin c n) := by
            unfold Restorer.find
            simp only [hcd]
            rw [diskIsdir_eq hc, leadsTo_join_name wd hcne g1, hdn]
            rfl
          show r.source exts cwd (dset W (leadsTo wd dest) .dir) archives n = _
          unfold Restorer.source
          rw [hfd]
          simp only
          rw [comps_abspath hc, leadsTo_join_name wd hcne g1, hdn, if_pos rfl, below_dset_other (fun x => absurd x g3)]
        have hr2 := restore_opens (find' := fun n => (bags n).map (fun t => ⟨abspath cwd (pathJoin cache n), t⟩)) hms (by
          rw [others_of hnames]
          intro n hn
          have hn := List.mem_reverse.1 hn
          obtain ⟨g1, g2, g3, g4, g5, g6⟩ := hbags n hn
          refine ⟨_, ⟨abspath cwd (pathJoin cache n), W.below (leadsTo wd c ++ [n])⟩, hfound n hn, by rw [g4]; rfl, rfl, ?_, ?_, g6⟩
          · intro e
            have e : abspath cwd (pathJoin c n) = r.destdir := e
            have := congrArg (leadsTo wd) e
            rw [leadsTo_abspath hc, leadsTo_join_name wd hcne g1, hdd, leadsTo_abspath hc] at this
            exact g3 (this ▸ List.prefix_refl _)
          · intro e
            have e : abspath cwd (pathJoin cache n) = r.destdir := e
            have := congrArg (leadsTo wd) e
            rw [leadsTo_abspath hc, leadsTo_join_name wd hcne' g1, hdd, leadsTo_abspath hc, hcache,
              leadsTo_join_name wd (pathJoin_ne_nil (by decide)) goodName_cache, leadsTo_join_name wd (abspath_ne_nil' hc _) goodName_mb,
              leadsTo_abspath hc] at this
            have := congrArg List.length this
            simp only [List.length_append, List.length_cons, List.length_nil] at this
            omega) hr
        obtain ⟨W2, asked, k1, k2, k3, k4, k5, k6, k7⟩ := C111_same hc hW (.inl rfl) hm' hD' hnew.root hx archives (f := f) (bags := bags)
          (by rw [hcd']; exact hf) (E := { E.into r.destdir (r.source exts cwd (dset W (leadsTo wd dest) .dir) archives) with
            find := fun n => (bags n).map (fun t => ⟨abspath cwd (pathJoin cache n), t⟩) }) ⟨hE.walk, hE.algs⟩
          (by rw [hcd']; exact fun _ => rfl) hH hHc hms hnames (fun n hn => by
            obtain ⟨g1, g2, _, g4, g5, _⟩ := hbags n hn
            exact ⟨g1, _, g4, wf_below hW (by simp) g2, g5⟩) (.inl ⟨hnew.free, rfl⟩) hr2
        refine ⟨W2, asked, ?_, ?_, k6, k7⟩
        · unfold restoreBagFetching
          simp only [Option.isSome_some, hm', hhead]
          have e1 : FetchSite.restore { exts, fetcher := some f, cwd, archives } { E with base := { E.base with bagpath := r'.destdir } } r' H true true W =
              .ok (W2, asked) := by
            rw [← k1, hdd', hdd]
            exact (FetchSite.restore_find _ _ _ _ _ _ _ _).symm
          rw [e1]
          simp only [FetchSite.destPath]
          rw [hdd', ← hdd, hdest, k3]
          have ho : openBag { E.base with bagpath := r.destdir } out = .ok b := ho
          rw [ho]
        · intro q
          by_cases hq : leadsTo wd dest <+: q
          · apply sameThing_of_dget
            obtain ⟨s, rfl⟩ := hq
            by_cases hs : s = []
            · subst hs
              rw [List.append_nil]
              have a1 := (isdir_iff.1 k2).resolve_left hnew.root
              have a2 := (isdir_iff.1 (isdir_withBelow_self _ out hdir)).resolve_left hnew.root
              rw [a1, a2]
            · rw [dget_withBelow _ _ _ hs, ← k3, dget_below hs]
          · have h1 : SameThing (Tree.withBelow (dset W (leadsTo wd dest) .dir) (leadsTo wd dest) out) W q := sameThing_of_dget (by
              rw [dget_withBelow_other _ _ hq, dget_dset, if_neg (fun (e : leadsTo wd dest = q) => hq (e ▸ List.prefix_refl _))])
            have h2 := k5 q hq
            exact ⟨h2.1.trans h1.1.symm, h2.2.1.trans h1.2.1.symm, h2.2.2.trans h1.2.2.symm⟩

/-! ## Samples -/

/-- A function for fetching that has some bags, and puts them where they are wanted. -/
def bring (bags : Str → Option Tree) : Fetcher := fun n dir W =>
  match bags n with
  | none => .ok (none, W)
  | some t => .ok (some (pathJoin dir n), Tree.withBelow (dset W (comps dir ++ [n]) .dir) (comps dir ++ [n]) t)

/-- It does what is expected of such a function, in any directory. -/
theorem bring_delivers {bags : Str → Option Tree} (hb : ∀ n t, bags n = some t → GoodName n ∧ WfTree t) {dir : Str} {C : Path}
    (hC : comps dir = C) (hclean : Clean C) : Delivers (bring bags) bags dir C := by
  intro n t W hn hW hdir hfree
  obtain ⟨hg, ht⟩ := hb n t hn
  have hgood : GoodPath (C ++ [n]) := ⟨by simp, fun c hc => by
    rcases List.mem_append.1 hc with hc | hc
    · exact hclean c hc
    · rw [List.mem_singleton] at hc; exact hc ▸ hg⟩
  have hw : WfTree (dset W (C ++ [n]) .dir) := wf_dset hW hgood (by rw [List.dropLast_concat]; exact hdir) (.inr rfl)
  have hd : Tree.isdir (dset W (C ++ [n]) .dir) (C ++ [n]) = true := isdir_iff.2 (.inr (by rw [dget_dset, if_pos rfl]))
  refine ⟨_, by unfold bring; rw [hn], ?_⟩
  rw [hC]
  refine ⟨wf_withBelow hw ht hd hgood.2, isdir_withBelow_self _ _ hd, below_withBelow _ _ (entries_ne_nil ht), ?_⟩
  unfold Tree.withBelow
  rw [List.filter_append, List.filter_filter]
  have e1 : (t.map (fun e => (C ++ [n] ++ e.1, e.2))).filter (fun e => !(C ++ [n]).isPrefixOf e.1) = [] := by
    rw [List.filter_eq_nil_iff]
    intro e he
    obtain ⟨x, _, rfl⟩ := List.mem_map.1 he
    simp only [Bool.not_eq_true, Bool.not_eq_false']
    exact List.isPrefixOf_iff_prefix.2 (List.prefix_append _ _)
  rw [e1, List.append_nil]
  have e2 := filter_dset W (fun q => !(C ++ [n]).isPrefixOf q) (C ++ [n]) Node.dir
  rw [if_neg (by simp)] at e2
  rw [← e2]
  apply List.filter_congr
  intro e _
  cases (C ++ [n]).isPrefixOf e.1 <;> simp

namespace Sample

def m1Bags (n : Str) : Option Tree := if n = py!"m1" then some m1 else none

theorem m1Bags_good (n : Str) (t : Tree) (h : m1Bags n = some t) : GoodName n ∧ WfTree t := by
  unfold m1Bags at h
  split at h
  · next e => cases h; subst e; exact ⟨goodName_of_check (by decide), wf_of_check (by decide)⟩
  · cases h

theorem home_abs : AbsPath py!"/home" [py!"home"] := (call_can {} rfl).cwd

end Sample

/-- The hypotheses of `C111_local` are met: the sample's member bag is fetched. -/
example : ∃ b W1 W2 asked, restoreBag Sample.renv py!"/home" serialized (fun _ => none) (fun _ => []) py!"../store/hb" (some py!"out") none Sample.storeWorld = .ok (b, W1) ∧
    restoreBagFetching Sample.renv py!"/home" serialized (fun _ => none) (fun _ => []) py!"../store/hb" (some py!"out") none (some (bring Sample.m1Bags)) Sample.storeWorld =
      .ok (b, W2, asked) ∧ (∀ q, SameThing W2 W1 q) ∧ asked.Nodup ∧ ∀ n, n ∈ asked ↔ n ∈ [py!"m1"] := by
  obtain ⟨x, hx, _⟩ := Sample.ok_of_check (f := fun _ => true)
    (r := restoreBag Sample.renv py!"/home" serialized (fun _ => none) (fun _ => []) py!"../store/hb" (some py!"out") none Sample.storeWorld) (by decide +kernel)
  obtain ⟨b, W1⟩ := x
  have hm1 : Sample.storeWorld.below [py!"store", py!"m1"] = Sample.m1 := by decide +kernel
  obtain ⟨W2, asked, h⟩ := C111_local Sample.home_abs (Sample.wf_of_check (by decide +kernel)) Sample.renv_ok (fun _ => Iff.rfl) (fun _ => none) (fun _ => []) hx
    (c := py!"/store") (.inr ⟨.inl rfl, rfl⟩) ⟨by decide, by decide, by decide, by decide +kernel, by decide +kernel⟩
    (H := Sample.head) (by decide +kernel) (Sample.wf_of_check (by decide)) (by unfold FreeOfCache; decide)
    (ms := [⟨py!"m1", none, none, []⟩, ⟨py!"hb", none, none, []⟩]) rfl (names := [py!"m1"]) (.inl rfl) rfl
    (bring_delivers Sample.m1Bags_good (by decide +kernel) (fun c hc => by
      simp only [show leadsTo [py!"home"] py!"out" = [py!"home", py!"out"] from by decide, List.cons_append, List.nil_append, List.mem_cons, List.not_mem_nil, or_false] at hc
      rcases hc with rfl | rfl | rfl | rfl <;> exact Sample.goodName_of_check (by decide)))
    (by
      intro n hn
      rw [List.mem_singleton] at hn
      subst hn
      have e : leadsTo [py!"home"] py!"/store" ++ [py!"m1"] = [py!"store", py!"m1"] := by decide
      rw [e, hm1]
      refine ⟨Sample.goodName_of_check (by decide), by decide +kernel, by decide, rfl, by unfold FreeOfCache; decide, ?_⟩
      intro x hx
      rw [← hx]
      decide +kernel)
  exact ⟨b, W1, W2, asked, hx, h⟩

namespace Sample

/-- The restorer for the sample's head bag in its place, with a function for fetching. -/
def hereFetching : Restorer where
  headPath := py!"/store/hb"
  inplace := true
  destdir := py!"/store/hb"
  cachedir := py!"/store/hb/multibag/_membercache"

/-- The sample's head bag, to be restored in its place. -/
def headIn : RHead := { head with path := py!"/store/hb" }

def renvFetching : RestoreEnv :=
  { renv with
    base := { renv.base with bagpath := py!"/store/hb" }
    find := fun n => (m1Bags n).map (fun t => ⟨abspath py!"/home" (pathJoin hereFetching.cachedir n), t⟩) }

end Sample

/-- The hypotheses of `C111_same` are met, in place: the sample's member bag is fetched into the head bag's directory. -/
example : ∃ W' asked out, restore Sample.renvFetching Sample.headIn true true (Sample.storeWorld.below [py!"store", py!"hb"]) = .ok out ∧
    FetchSite.restore { exts := serialized, fetcher := some (bring Sample.m1Bags), cwd := py!"/home", archives := fun _ => none }
      Sample.renvFetching Sample.hereFetching Sample.headIn true true Sample.storeWorld = .ok (W', asked) ∧
    W'.below [py!"store", py!"hb"] = out ∧ out.exists [py!"multibag"] = false ∧ W'.exists [py!"store", py!"hb", py!"multibag", py!"_membercache"] = false := by
  obtain ⟨out, hx, hm⟩ := Sample.ok_of_check (f := fun out => !Tree.exists out [py!"multibag"])
    (r := restore Sample.renvFetching Sample.headIn true true (Sample.storeWorld.below [py!"store", py!"hb"])) (by decide +kernel)
  have hlead : leadsTo [py!"home"] Sample.hereFetching.destdir = [py!"store", py!"hb"] := by decide
  obtain ⟨W', asked, h1, h2, h3, h4, h5, _⟩ := C111_same Sample.home_abs (W := Sample.storeWorld) (Sample.wf_of_check (by decide +kernel))
    (isHead := fun _ => .ok true) (head := .location py!"/store/hb") (dest := none) (comp := none) (.inl rfl) (r := Sample.hereFetching) (by decide +kernel) hlead (by simp)
    (exts := serialized) (fun _ => Iff.rfl) (fun _ => none)
    (bring_delivers Sample.m1Bags_good (by decide +kernel) (fun c hc => by
      simp only [List.cons_append, List.nil_append, List.mem_cons, List.not_mem_nil, or_false] at hc
      rcases hc with rfl | rfl | rfl | rfl <;> exact Sample.goodName_of_check (by decide)))
    (E := Sample.renvFetching) ⟨Sample.renv_ok.walk, Sample.renv_ok.algs⟩ (fun _ => rfl)
    (H := Sample.headIn) (Sample.wf_of_check (by decide)) (by unfold FreeOfCache; decide)
    (ms := [⟨py!"m1", none, none, []⟩, ⟨py!"hb", none, none, []⟩]) rfl (names := [py!"m1"]) (.inl rfl)
    (by
      intro n hn
      rw [List.mem_singleton] at hn
      subst hn
      exact ⟨Sample.goodName_of_check (by decide), Sample.m1, rfl, Sample.wf_of_check (by decide), by unfold FreeOfCache; decide⟩)
    (d := Sample.storeWorld.below [py!"store", py!"hb"]) (.inr ⟨by decide +kernel, by decide +kernel, by decide +kernel, rfl⟩) hx
  simp only [Bool.not_eq_true'] at hm
  refine ⟨W', asked, out, hx, h1, h3, hm, ?_⟩
  cases hc : W'.exists [py!"store", py!"hb", py!"multibag", py!"_membercache"] with
  | false => rfl
  | true =>
    exfalso
    rw [exists_iff (by simp)] at hc
    have : (dget W' ([py!"store", py!"hb"] ++ [py!"multibag"])).isSome = true := wf_prefix h4 (p := [py!"store", py!"hb", py!"multibag", py!"_membercache"])
      (Option.isSome_iff_ne_none.2 hc) ⟨[py!"_membercache"], rfl⟩ (by simp)
    rw [← dget_below (by simp), h3] at this
    unfold Tree.exists at hm
    rw [this] at hm
    simp at hm

/-- C111, limit: with `remove_multibag_tags=False` what was fetched is left in the restored bag, which is therefore not what
it would be with the bags in a local directory: the whole sample member bag is in it. -/
theorem C111_negation_kept : ∃ W' asked out,
    FetchSite.restore { exts := serialized, fetcher := some (bring Sample.m1Bags), cwd := py!"/home", archives := fun _ => none }
      Sample.renvFetching Sample.hereFetching Sample.headIn true false Sample.storeWorld = .ok (W', asked) ∧
    restore Sample.renvFetching Sample.headIn true false (Sample.storeWorld.below [py!"store", py!"hb"]) = .ok out ∧
    out.exists [py!"multibag", py!"_membercache"] = false ∧
    W'.read [py!"store", py!"hb", py!"multibag", py!"_membercache", py!"m1", py!"data", py!"b"] = some py!"bb" := by
  obtain ⟨out, hx, hm⟩ := Sample.ok_of_check (f := fun out => !Tree.exists out [py!"multibag", py!"_membercache"])
    (r := restore Sample.renvFetching Sample.headIn true false (Sample.storeWorld.below [py!"store", py!"hb"])) (by decide +kernel)
  obtain ⟨⟨W', asked⟩, hy, hn⟩ := Sample.ok_of_check
    (f := fun x => x.1.read [py!"store", py!"hb", py!"multibag", py!"_membercache", py!"m1", py!"data", py!"b"] = some py!"bb")
    (r := FetchSite.restore { exts := serialized, fetcher := some (bring Sample.m1Bags), cwd := py!"/home", archives := fun _ => none }
      Sample.renvFetching Sample.hereFetching Sample.headIn true false Sample.storeWorld) (by decide +kernel)
  exact ⟨W', asked, out, hy, hx, by simpa using hm, by simpa using hn⟩

end Verif
