import Verif.Lemmas.FetchDisk
/-!
# A whole run with fetched bags
-/

namespace Verif

open Spec

/-- A restorer with a function that delivers bags into the default place. -/
structure FetchSetting (S : FetchSite) (r : Restorer) (wd D : Path) (f : Fetcher) (bags : Str → Option Tree) : Prop where
  cwd : AbsPath S.cwd wd
  exts : ∀ e, e ∈ S.exts ↔ e ∈ serialized
  fetcher : S.fetcher = some f
  dest : leadsTo wd r.destdir = D
  cache : leadsTo wd r.cachedir = D ++ cacheRel
  ne : r.cachedir ≠ []
  inside : startsWith r.destdir r.cachedir = true
  delivers : Delivers f bags r.cachedir (D ++ cacheRel)

variable {S : FetchSite} {r : Restorer} {wd D : Path} {f : Fetcher} {bags : Str → Option Tree}

theorem FetchSetting.clean (h : FetchSetting S r wd D f bags) : Clean D := by
  rw [← h.dest]; exact goodName_leadsTo h.cwd.1.2 _

theorem FetchSetting.destPath (h : FetchSetting S r wd D f bags) : S.destPath r = D := by
  unfold FetchSite.destPath
  rw [comps_abspath h.cwd, h.dest]

/-- Where a fetched bag is. -/
def cachedAt (S : FetchSite) (r : Restorer) (n : Str) : Str := abspath S.cwd (pathJoin r.cachedir n)

theorem FetchSetting.comps (h : FetchSetting S r wd D f bags) {n : Str} (hn : GoodName n) :
    Verif.comps (abspath S.cwd (pathJoin r.cachedir n)) = D ++ cacheRel ++ [n] := by
  rw [comps_abspath h.cwd, leadsTo_join_name wd h.ne hn, h.cache]

theorem FetchSetting.sourceAt (h : FetchSetting S r wd D f bags) {n : Str} (hn : GoodName n) {W t : Tree}
    (hd : W.isdir (D ++ cacheRel ++ [n]) = true) (ht : W.below (D ++ cacheRel ++ [n]) = t) :
    (given (some (pathJoin r.cachedir n))).bind (S.sourceAt W) = some ⟨cachedAt S r n, t⟩ := by
  have hne : pathJoin r.cachedir n ≠ [] := by
    intro e
    have h1 := leadsTo_join_name wd h.ne hn
    have h2 : leadsTo wd (pathJoin r.cachedir n) = wd := by rw [e]; rfl
    rcases join_cases (a := r.cachedir) hn with h3 | h3
    · rw [h3.1] at e
      exact hn.nonempty (List.append_eq_nil_iff.1 e).2
    · rw [h3.1] at e
      simp at e
  rw [given_eq_some.2 ⟨rfl, hne⟩]
  simp only [Option.bind_some, FetchSite.sourceAt, h.comps hn, hd, if_true, ht]
  rfl

theorem FetchSetting.member_got (h : FetchSetting S r wd D f bags) {W0 d W : Tree} {got : List Str}
    (hF : Fetched W0 bags D got d W) {n : Str} (hn : GoodName n) (hg : n ∈ got) {t : Tree} (ht : bags n = some t) :
    S.member r W n = .ok (some ⟨cachedAt S r n, t⟩, W, []) := by
  obtain ⟨h1, h2⟩ := hF.have_ n hg
  rw [ht] at h2
  injection h2 with h2
  have hfd : r.find S.exts S.cwd W n = some (pathJoin r.cachedir n) := by
    unfold Restorer.find
    simp only [(find_dir h.cwd h.ne hn).2 (show HasUnpacked W (leadsTo wd r.cachedir) n by unfold HasUnpacked; rw [h.cache]; exact h1), if_true]
  have hs := h.sourceAt hn h1 h2.symm
  unfold FetchSite.member Restorer.getMember
  cases hgv : given (some (pathJoin r.cachedir n)) with
  | none => rw [hgv] at hs; cases hs
  | some p =>
    rw [hgv] at hs
    have hp := given_eq_some.1 hgv
    obtain ⟨hp1, hp2⟩ := hp
    injection hp1 with hp1
    subst hp1
    simp only [hfd, hgv, hs, Option.isNone_some, Bool.false_and, Bool.false_eq_true, if_false]

theorem FetchSetting.member_new (h : FetchSetting S r wd D f bags) {W0 d W : Tree} {got : List Str}
    (hF : Fetched W0 bags D got d W) {n : Str} (hn : GoodName n) (hg : n ∉ got) {t : Tree} (ht : bags n = some t) :
    ∃ W', S.member r W n = .ok (some ⟨cachedAt S r n, t⟩, W', [n]) ∧ Fetched W0 bags D (n :: got) d W' := by
  have habs : Absent W (leadsTo wd r.cachedir) n := by
    rw [h.cache]
    refine ⟨fun hu => ?_, fun ext ha => ?_⟩
    · unfold HasUnpacked at hu
      rw [isdir_iff] at hu
      rw [hF.none n hg] at hu
      simp at hu
    · obtain ⟨_, ha⟩ := ha
      by_cases hm : n ++ ext ∈ got
      · have h1 := (hF.have_ _ hm).1
        rw [isdir_iff] at h1
        obtain ⟨c, hc⟩ := isfile_iff.1 ha
        rw [hc] at h1
        simp at h1
      · obtain ⟨c, hc⟩ := isfile_iff.1 ha
        rw [hF.none _ hm] at hc
        cases hc
  have hfd : r.find S.exts S.cwd W n = none := (find_cases h.cwd h.ne hn h.exts).2.2 habs
  have hdex : diskExists S.cwd W r.destdir = true := by
    unfold diskExists
    rw [comps_abspath h.cwd, h.dest]
    exact exists_of_isdir hF.dest
  have hcex : diskExists S.cwd W r.cachedir = W.exists (D ++ cacheRel) := by
    unfold diskExists
    rw [comps_abspath h.cwd, h.cache]
  have hprep : ∃ W1, (if r.lacksCache S.cwd W then r.createDest S.cwd W else .ok W) = .ok W1 ∧
      W1.isdir (D ++ cacheRel) = true ∧ Fetched W0 bags D got d W1 := by
    unfold Restorer.lacksCache
    rw [h.inside, Bool.and_true]
    cases hx : W.exists (D ++ cacheRel) with
    | false =>
      rw [hcex, hx]
      obtain ⟨W1, k1, k2, k3⟩ := hF.prepare h.clean hx
      refine ⟨W1, ?_, k2, k3⟩
      unfold Restorer.createDest Restorer.lacksCache
      rw [hdex]
      simp only [if_true, h.inside, hcex, hx, Bool.not_false, Bool.and_true]
      rw [comps_abspath h.cwd, h.cache]
      exact k1
    | true =>
      rw [hcex, hx]
      refine ⟨W, rfl, ?_, hF⟩
      rw [isdir_iff]; right
      rcases hF.place with e | e
      · unfold Tree.exists at hx
        rw [e] at hx
        simp [cacheRel] at hx
      · exact e
  obtain ⟨W1, k1, k2, k3⟩ := hprep
  have hfree : W1.exists (D ++ cacheRel ++ [n]) = false := by
    unfold Tree.exists
    rw [k3.none n hg]; simp
  obtain ⟨W', d1, d2⟩ := h.delivers n t W1 ht k3.wf k2 hfree
  refine ⟨W', ?_, k3.more hg ht d2⟩
  have hs := h.sourceAt hn d2.dir d2.contents
  unfold FetchSite.member Restorer.getMember
  rw [hfd]
  have hnone : given (none : Option Str) = none := rfl
  rw [hnone]
  simp only [Restorer.fetch, h.fetcher]
  rw [k1]
  simp only [d1, hs]
  rfl

/-- Getting a bag, whether it is there or must be fetched. -/
theorem FetchSetting.member (h : FetchSetting S r wd D f bags) {W0 d W : Tree} {got : List Str}
    (hF : Fetched W0 bags D got d W) {n : Str} (hn : GoodName n) {t : Tree} (ht : bags n = some t) :
    ∃ W' asked got', S.member r W n = .ok (some ⟨cachedAt S r n, t⟩, W', asked) ∧ Fetched W0 bags D got' d W' ∧
      asked.Nodup ∧ (∀ m, m ∈ asked ↔ m = n ∧ m ∉ got) ∧ (∀ m, m ∈ got' ↔ m ∈ got ∨ m = n) := by
  by_cases hg : n ∈ got
  · refine ⟨W, [], got, h.member_got hF hn hg ht, hF, List.nodup_nil, fun m => ?_, fun m => ?_⟩
    · simp only [List.not_mem_nil, false_iff]
      rintro ⟨rfl, hm⟩; exact hm hg
    · exact ⟨.inl, fun h => h.elim id (fun e => e ▸ hg)⟩
  · obtain ⟨W', h1, h2⟩ := h.member_new hF hn hg ht
    refine ⟨W', [n], n :: got, h1, h2, by simp, fun m => ?_, fun m => ?_⟩
    · rw [List.mem_singleton]
      exact ⟨fun e => ⟨e, e ▸ hg⟩, fun h => h.1⟩
    · rw [List.mem_cons]; exact Or.comm

/-- Something that succeeds in the destination of the run with the bags at hand succeeds here, too. -/
theorem FetchSetting.inDest (h : FetchSetting S r wd D f bags) {W0 d W : Tree} {got : List Str} (hF : Fetched W0 bags D got d W)
    {g : Tree → Except PyErr Tree} {e e' : Tree} (hg : g (W.below D) = .ok e') (hs : StillAlike (W.below D) e e') (hw : WfTree e') :
    ∃ W', S.inDest r g W = .ok W' ∧ Fetched W0 bags D got e W' := by
  refine ⟨W.withBelow D e', ?_, hF.work h.clean hs hw⟩
  unfold FetchSite.inDest
  rw [h.destPath, hg]

theorem Fetched.wfDest {W0 d W : Tree} {got : List Str} (h : Fetched W0 bags D got d W) (hD : D ≠ []) : WfTree (W.below D) :=
  wf_below h.wf hD h.dest

/-- The bags that can be fetched are fit for it. -/
def FetchableBags (bags : Str → Option Tree) (names : List Str) : Prop :=
  ∀ n ∈ names, GoodName n ∧ ∃ t, bags n = some t ∧ WfTree t ∧ ClearBag t

theorem FetchSetting.members (h : FetchSetting S r wd D f bags) (hD : D ≠ []) {E : RestoreEnv} (hE : EnvOk E)
    (hfind : ∀ n, E.find n = (bags n).map (fun t => ⟨cachedAt S r n, t⟩)) {skip : List Str} (he : [] ∉ skip)
    {names : List Str} (hn : FetchableBags bags names) {W0 d W e : Tree} {got : List Str} (hF : Fetched W0 bags D got d W)
    (hr : restoreMembers E skip names d = .ok e) :
    ∃ W' asked got', S.members E r skip names W = .ok (W', asked) ∧ Fetched W0 bags D got' e W' ∧
      asked.Nodup ∧ (∀ m, m ∈ asked ↔ m ∈ names ∧ m ∉ got) ∧ (∀ m, m ∈ got' ↔ m ∈ got ∨ m ∈ names) := by
  induction names generalizing d W got with
  | nil =>
    simp only [restoreMembers] at hr
    cases hr
    exact ⟨W, [], got, rfl, hF, List.nodup_nil, by simp, by simp⟩
  | cons n names ih =>
    obtain ⟨hg, t, ht, hwt, hct⟩ := hn n List.mem_cons_self
    simp only [restoreMembers, restoreMember, hfind, ht, Option.map_some] at hr
    cases h1 : restoreFrom E ⟨cachedAt S r n, t⟩ skip false d with
    | error x => rw [h1] at hr; cases hr
    | ok d1 =>
      rw [h1] at hr
      simp only at hr
      obtain ⟨W1, a1, g1, m1, m2, m3, m4, m5⟩ := h.member hF hg ht
      obtain ⟨e1, k1, k2⟩ := m2.alike.restoreFrom hE (src := ⟨cachedAt S r n, t⟩) hwt hct he h1
      have hw1 := wf_restoreFrom hE (src := ⟨cachedAt S r n, t⟩) hwt he (m2.wfDest hD) k1
      obtain ⟨W2, k3, k4⟩ := h.inDest m2 k1 k2 hw1
      obtain ⟨W3, a3, g3, q1, q2, q3, q4, q5⟩ := ih (fun m hm => hn m (List.mem_cons_of_mem _ hm)) k4 hr
      refine ⟨W3, a1 ++ a3, g3, ?_, q2, ?_, fun m => ?_, fun m => ?_⟩
      · simp only [FetchSite.members, m1, k3, q1]
      · rw [List.nodup_append]
        refine ⟨m3, q3, fun x hx y hy exy => ?_⟩
        subst exy
        exact ((q4 x).1 hy).2 ((m5 x).2 (.inr ((m4 x).1 hx).1))
      · rw [List.mem_append, m4, q4, m5, List.mem_cons]
        constructor
        · rintro (⟨rfl, h2⟩ | ⟨h2, h3⟩)
          · exact ⟨.inl rfl, h2⟩
          · exact ⟨.inr h2, fun hx => h3 (.inl hx)⟩
        · rintro ⟨rfl | h2, h3⟩
          · exact .inl ⟨rfl, h3⟩
          · by_cases hmn : m = n
            · exact .inl ⟨hmn, h3⟩
            · exact .inr ⟨h2, fun hx => hx.elim h3 hmn⟩
      · rw [q5, m5, List.mem_cons, or_assoc]

theorem FetchSetting.collect (h : FetchSetting S r wd D f bags) {E : RestoreEnv}
    (hfind : ∀ n, E.find n = (bags n).map (fun t => ⟨cachedAt S r n, t⟩))
    {names : List Str} (hn : FetchableBags bags names) {W0 d W : Tree} {got : List Str} (hF : Fetched W0 bags D got d W)
    (hgot : ∀ n ∈ names, n ∈ got) {fetch fetch' : List (Str × Str)}
    (hr : collectFetch E names fetch = .ok fetch') : S.collectFetch E r names W fetch = .ok (fetch', W, []) := by
  induction names generalizing fetch with
  | nil => simp only [collectFetch] at hr; cases hr; rfl
  | cons n names ih =>
    obtain ⟨hg, t, ht, hwt, hct⟩ := hn n List.mem_cons_self
    simp only [collectFetch, hfind, ht, Option.map_some] at hr
    simp only [FetchSite.collectFetch, h.member_got hF hg (hgot n List.mem_cons_self) ht]
    cases h1 : openBag { E.base with bagpath := cachedAt S r n } t with
    | error x => rw [h1] at hr; cases hr
    | ok b =>
      rw [h1] at hr
      cases hrd : t.read [py!"fetch.txt"] with
      | none =>
        rw [hrd] at hr
        simp only at hr ⊢
        rw [ih (fun m hm => hn m (List.mem_cons_of_mem _ hm)) (fun m hm => hgot m (List.mem_cons_of_mem _ hm)) hr]
        rfl
      | some c =>
        rw [hrd] at hr
        simp only at hr ⊢
        rw [ih (fun m hm => hn m (List.mem_cons_of_mem _ hm)) (fun m hm => hgot m (List.mem_cons_of_mem _ hm)) hr]
        rfl

theorem FetchSetting.restoreFetch (h : FetchSetting S r wd D f bags) (hD : D ≠ []) {E : RestoreEnv}
    (hfind : ∀ n, E.find n = (bags n).map (fun t => ⟨cachedAt S r n, t⟩))
    {names : List Str} (hn : FetchableBags bags names) {W0 d W e : Tree} {got : List Str} (hF : Fetched W0 bags D got d W)
    (hgot : ∀ n ∈ names, n ∈ got) (hr : restoreFetch E names d = .ok e) :
    ∃ W', S.restoreFetch E r names W = .ok (W', []) ∧ Fetched W0 bags D got e W' := by
  unfold Verif.restoreFetch at hr
  cases h1 : collectFetch E names [] with
  | error x => rw [h1] at hr; cases hr
  | ok fetch =>
    have h2 := h.collect hfind hn hF hgot h1
    unfold FetchSite.restoreFetch
    rw [h1] at hr
    rw [h2]
    cases fetch with
    | nil => simp only at hr ⊢; cases hr; exact ⟨W, rfl, hF⟩
    | cons x fetch =>
      simp only at hr ⊢
      obtain ⟨e1, k1, k2⟩ := hF.alike.writeRoot (by decide) hr
      have hw1 : WfTree e1 := wf_write (hF.wfDest hD) ⟨by simp, by
        intro c hc
        rw [List.mem_singleton] at hc
        subst hc
        exact ⟨by decide, by decide, by decide, by decide⟩⟩ k1
      obtain ⟨W2, k3, k4⟩ := h.inDest (g := fun d => d.write [py!"fetch.txt"] ((x :: fetch).map Prod.snd).flatten) hF k1 k2 hw1
      rw [k3]
      exact ⟨W2, rfl, k4⟩

theorem wf_startRestore {E : RestoreEnv} (hE : EnvOk E) {H : RHead} (hs : WfTree H.tree) {skip : List Str} (he : [] ∉ skip)
    {d d' : Tree} (hd : WfTree d) (h : startRestore E H skip d = .ok d') : WfTree d' := by
  unfold startRestore at h
  have key : ∀ {d1 : Tree}, WfTree d1 →
      (if H.path = E.base.bagpath then Except.ok d1 else restoreFrom E ⟨H.path, H.tree⟩ skip false d1) = .ok d' → WfTree d' := by
    intro d1 h1 hr
    split at hr
    · cases hr; exact h1
    · exact wf_restoreFrom hE (src := ⟨H.path, H.tree⟩) hs he h1 hr
  cases hx : H.tree.read aggregationInfo with
  | none => rw [hx] at h; exact key hd h
  | some c =>
    rw [hx] at h
    simp only at h
    split at h
    · cases h
    · next d1 h1 =>
      exact key (wf_write hd ⟨by simp, by
        intro c hc
        rw [List.mem_singleton] at hc
        subst hc
        exact ⟨by decide, by decide, by decide, by decide⟩⟩ h1) h

/-- A run with fetched bags once the destination is ready. -/
theorem FetchSetting.run (h : FetchSetting S r wd D f bags) (hD : D ≠ []) {E : RestoreEnv} (hE : EnvOk E)
    (hfind : ∀ n, E.find n = (bags n).map (fun t => ⟨cachedAt S r n, t⟩)) {H : RHead} (hH : WfTree H.tree) (hcH : ClearBag H.tree)
    {ms : List MemberInfo} (hms : iterMembers H.mode H.tree H.info = .ok ms)
    (hn : FetchableBags bags (otherMembers H (ms.map (fun m => m.name)))) {W0 W W1 d out : Tree} {us : Bool}
    (hstart : (if diskExists S.cwd W r.destdir then .ok W else r.createDest S.cwd W) = .ok W1)
    (hF : Fetched W0 bags D [] d W1) (hr : restore E H us true d = .ok out) (hout : WfTree out) :
    ∃ W' asked, S.restore E r H us true W = .ok (W', asked) ∧ W'.isdir D = true ∧ W'.below D = out ∧ WfTree W' ∧
      (∀ q, ¬ D <+: q → dget W' q = dget W0 q) ∧
      asked.Nodup ∧ ∀ m, m ∈ asked ↔ m ∈ otherMembers H (ms.map (fun m => m.name)) := by
  obtain ⟨deleted, ms', d1, d2, d3, e1, e2, e3, e4, e5, e6⟩ := restore_parts hr
  rw [hms] at e2
  cases e2
  have hnil : [] ∉ pySet deleted := by
    rw [mem_pySet]; exact nil_notMem_deleted e1
  obtain ⟨s1, k1, k2⟩ := hF.alike.startRestore hE hH hcH hnil e3
  have hw1 := wf_startRestore hE hH hnil (hF.wfDest hD) k1
  obtain ⟨W2, k3, k4⟩ := h.inDest hF k1 k2 hw1
  obtain ⟨W3, asked, got, q1, q2, q3, q4, q5⟩ := h.members hD hE hfind hnil hn k4 e4
  have hfetch : ∃ W4, (if otherMembers H (ms.map (fun m => m.name)) = [] then .ok (W3, [])
      else S.restoreFetch E r (otherMembers H (ms.map (fun m => m.name))) W3) = .ok (W4, []) ∧ Fetched W0 bags D got d3 W4 := by
    split at e5
    · next h0 => cases e5; rw [if_pos h0]; exact ⟨W3, rfl, q2⟩
    · next h0 =>
      rw [if_neg h0]
      exact h.restoreFetch hD hfind hn q2 (fun n hn => (q5 n).2 (.inr hn)) e5
  obtain ⟨W4, k5, k6⟩ := hfetch
  have hfin := k6.alike.finish e6
  have hb := below_withBelow W4 D (entries_ne_nil hout)
  refine ⟨W4.withBelow D out, asked ++ [], ?_, isdir_withBelow_self _ _ k6.dest, hb, wf_withBelow k6.wf hout k6.dest h.clean, ?_, ?_, ?_⟩
  · unfold FetchSite.restore
    simp only [e1, hms, hstart, h.destPath, hF.dest, Bool.not_true, Bool.false_eq_true, if_false, k3, q1, k5]
    unfold FetchSite.inDest
    rw [h.destPath, hfin]
  · intro q hq
    rw [dget_withBelow_other _ _ hq]; exact k6.rest q hq
  · rw [List.append_nil]; exact q3
  · intro m
    rw [List.append_nil, q4]
    simp

end Verif
