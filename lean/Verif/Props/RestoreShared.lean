import Verif.Lemmas.RestoreDoing
import Verif.Props.Fetching
/-!
# C120: restores that run at the same time do not disturb each other
-/

namespace Verif
open Spec

/-! ## What a restore reads -/

section
variable {W t : Tree} {wd : Path} {R : List Path}

theorem isdir_far (h : ∀ r ∈ R, dget t r = dget W r ∧ t.below r = W.below r) {r : Path} (hr : r ∈ R) : t.isdir r = W.isdir r := by
  unfold Tree.isdir; rw [(h r hr).1]

theorem isfile_far (h : ∀ r ∈ R, dget t r = dget W r ∧ t.below r = W.below r) {r : Path} (hr : r ∈ R) : t.isfile r = W.isfile r := by
  unfold Tree.isfile; rw [(h r hr).1]

theorem exists_far (h : ∀ r ∈ R, dget t r = dget W r ∧ t.below r = W.below r) {r : Path} (hr : r ∈ R) : t.exists r = W.exists r := by
  unfold Tree.exists; rw [(h r hr).1]

theorem source_far (r : Restorer) (exts : List Str) {cwd : Str} (hc : AbsPath cwd wd) (archives : Path → Option Tree) (n : Str)
    (h : ∀ r ∈ R, dget t r = dget W r ∧ t.below r = W.below r) (hn : leadsTo wd (pathJoin r.cachedir n) ∈ R)
    (he : ∀ e ∈ exts, leadsTo wd (pathJoin r.cachedir n ++ e) ∈ R) :
    r.source exts cwd t archives n = r.source exts cwd W archives n := by
  have hfind : r.find exts cwd t n = r.find exts cwd W n := by
    unfold Restorer.find
    simp only
    rw [diskIsdir_eq hc, diskIsdir_eq hc, isdir_far h hn]
    have : (exts.map (fun e => pathJoin r.cachedir n ++ e)).filter (diskIsfile cwd t) =
        (exts.map (fun e => pathJoin r.cachedir n ++ e)).filter (diskIsfile cwd W) := by
      refine List.filter_congr fun x hx => ?_
      obtain ⟨e, hm, rfl⟩ := List.mem_map.1 hx
      rw [diskIsfile_eq hc, diskIsfile_eq hc, isfile_far h (he e hm)]
    rw [this]
  unfold Restorer.source
  rw [hfind]
  cases hf : r.find exts cwd W n with
  | none => rfl
  | some p =>
    have hp : leadsTo wd p ∈ R := by
      unfold Restorer.find at hf
      simp only at hf
      split at hf
      · cases hf; exact hn
      · have := List.mem_of_head? hf
        obtain ⟨e, hm, rfl⟩ := List.mem_map.1 (List.mem_filter.1 this).1
        exact he e hm
    simp only
    rw [comps_abspath hc, isdir_far h hp, (h _ hp).2]

theorem places_far {cwd : Str} (hc : AbsPath cwd wd) (archives : Path → Option Tree) (dirs : Tree → List Path) {p : Str}
    (h : ∀ r ∈ R, dget t r = dget W r ∧ t.below r = W.below r) (hp : leadsTo wd p ∈ R) :
    (diskPlaces cwd archives dirs t).at_ p = (diskPlaces cwd archives dirs W).at_ p := by
  unfold diskPlaces
  simp only
  rw [comps_abspath hc, isdir_far h hp, isfile_far h hp, (h _ hp).2]

theorem openFrom_far {cwd : Str} (hc : AbsPath cwd wd) (archives : Path → Option Tree) (dirs : Tree → List Path) (cfg : ReadCfg) {p : Str}
    (h : ∀ r ∈ R, dget t r = dget W r ∧ t.below r = W.below r) (hp : leadsTo wd p ∈ R) :
    openFrom cwd (diskPlaces cwd archives dirs t) cfg p = openFrom cwd (diskPlaces cwd archives dirs W) cfg p := by
  unfold openFrom openPlace
  rw [places_far hc archives dirs h hp]
  rfl

theorem headAt_far {cwd : Str} (hc : AbsPath cwd wd) (archives : Path → Option Tree) (dirs : Tree → List Path) (cfg : ReadCfg) {p : Str}
    (h : ∀ r ∈ R, dget t r = dget W r ∧ t.below r = W.below r) (hp : leadsTo wd p ∈ R) :
    headAt cwd (diskPlaces cwd archives dirs t) cfg p = headAt cwd (diskPlaces cwd archives dirs W) cfg p := by
  unfold headAt
  rw [openFrom_far hc archives dirs cfg h hp, places_far hc archives dirs h hp]

theorem headNow_far {cwd : Str} (hc : AbsPath cwd wd) (archives : Path → Option Tree) (dirs : Tree → List Path) (cfg : ReadCfg) {p : Str}
    {H : RHead} (hH : headAt cwd (diskPlaces cwd archives dirs W) cfg p = .ok H)
    (h : ∀ r ∈ R, dget t r = dget W r ∧ t.below r = W.below r) (hp : leadsTo wd p ∈ R) : headNow H t = some H.tree := by
  unfold headAt at hH
  cases ho : openFrom cwd (diskPlaces cwd archives dirs W) cfg p with
  | error e => rw [ho] at hH; cases hH
  | ok x =>
    obtain ⟨n, b⟩ := x
    rw [ho] at hH
    simp only [Except.ok.injEq] at hH
    have h1 : H.path = abspath cwd p ∧ H.tree = b.tree := by
      rw [← hH]
      split <;> exact ⟨rfl, rfl⟩
    unfold headNow
    rw [h1.1, comps_abspath hc, isdir_far h hp, (h _ hp).2]
    split
    · rename_i hd
      rw [h1.2]
      unfold openFrom at ho
      cases hpl : openPlace (diskPlaces cwd archives dirs W) p with
      | error e => rw [hpl] at ho; cases ho
      | ok y =>
        obtain ⟨m, u⟩ := y
        rw [hpl] at ho
        simp only at ho
        cases hb : openBag { cfg with bagpath := abspath cwd p } u with
        | error e => rw [hb] at ho; cases ho
        | ok b' =>
          rw [hb] at ho
          cases ho
          rw [openBag_tree hb]
          have hat : (diskPlaces cwd archives dirs W).at_ p = some (.dir (W.below (leadsTo wd p))) := by
            unfold diskPlaces
            simp only
            rw [comps_abspath hc, if_pos hd]
          unfold openPlace at hpl
          rw [hat] at hpl
          split at hpl
          · cases hpl
          · split at hpl
            · cases hpl
            · cases hpl; rfl
    · rfl

end

/-! ## One restore -/

section
variable {W : Tree} {j : RestoreJob} {wd D : Path} {R : List Path}

theorem ready_far (hj : ReadyToRestore W j wd D R) : (∀ r ∈ R, ¬ D <+: r ∧ ¬ r <+: D) ∧ ∀ r ∈ R, r ≠ [] :=
  ⟨hj.apart, fun r hr e => (hj.apart r hr).2 (e ▸ List.nil_prefix)⟩

theorem searched_eq (j : RestoreJob) : searched j = (given j.compdir).getD (dirName (abspath j.cwd j.headbag)) := by
  unfold searched given
  cases j.compdir with
  | none => rfl
  | some c => cases c <;> rfl

theorem sure_create {r : Restorer} {cwd : Str} (hc : AbsPath cwd wd) (hD : leadsTo wd r.destdir = D) (hne : D ≠ [])
    (hap : ∀ r ∈ R, ¬ D <+: r ∧ ¬ r <+: D)
    (hpl : W.exists D = true → W.isdir D = true) (hcache : startsWith r.destdir r.cachedir = false) :
    Sure (Holding W D R) (createDoing r cwd) (dget W D, W.below D) (.ok ((), made (W.below D))) := by
  unfold createDoing
  have hex : ∀ t, Holding W D R (dget W D, W.below D) t → diskExists cwd t r.destdir = W.exists D := by
    intro t hi
    rw [diskExists_eq hc, hD]
    unfold Tree.exists
    rw [hi.node]
  refine sure_asked (x := .ok (W.exists D)) (fun t hi => by rw [hex t hi]) (fun e he => by cases he) (fun b hb => ?_)
  cases hb
  cases hx : W.exists D with
  | true =>
    have : dget W D = some .dir := (isdir_iff.1 (hpl hx)).resolve_left hne
    rw [this]
    exact sure_ret _ _
  | false =>
    simp only [Bool.false_eq_true, if_false]
    refine sure_asked (x := .ok (W.exists D)) (fun t hi => by rw [hex t hi]) (fun e he => by cases he) (fun b hb => ?_)
    cases hb
    rw [hx]
    simp only [Bool.false_eq_true, if_false]
    refine sure_bind (r := .ok ((), made (W.below D))) (sure_change fun t hi => .inr ⟨dset t D .dir, _, ?_, ?_, rfl⟩) (fun e he => by cases he)
      (fun _ s hs => ?_)
    · rw [comps_abspath hc, hD]
      unfold Tree.mkdir
      have h1 := hex t hi
      rw [diskExists_eq hc, hD, hx] at h1
      rw [h1, hi.parent]
      rfl
    · refine ⟨by rw [dget_dset, if_pos rfl]; rfl, by rw [below_dset_other (fun _ => rfl)]; exact hi.here, ?_, fun q hq => ?_⟩
      · rcases isdir_iff.1 hi.parent with e | e
        · exact isdir_iff.2 (.inl e)
        · refine isdir_iff.2 (.inr ?_)
          rw [dget_dset]
          split
          · rfl
          · exact e
      · obtain ⟨h1, h2⟩ := hap q hq
        rw [dget_dset, if_neg (fun (e : D = q) => h1 (e ▸ List.prefix_refl _)), below_dset_other (fun h => absurd h h2)]
        exact hi.far q hq
    · cases hs
      refine sure_asked (x := .ok false) (fun t hi => ?_) (fun e he => by cases he) (fun b hb => ?_)
      · unfold Restorer.lacksCache
        rw [hcache, Bool.and_false]
      · cases hb
        exact sure_ret _ _

theorem mem_otherMembers {H : RHead} {ns : List Str} {n : Str} (h : n ∈ otherMembers H ns) : n ∈ ns := by
  unfold otherMembers at h
  have hr : ∀ x, x ∈ ns.reverse → x ∈ ns := fun x hx => List.mem_reverse.1 hx
  cases hn : ns.reverse with
  | nil => rw [hn] at h; cases h
  | cons m rest =>
    rw [hn] at h hr
    simp only at h
    split at h
    · exact hr _ (List.mem_cons_of_mem _ h)
    · exact hr _ h

theorem restoreBag_ready (hj : ReadyToRestore W j wd D R) {r : Restorer} (hdest : comps (abspath j.cwd r.destdir) = D)
    (hm : Restorer.make j.cwd W (isHeadFrom j.cwd (diskPlaces j.cwd j.archives j.dirs W) j.env.base) (.location j.headbag) j.destbag
      j.compdir false = .ok r) {H : RHead} (hH : headAt j.cwd (diskPlaces j.cwd j.archives j.dirs W) j.env.base j.headbag = .ok H)
    (hcache : startsWith r.destdir r.cachedir = false) :
    ∃ V : Tree, (∀ q, q ≠ D → dget V q = dget W q) ∧ dget V D = some .dir ∧ (∀ q, ¬ q <+: D → V.below q = W.below q) ∧ V.below D = W.below D ∧
      j.alone W = match restore (j.env.into r.destdir (r.source j.exts j.cwd V j.archives)) H true true (W.below D) with
        | .error e => .error e
        | .ok out =>
          match openBag (j.env.into r.destdir (fun _ => none)).base out with
          | .error e => .error e
          | .ok b => .ok (b, V.withBelow D out) := by
  have go : ∀ V : Tree, (if diskExists j.cwd W r.destdir then .ok W else r.createDest j.cwd W) = (.ok V : Except PyErr Tree) → dget V D = some .dir →
      V.below D = W.below D → j.alone W = match restore (j.env.into r.destdir (r.source j.exts j.cwd V j.archives)) H true true (W.below D) with
        | .error e => .error e
        | .ok out =>
          match openBag (j.env.into r.destdir (fun _ => none)).base out with
          | .error e => .error e
          | .ok b => .ok (b, V.withBelow D out) := by
    intro V h1 h2 h3
    have h4 : V.isdir D = true := isdir_iff.2 (.inr h2)
    unfold RestoreJob.alone restoreBag
    simp only [hm, hH, h1, hdest, h4, h3, Bool.not_true, Bool.false_eq_true, if_false]
    rfl
  cases hx : W.exists D with
  | true =>
    have : dget W D = some .dir := (isdir_iff.1 (hj.place hx)).resolve_left hj.root
    exact ⟨W, fun _ _ => rfl, this, fun _ _ => rfl, rfl, go W (by unfold diskExists; rw [hdest, hx]; rfl) this rfl⟩
  | false =>
    have hcr : r.createDest j.cwd W = .ok (dset W D .dir) := by
      unfold Restorer.createDest diskExists
      rw [hdest, hx]
      simp only [Bool.false_eq_true, if_false]
      rw [show W.mkdir D = .ok (dset W D .dir) by unfold Tree.mkdir; rw [hx, hj.parent]; rfl]
      simp only
      rw [show r.lacksCache j.cwd (dset W D .dir) = false by unfold Restorer.lacksCache; rw [hcache, Bool.and_false]]
      rfl
    have hb : Tree.below (dset W D .dir) D = W.below D := below_dset_other (fun _ => rfl)
    refine ⟨dset W D .dir, fun q hq => by rw [dget_dset, if_neg (fun e => hq e.symm)], by rw [dget_dset, if_pos rfl],
      fun q hq => below_dset_other (fun h => absurd h hq), hb, go _ ?_ (by rw [dget_dset, if_pos rfl]) hb⟩
    unfold diskExists
    rw [hdest, hx]
    exact hcr

/-- What the operations of a restore are sure to come to. -/
theorem sure_job (hj : ReadyToRestore W j wd D R) :
    Sure (Holding W D R) j.doing (dget W D, W.below D) ((j.alone W).map (fun x => (x.1, made x.1.tree))) := by
  obtain ⟨d0, hd0, hdne, hdl, hpre⟩ := hj.dest
  obtain ⟨hap, hne⟩ := ready_far hj
  have hc := hj.cwd
  have hfar0 : ∀ s t, Holding W D R s t → ∀ r ∈ R, dget t r = dget W r ∧ t.below r = W.below r := fun s t hi => hi.far
  unfold RestoreJob.doing
  refine sure_asked (x := Restorer.make j.cwd W (isHeadFrom j.cwd (diskPlaces j.cwd j.archives j.dirs W) j.env.base)
    (.location j.headbag) j.destbag j.compdir false) (fun t hi => ?_) (fun e he => ?_) (fun r hm => ?_)
  · unfold Restorer.make
    have h1 : diskExists j.cwd t j.headbag = diskExists j.cwd W j.headbag := by
      rw [diskExists_eq hc, diskExists_eq hc, exists_far hi.far hj.head]
    have h2 : isHeadFrom j.cwd (diskPlaces j.cwd j.archives j.dirs t) j.env.base j.headbag =
        isHeadFrom j.cwd (diskPlaces j.cwd j.archives j.dirs W) j.env.base j.headbag := by
      unfold isHeadFrom
      rw [openFrom_far hc _ _ _ hi.far hj.head]
    have hg : given j.destbag = some d0 := by
      rw [hd0]
      cases d0 with
      | nil => exact absurd rfl hdne
      | cons => rfl
    have h3 : diskIsdir j.cwd t (dirName (abspath j.cwd ((given j.destbag).getD (HeadArg.location j.headbag).path))) =
        diskIsdir j.cwd W (dirName (abspath j.cwd ((given j.destbag).getD (HeadArg.location j.headbag).path))) := by
      rw [hg, Option.getD_some, diskIsdir_eq hc, diskIsdir_eq hc, leadsTo_dirName hc, hdl, hi.parent, hj.parent]
    simp only [h1, h2, h3]
  · unfold RestoreJob.alone restoreBag
    simp only [he]
    rfl
  · obtain ⟨_, _, hr⟩ := make_ok hm
    have hg : given j.destbag = some d0 := by
      rw [hd0]
      cases d0 with
      | nil => exact absurd rfl hdne
      | cons => rfl
    have hdd : r.destdir = abspath j.cwd d0 := by rw [hr, hg]; rfl
    have hcc : r.cachedir = searched j := by rw [hr, searched_eq]; rfl
    have hlead : leadsTo wd r.destdir = D := by rw [hdd, leadsTo_abspath hc, hdl]
    have hdest : comps (abspath j.cwd r.destdir) = D := by rw [comps_abspath hc, hlead]
    have hcache : startsWith r.destdir r.cachedir = false := by
      rw [← Bool.not_eq_true, hdd, hcc]
      intro h
      exact hpre (by simpa [startsWith] using h)
    refine sure_asked (x := headAt j.cwd (diskPlaces j.cwd j.archives j.dirs W) j.env.base j.headbag) (fun t hi => ?_) (fun e he => ?_)
      (fun H hH => ?_)
    · exact headAt_far hc _ _ _ hi.far hj.head
    · unfold RestoreJob.alone restoreBag
      simp only [hm, he]
      rfl
    · obtain ⟨V, hV1, hV2, hV3, hV4, hV⟩ := restoreBag_ready hj hdest hm hH hcache
      simp only [hdest]
      have hnow : ∀ s t, Holding W D R s t → headNow H t = some H.tree := fun s t hi => headNow_far hc _ _ _ hH hi.far hj.head
      have hVfar : ∀ q ∈ R, dget V q = dget W q ∧ V.below q = W.below q := fun q hq =>
        ⟨hV1 q (fun e => (hap q hq).1 (e ▸ List.prefix_refl _)), hV3 q (hap q hq).2⟩
      -- the whole
      have key : Sure (Holding W D R) (restoreDoing (j.env.into r.destdir (fun _ => none)) ⟨r, j.exts, j.cwd, j.archives⟩ D H)
          (dget W D, W.below D) ((restore (j.env.into r.destdir (r.source j.exts j.cwd V j.archives)) H true true (W.below D)).map
            (fun d => ((), made d))) := by
        unfold restoreDoing restore
        have hbn : ∀ s t, Holding W D R s t → bagNow (headNow H) t = .ok H.tree := fun s t hi => by unfold bagNow; rw [hnow s t hi]
        refine sure_asked (x := iterDeleted H.mode H.tree H.info) (fun t hi => by rw [hbn _ t hi]) (fun e he => by rw [he]; rfl)
          (fun deleted hdel => ?_)
        refine sure_asked (x := iterMembers H.mode H.tree H.info) (fun t hi => by rw [hbn _ t hi]) (fun e he => by rw [hdel, he]; rfl)
          (fun ms hms => ?_)
        rw [hdel, hms]
        simp only
        refine sure_bind (sure_create hc hlead hj.root hap hj.place hcache) (fun e he => by cases he) (fun _ s hs => ?_)
        cases hs
        refine sure_bind (sure_start hj.root hap (j.env.into r.destdir (fun _ => none)) hnow (pySet deleted) (W.below D))
          (fun e he => ?_) (fun _ s he => ?_)
        · have hst : startRestore (j.env.into r.destdir (r.source j.exts j.cwd V j.archives)) H (pySet deleted) (W.below D) =
            startRestore (j.env.into r.destdir (fun _ => none)) H (pySet deleted) (W.below D) := rfl
          rw [hst]
          cases h1 : startRestore (j.env.into r.destdir (fun _ => none)) H (pySet deleted) (W.below D) with
          | error e' => rw [h1] at he; cases he; rfl
          | ok d1 => rw [h1] at he; cases he
        · have hst : startRestore (j.env.into r.destdir (r.source j.exts j.cwd V j.archives)) H (pySet deleted) (W.below D) =
            startRestore (j.env.into r.destdir (fun _ => none)) H (pySet deleted) (W.below D) := rfl
          rw [hst]
          cases h1 : startRestore (j.env.into r.destdir (fun _ => none)) H (pySet deleted) (W.below D) with
          | error e' => rw [h1] at he; cases he
          | ok d1 =>
            rw [h1] at he; cases he
            simp only
            have hfind : ∀ n ∈ otherMembers H (ms.map (fun m => m.name)), ∀ d t, Holding W D R (made d) t →
                r.source j.exts j.cwd t j.archives n = r.source j.exts j.cwd V j.archives n := by
              intro n hn d t hi
              obtain ⟨m, hm1, rfl⟩ := List.mem_map.1 (mem_otherMembers hn)
              obtain ⟨a1, a2⟩ := hj.members H ms hH hms m hm1
              rw [← hcc] at a1 a2
              rw [source_far r j.exts hc j.archives m.name hi.far a1 a2, source_far r j.exts hc j.archives m.name hVfar a1 a2]
            have hE : j.env.into r.destdir (r.source j.exts j.cwd V j.archives) =
                { j.env.into r.destdir (fun _ => none) with find := r.source j.exts j.cwd V j.archives } := rfl
            rw [hE]
            generalize hO : otherMembers H (ms.map (fun m => m.name)) = others at hfind ⊢
            refine sure_bind (sure_members hj.root hap (j.env.into r.destdir (fun _ => none)) ⟨r, j.exts, j.cwd, j.archives⟩ hfind _ d1)
              (fun e he => ?_) (fun _ s he => ?_)
            · cases h2 : restoreMembers { j.env.into r.destdir (fun _ => none) with find := r.source j.exts j.cwd V j.archives } (pySet deleted)
                  others d1 with
              | error e' => rw [h2] at he; cases he; rfl
              | ok d2 => rw [h2] at he; cases he
            · cases h2 : restoreMembers { j.env.into r.destdir (fun _ => none) with find := r.source j.exts j.cwd V j.archives } (pySet deleted)
                  others d1 with
              | error e' => rw [h2] at he; cases he
              | ok d2 =>
                rw [h2] at he; cases he
                simp only
                by_cases ho : others = []
                · rw [if_pos ho, if_pos ho]
                  exact sure_finish hj.root hap (j.env.into r.destdir (fun _ => none)) d2
                · rw [if_neg ho, if_neg ho]
                  refine sure_bind (sure_restoreFetch hj.root hap (j.env.into r.destdir (fun _ => none)) ⟨r, j.exts, j.cwd, j.archives⟩ hfind d2)
                    (fun e he => ?_) (fun _ s he => ?_)
                  · cases h3 : restoreFetch { j.env.into r.destdir (fun _ => none) with find := r.source j.exts j.cwd V j.archives } others d2 with
                    | error e' => rw [h3] at he; cases he; rfl
                    | ok d3 => rw [h3] at he; cases he
                  · cases h3 : restoreFetch { j.env.into r.destdir (fun _ => none) with find := r.source j.exts j.cwd V j.archives } others d2 with
                    | error e' => rw [h3] at he; cases he
                    | ok d3 =>
                      rw [h3] at he; cases he
                      exact sure_finish hj.root hap (j.env.into r.destdir (fun _ => none)) d3
      rw [hV]
      refine sure_bind key (fun e he => ?_) (fun _ s he => ?_)
      · cases h1 : restore (j.env.into r.destdir (r.source j.exts j.cwd V j.archives)) H true true (W.below D) with
        | error e' => rw [h1] at he; cases he; rfl
        | ok d1 => rw [h1] at he; cases he
      · cases h1 : restore (j.env.into r.destdir (r.source j.exts j.cwd V j.archives)) H true true (W.below D) with
        | error e' => rw [h1] at he; cases he
        | ok d1 =>
          rw [h1] at he; cases he
          simp only
          have := sure_ask (I := Holding W D R) (s := made d1) (f := fun t => openBag (j.env.into r.destdir (fun _ => none)).base (t.below D))
            (x := openBag (j.env.into r.destdir (fun _ => none)).base d1) (fun t hi => by rw [hi.here]; rfl)
          cases h2 : openBag (j.env.into r.destdir (fun _ => none)).base d1 with
          | error e => rw [h2] at this; exact this
          | ok b =>
            rw [h2] at this
            have hb := openBag_tree h2
            simp only [Except.map] at this ⊢
            rw [hb]
            exact this


theorem alone_there (hj : ReadyToRestore W j wd D R) {b : RBag} {W' : Tree} (h : j.alone W = .ok (b, W')) :
    dget W' D = some .dir ∧ (∀ p, p ≠ [] → dget W' (D ++ p) = dget b.tree p) ∧ ∀ q, ¬ D <+: q → dget W' q = dget W q := by
  obtain ⟨d0, hd0, hdne, hdl, hpre⟩ := hj.dest
  unfold RestoreJob.alone restoreBag at h
  simp only at h
  cases hm : Restorer.make j.cwd W (isHeadFrom j.cwd (diskPlaces j.cwd j.archives j.dirs W) j.env.base) (.location j.headbag) j.destbag
      j.compdir false with
  | error e => rw [hm] at h; cases h
  | ok r =>
    rw [hm] at h
    simp only at h
    obtain ⟨_, _, hr⟩ := make_ok hm
    have hg : given j.destbag = some d0 := by
      rw [hd0]
      cases d0 with
      | nil => exact absurd rfl hdne
      | cons => rfl
    have hdest : comps (abspath j.cwd r.destdir) = D := by
      rw [comps_abspath hj.cwd, hr, hg]
      simp only [Option.getD_some]
      rw [leadsTo_abspath hj.cwd, hdl]
    cases hH : headAt j.cwd (diskPlaces j.cwd j.archives j.dirs W) j.env.base j.headbag with
    | error e => rw [hH] at h; cases h
    | ok H =>
      rw [hH] at h
      simp only at h
      cases hV : (if diskExists j.cwd W r.destdir then .ok W else r.createDest j.cwd W : Except PyErr Tree) with
      | error e => rw [hV] at h; cases h
      | ok V =>
        rw [hV] at h
        simp only [hdest] at h
        split at h
        · cases h
        · rename_i hnd
          have hVd : V.isdir D = true := by simpa using hnd
          cases hrs : restore (j.env.into r.destdir (r.source j.exts j.cwd V j.archives)) H true true (V.below D) with
          | error e => rw [hrs] at h; cases h
          | ok out =>
            rw [hrs] at h
            simp only at h
            cases ho : openBag (j.env.into r.destdir (r.source j.exts j.cwd V j.archives)).base out with
            | error e => rw [ho] at h; cases h
            | ok b' =>
              rw [ho] at h
              cases h
              refine ⟨(isdir_iff.1 (isdir_withBelow_self V out hVd)).resolve_left hj.root, fun p hp => ?_, fun q hq => ?_⟩
              · rw [dget_withBelow V D out hp, openBag_tree ho]
              · rw [dget_withBelow_other V out hq]
                have hcache : startsWith r.destdir r.cachedir = false := by
                  rw [← Bool.not_eq_true, hr, hg]
                  intro h
                  refine hpre ?_
                  rw [searched_eq]
                  simpa [startsWith, HeadArg.path] using h
                cases hex : diskExists j.cwd W r.destdir with
                | true => rw [hex] at hV; cases hV; rfl
                | false =>
                  rw [hex] at hV
                  simp only [Bool.false_eq_true, if_false, Restorer.createDest, hex] at hV
                  cases hmk : W.mkdir (comps (abspath j.cwd r.destdir)) with
                  | error e => rw [hmk] at hV; cases hV
                  | ok V' =>
                    rw [hmk] at hV
                    simp only [Restorer.lacksCache, hcache, Bool.and_false, Bool.false_eq_true, if_false] at hV
                    cases hV
                    obtain ⟨rfl, _⟩ := Tree.mkdir_ok hmk
                    rw [dget_dset, hdest, if_neg (fun (e : D = q) => hq (e ▸ List.prefix_refl D))]

theorem sure_alongside {σ α : Type} {I : σ → Tree → Prop} {Q : Tree → Tree → Prop} (hq : ∀ s t t', I s t → Q t t' → I s t')
    {m m' : Doing α} {t t' : Tree} (h : Alongside Q m t m' t') {s : σ} {r : Except PyErr (α × σ)} (hi : I s t) (hs : Sure I m s r) :
    ∃ s', I s' t' ∧ Sure I m' s' r := by
  induction h generalizing s with
  | refl m t => exact ⟨s, hi, hs⟩
  | other hqq _ ih => exact ih (hq _ _ _ hi hqq) hs
  | turn _ ih =>
    obtain ⟨s', h1, h2⟩ := sure_turn hi hs
    exact ih h1 h2

theorem holding_start (hj : ReadyToRestore W j wd D R) : Holding W D R (dget W D, W.below D) W :=
  ⟨rfl, rfl, hj.parent, fun _ _ => ⟨rfl, rfl⟩⟩

/-- The state of a restore that has ended. -/
theorem ended (hj : ReadyToRestore W j wd D R) {r : Except PyErr RBag} {t : Tree} {s : Option Node × Tree} (hi : Holding W D R s t)
    (hs : Sure (Holding W D R) (.done r) s ((j.alone W).map (fun x => (x.1, made x.1.tree)))) :
    r = (j.alone W).map (fun x => x.1) ∧ ∀ b W', j.alone W = .ok (b, W') → BagAt t D b.tree ∧ ∀ q, Inside D q → SameThing t W' q := by
  cases ha : j.alone W with
  | error e =>
    rw [ha] at hs
    cases r with
    | error e' => cases hs; exact ⟨rfl, fun _ _ h => by cases h⟩
    | ok b => cases hs
  | ok x =>
    obtain ⟨b, W'⟩ := x
    rw [ha] at hs
    cases r with
    | error e' => cases hs
    | ok b' =>
      have hs : (.ok (b, made b.tree) : Except PyErr (RBag × (Option Node × Tree))) = .ok (b', s) := hs
      cases hs
      refine ⟨rfl, fun b1 W1 h => ?_⟩
      cases h
      obtain ⟨h1, h2, _⟩ := alone_there hj ha
      refine ⟨bagAt_iff.2 ⟨hi.isdir, holds_below hi.here⟩, ?_⟩
      rintro q ⟨p, rfl⟩
      refine sameThing_of_dget ?_
      by_cases hp : p = []
      · subst hp
        rw [List.append_nil, h1, hi.node]
        rfl
      · rw [h2 p hp, ← dget_below hp, hi.here]
        rfl

/-- C120: a restore ends as it does when it runs alone, with the same bag or the same exception, whatever other processes
do to the file system between its operations, as long as they leave its destination, the head bag and the places of the
member bags alone; and the destination is then as it is when it runs alone. -/
theorem C120_undisturbed (hj : ReadyToRestore W j wd D R) {r : Except PyErr RBag} {t : Tree}
    (h : Alongside (KeepsOff D R) j.doing W (.done r) t) :
    r = (j.alone W).map (fun x => x.1) ∧ ∀ b W', j.alone W = .ok (b, W') → BagAt t D b.tree ∧ ∀ q, Inside D q → SameThing t W' q := by
  obtain ⟨s, h1, h2⟩ := sure_alongside (fun s t t' hi hk => hi.off hj.root (ready_far hj).2 hk) h (holding_start hj) (sure_job hj)
  exact ended hj h1 h2

end

/-! ## What a restore changes -/

/-- A change at `D` and in it. -/
structure Touches (D : Path) (t t' : Tree) : Prop where
  same : ∀ q, ¬ D <+: q → dget t' q = dget t q
  order : ∀ d, ¬ D <+: d → ¬ d <+: D → t'.below d = t.below d

section
variable {D : Path}

theorem Touches.refl (t : Tree) : Touches D t t := ⟨fun _ _ => rfl, fun _ _ _ => rfl⟩

theorem touches_dset (t : Tree) (p : Path) (x : Node) : Touches D t (dset t (D ++ p) x) := by
  refine ⟨fun q hq => ?_, fun d h1 h2 => ?_⟩
  · rw [dget_dset, if_neg (fun (e : D ++ p = q) => hq ⟨p, e⟩)]
  · refine below_dset_other fun h => ?_
    rcases List.prefix_or_prefix_of_prefix h (List.prefix_append D p) with h3 | h3
    · exact absurd h3 h2
    · exact absurd h3 h1

theorem touches_write {t t' : Tree} {p : Path} {c : Str} (h : t.write (D ++ p) c = .ok t') : Touches D t t' := by
  obtain ⟨rfl, _⟩ := Tree.write_ok h
  exact touches_dset t p _

theorem touches_mkdir {t t' : Tree} {p : Path} (h : t.mkdir (D ++ p) = .ok t') : Touches D t t' := by
  obtain ⟨rfl, _⟩ := Tree.mkdir_ok h
  exact touches_dset t p _

theorem touches_rmtree {t t' : Tree} {p : Path} (h : t.rmtree (D ++ p) = .ok t') : Touches D t t' := by
  unfold Tree.rmtree at h
  split at h
  · cases h
    have long : ∀ q, (D ++ p) <+: q → D <+: q := fun q h => (List.prefix_append D p).trans h
    refine ⟨fun q hq => ?_, fun d h1 h2 => ?_⟩
    · rw [dget_filter_key t (fun q => !(D ++ p).isPrefixOf q), if_pos]
      rw [Bool.not_eq_true', ← Bool.not_eq_true, List.isPrefixOf_iff_prefix]
      exact fun h => hq (long q h)
    · refine below_filter_all (f := fun q => !(D ++ p).isPrefixOf q) fun q => ?_
      rw [Bool.not_eq_true', ← Bool.not_eq_true, List.isPrefixOf_iff_prefix]
      intro h
      rcases List.prefix_or_prefix_of_prefix (long _ h) (List.prefix_append d q) with h3 | h3
      · exact h1 h3
      · exact h2 h3
  · cases h

/-- All operations are changes at `D` and in it. -/
def StaysIn (D : Path) {α : Type} : Doing α → Prop
  | .done _ => True
  | .next op k => (∀ t t', op t = .ok t' → Touches D t t') ∧ ∀ t, StaysIn D (k t)

theorem stays_turn {α : Type} {m : Doing α} (h : StaysIn D m) (t : Tree) : Touches D t (m.turn t).2 ∧ StaysIn D (m.turn t).1 := by
  cases m with
  | done r => exact ⟨.refl t, trivial⟩
  | next op k =>
    simp only [Doing.turn]
    cases ho : op t with
    | error e => exact ⟨.refl t, trivial⟩
    | ok t' => exact ⟨h.1 t t' ho, h.2 t⟩

theorem stays_bind {α β : Type} {m : Doing α} {g : α → Doing β} (h : StaysIn D m) (hg : ∀ a, StaysIn D (g a)) : StaysIn D (m.bind g) := by
  induction m with
  | done x =>
    cases x with
    | error e => trivial
    | ok a => exact hg a
  | next op k ih => exact ⟨h.1, fun t => ih t (h.2 t)⟩

theorem stays_asked {α β : Type} {f : Tree → Except PyErr α} {g : α → Doing β} (hg : ∀ t a, f t = .ok a → StaysIn D (g a)) :
    StaysIn D ((ask f).bind g) := by
  refine ⟨fun t t' h => by cases h; exact .refl t, fun t => ?_⟩
  show StaysIn D ((Doing.done (f t)).bind g)
  cases h : f t with
  | error e => trivial
  | ok a => exact hg t a h

theorem stays_ask {α : Type} {f : Tree → Except PyErr α} : StaysIn D (ask f) :=
  ⟨fun t t' h => by cases h; exact .refl t, fun _ => trivial⟩

theorem stays_change {f : Tree → Except PyErr Tree} (h : ∀ t t', f t = .ok t' → Touches D t t') : StaysIn D (change f) :=
  ⟨h, fun _ => trivial⟩

theorem stays_acts (src : Tree → Option Tree) (as : List Act) (u : List Str) : StaysIn D (actsDoing D src as u) := by
  induction as generalizing u with
  | nil => trivial
  | cons a as ih =>
    refine stays_bind ?_ (fun l => ih _)
    cases a with
    | stat p => exact stays_ask
    | file p =>
      refine stays_asked fun t b _ => ?_
      cases b with
      | true => trivial
      | false =>
        refine stays_bind (stays_change fun t t' h => ?_) (fun _ => trivial)
        split at h
        · cases h
        · exact touches_write h
    | dir p =>
      refine stays_asked fun t b _ => ?_
      cases b with
      | true => trivial
      | false => exact stays_bind (stays_change fun t t' h => touches_mkdir h) (fun _ => trivial)

theorem stays_writeManifest (kind alg : Str) (es : List (Str × Str)) : StaysIn D (writeManifestDoing D kind alg es) := by
  unfold writeManifestDoing
  split
  · trivial
  · exact stays_change fun t t' h => touches_write h

theorem stays_writeManifests (m : ByAlg) : StaysIn D (writeManifestsDoing D m) := by
  induction m with
  | nil => trivial
  | cons e m ih => exact stays_bind (stays_writeManifest ..) (fun _ => stays_bind (stays_writeManifest ..) (fun _ => ih))

theorem stays_restoreFrom (E : RestoreEnv) (path : Str) (src : Tree → Option Tree) (skip : List Str) :
    StaysIn D (restoreFromDoing E D path src skip) := by
  unfold restoreFromDoing
  split
  · trivial
  · refine stays_asked fun _ sb _ => stays_asked fun _ w _ => stays_bind (stays_acts ..) fun u => ?_
    split
    · trivial
    · refine stays_asked fun _ b _ => ?_
      split
      · trivial
      · exact stays_writeManifests _

theorem stays_members (E : RestoreEnv) (F : Finder) (skip ns : List Str) : StaysIn D (membersDoing E F D skip ns) := by
  induction ns with
  | nil => trivial
  | cons n ns ih =>
    refine stays_asked fun _ p _ => ?_
    cases p with
    | none => trivial
    | some p => exact stays_bind (stays_restoreFrom ..) (fun _ => ih)

theorem stays_collectFetch (E : RestoreEnv) (F : Finder) (ns : List Str) (fetch : List (Str × Str)) :
    StaysIn D (collectFetchDoing E F ns fetch) := by
  induction ns generalizing fetch with
  | nil => trivial
  | cons n ns ih =>
    refine stays_asked fun _ p _ => ?_
    cases p with
    | none => trivial
    | some p => exact stays_asked fun _ _ _ => stays_asked fun _ _ _ => ih _

theorem stays_writeTagManifests (sum : Str → Str → Str) (algs : List Str) : StaysIn D (writeTagManifestsDoing sum D algs) := by
  induction algs with
  | nil => trivial
  | cons a algs ih =>
    exact stays_asked fun _ _ _ => stays_bind (stays_change fun t t' h => touches_write h) (fun _ => ih)

theorem stays_save (E : RestoreEnv) (b : RBag) : StaysIn D (saveDoing E D b) :=
  stays_bind (stays_change fun t t' h => touches_write h) fun _ => stays_bind (stays_writeTagManifests ..) fun _ => stays_ask

theorem stays_finish (E : RestoreEnv) : StaysIn D (finishDoing E D) := by
  refine stays_asked fun _ b _ => stays_bind ?_ fun b => stays_bind ?_ fun _ => trivial
  · exact stays_bind (stays_change fun t t' h => touches_rmtree h) fun _ => stays_save E _
  · exact stays_asked fun _ _ _ => stays_bind (stays_save E _) fun _ => stays_asked fun _ _ _ => stays_save E _

theorem stays_job {j : RestoreJob} {wd : Path} (hc : AbsPath j.cwd wd) {d : Str} (hd : j.destbag = some d) (hne : d ≠ [])
    (hD : leadsTo wd d = D) (hs : ¬ abspath j.cwd d <+: searched j) : StaysIn D j.doing := by
  refine stays_asked fun t r hm => stays_asked fun _ H _ => ?_
  obtain ⟨_, _, hr⟩ := make_ok hm
  have hg : given j.destbag = some d := by
    rw [hd]
    cases d with
    | nil => exact absurd rfl hne
    | cons => rfl
  have hdd : r.destdir = abspath j.cwd d := by rw [hr, hg]; rfl
  have hcc : r.cachedir = searched j := by rw [hr, searched_eq]; rfl
  have hdest : comps (abspath j.cwd r.destdir) = D := by rw [comps_abspath hc, hdd, leadsTo_abspath hc, hD]
  have hcache : startsWith r.destdir r.cachedir = false := by
    rw [← Bool.not_eq_true, hdd, hcc]
    intro h
    exact hs (by simpa [startsWith] using h)
  simp only [hdest]
  refine stays_bind ?_ fun _ => stays_ask
  refine stays_asked fun _ deleted _ => stays_asked fun _ ms _ => stays_bind ?_ fun _ => stays_bind ?_ fun _ =>
    stays_bind (stays_members ..) fun _ => stays_bind ?_ fun _ => stays_finish _
  · refine stays_asked fun _ b _ => ?_
    cases b with
    | true => trivial
    | false =>
      refine stays_asked fun _ b _ => stays_bind ?_ fun _ => stays_asked fun t b hb => ?_
      · cases b with
        | true => trivial
        | false =>
          refine stays_change fun t t' h => ?_
          rw [hdest, ← List.append_nil D] at h
          exact touches_mkdir h
      · simp only [Restorer.lacksCache, hcache, Bool.and_false] at hb
        cases hb
        trivial
  · refine stays_asked fun _ text _ => stays_bind ?_ fun _ => ?_
    · cases text with
      | none => trivial
      | some c => exact stays_change fun t t' h => touches_write h
    · split
      · trivial
      · exact stays_restoreFrom ..
  · split
    · trivial
    · refine stays_bind (stays_collectFetch ..) fun f => ?_
      split
      · trivial
      · exact stays_change fun t t' h => touches_write h

/-- C120: each operation of a restore changes nothing but its destination, whatever it finds and whatever has happened
before. -/
theorem C120_confined {j : RestoreJob} {wd : Path} (hc : AbsPath j.cwd wd) {d : Str} (hd : j.destbag = some d) (hne : d ≠ [])
    (hD : leadsTo wd d = D) (hs : ¬ abspath j.cwd d <+: searched j) {W t : Tree} {m : Doing RBag}
    (h : Alongside (fun _ _ => True) j.doing W m t) : OnlyIn D t (m.turn t).2 := by
  have hw : StaysIn D m := by
    have h0 := stays_job hc hd hne hD hs
    generalize j.doing = m0 at h h0
    induction h with
    | refl m t => exact h0
    | other _ _ ih => exact ih h0
    | turn _ ih => exact ih (stays_turn h0 _).2
  have := (stays_turn hw t).1
  exact ⟨fun q hq => sameThing_of_dget (this.same q hq), fun q h1 h2 => this.order q h1 h2⟩

end

/-! ## Several restores -/

section
variable {ι : Type} [DecidableEq ι] {W : Tree} {jobs : ι → RestoreJob} {wd D : ι → Path} {R : ι → List Path}

theorem Holding.touched {W t t' : Tree} {D D' : Path} {R : List Path} {s : Option Node × Tree} (h : Holding W D R s t)
    (ht : Touches D' t t') (h1 : ¬ D' <+: D) (h2 : ¬ D <+: D') (hR : ∀ r ∈ R, ¬ D' <+: r ∧ ¬ r <+: D') : Holding W D R s t' := by
  refine ⟨(ht.same D h1).trans h.node, (ht.order D h1 h2).trans h.here, ?_, fun r hr => ?_⟩
  · have : ¬ D' <+: D.dropLast := fun h => h1 (h.trans (List.dropLast_prefix D))
    unfold Tree.isdir
    rw [ht.same _ this]
    exact h.parent
  · obtain ⟨a, b⟩ := hR r hr
    exact ⟨(ht.same r a).trans (h.far r hr).1, (ht.order r a b).trans (h.far r hr).2⟩

/-- What is known while several restores are running. -/
structure Busy (W : Tree) (jobs : ι → RestoreJob) (D : ι → Path) (R : ι → List Path) (s : (ι → Doing RBag) × Tree) : Prop where
  sure : ∀ i, ∃ x, Holding W (D i) (R i) x s.2 ∧
    Sure (Holding W (D i) (R i)) (s.1 i) x (((jobs i).alone W).map (fun x => (x.1, made x.1.tree)))
  within : ∀ i, StaysIn (D i) (s.1 i)
  kept : ∀ q, (∀ i, ¬ D i <+: q) → dget s.2 q = dget W q

theorem busy_start (hr : ∀ i, ReadyToRestore W (jobs i) (wd i) (D i) (R i)) : Busy W jobs D R (fun i => (jobs i).doing, W) := by
  refine ⟨fun i => ⟨_, holding_start (hr i), sure_job (hr i)⟩, fun i => ?_, fun _ _ => rfl⟩
  obtain ⟨d, h1, h2, h3, h4⟩ := (hr i).dest
  exact stays_job (hr i).cwd h1 h2 h3 h4

theorem busy_turn (hdis : ∀ i j, i ≠ j → ¬ Inside (D i) (D j)) (hsrc : ∀ i j, i ≠ j → ∀ r ∈ R i, ¬ Inside (D j) r ∧ ¬ Inside r (D j))
    {s : (ι → Doing RBag) × Tree} (h : Busy W jobs D R s) (i : ι) : Busy W jobs D R (turnOf i s) := by
  obtain ⟨h1, h2⟩ := stays_turn (h.within i) s.2
  refine ⟨fun k => ?_, fun k => ?_, fun q hq => ?_⟩
  · obtain ⟨x, h3, h4⟩ := h.sure k
    unfold turnOf
    simp only
    split
    · rename_i e
      subst e
      exact sure_turn h3 h4
    · rename_i e
      exact ⟨x, h3.touched h1 (hdis i k (fun h => e h.symm)) (hdis k i e) (hsrc k i e), h4⟩
  · unfold turnOf
    simp only
    split
    · rename_i e
      subst e
      exact h2
    · exact h.within k
  · exact (h1.same q (hq i)).trans (h.kept q hq)

theorem busy_turns (hdis : ∀ i j, i ≠ j → ¬ Inside (D i) (D j)) (hsrc : ∀ i j, i ≠ j → ∀ r ∈ R i, ¬ Inside (D j) r ∧ ¬ Inside r (D j))
    (order : List ι) {s : (ι → Doing RBag) × Tree} (h : Busy W jobs D R s) : Busy W jobs D R (takeTurns order s) := by
  induction order generalizing s with
  | nil => exact h
  | cons i order ih => exact ih (busy_turn hdis hsrc h i)

/-- C120: any number of restores can run at the same time on one file system.  Whatever the order in which their operations
take place, each of them that has ended has ended as it does when it runs alone, and its destination is as if it had run
alone, although others may go on.  They may use the same head bag and the same member bags, and their destinations may be
next to each other. -/
theorem C120_together (hr : ∀ i, ReadyToRestore W (jobs i) (wd i) (D i) (R i)) (hdis : ∀ i j, i ≠ j → ¬ Inside (D i) (D j))
    (hsrc : ∀ i j, i ≠ j → ∀ r ∈ R i, ¬ Inside (D j) r ∧ ¬ Inside r (D j)) (order : List ι) (i : ι) {r : Except PyErr RBag}
    (h : (takeTurns order (fun i => (jobs i).doing, W)).1 i = .done r) :
    r = ((jobs i).alone W).map (fun x => x.1) ∧ ∀ b W', (jobs i).alone W = .ok (b, W') →
      BagAt (takeTurns order (fun i => (jobs i).doing, W)).2 (D i) b.tree ∧
      ∀ q, Inside (D i) q → SameThing (takeTurns order (fun i => (jobs i).doing, W)).2 W' q := by
  have hb := busy_turns hdis hsrc order (busy_start hr)
  obtain ⟨x, h1, h2⟩ := hb.sure i
  rw [h] at h2
  exact ended (hr i) h1 h2

/-- C120: and what is in none of the destinations is as it was, at all times. -/
theorem C120_kept (hr : ∀ i, ReadyToRestore W (jobs i) (wd i) (D i) (R i)) (hdis : ∀ i j, i ≠ j → ¬ Inside (D i) (D j))
    (hsrc : ∀ i j, i ≠ j → ∀ r ∈ R i, ¬ Inside (D j) r ∧ ¬ Inside r (D j)) (order : List ι) (q : Path) (hq : ∀ i, ¬ Inside (D i) q) :
    SameThing (takeTurns order (fun i => (jobs i).doing, W)).2 W q :=
  sameThing_of_dget ((busy_turns hdis hsrc order (busy_start hr)).kept q hq)

theorem turns_end {α : Type} (i : ι) (m : Doing α) (s : (ι → Doing α) × Tree) (hm : s.1 i = m) (f : Nat → ι)
    (hf : ∀ n, ∃ k, n ≤ k ∧ f k = i) : ∃ n r, (takeTurns ((List.range n).map f) s).1 i = .done r := by
  have shift : ∀ n, (List.range (n + 1)).map f = f 0 :: (List.range n).map (fun k => f (k + 1)) := by
    intro n
    rw [List.range_succ_eq_map, List.map_cons, List.map_map]
    rfl
  induction m generalizing s f with
  | done r => exact ⟨0, r, hm⟩
  | next op k ih =>
    obtain ⟨n, _, hn⟩ := hf 0
    induction n generalizing s f with
    | zero =>
      have h1 : (turnOf (f 0) s).1 i = ((s.1 i).turn s.2).1 := by unfold turnOf; rw [hn]; simp
      rw [hm] at h1
      simp only [Doing.turn] at h1
      cases ho : op s.2 with
      | error e => rw [ho] at h1; exact ⟨1, .error e, h1⟩
      | ok t' =>
        rw [ho] at h1
        obtain ⟨n, r, h2⟩ := ih s.2 (turnOf (f 0) s) h1 (fun k => f (k + 1))
          (fun n => by obtain ⟨k, h3, h4⟩ := hf (n + 1); exact ⟨k - 1, by omega, by rw [show k - 1 + 1 = k by omega]; exact h4⟩)
          (fun n => by rw [List.range_succ_eq_map, List.map_cons, List.map_map]; rfl)
        exact ⟨n + 1, r, by rw [shift]; exact h2⟩
    | succ n ihn =>
      by_cases h0 : f 0 = i
      · have h1 : (turnOf (f 0) s).1 i = ((s.1 i).turn s.2).1 := by unfold turnOf; rw [h0]; simp
        rw [hm] at h1
        simp only [Doing.turn] at h1
        cases ho : op s.2 with
        | error e => rw [ho] at h1; exact ⟨1, .error e, h1⟩
        | ok t' =>
          rw [ho] at h1
          obtain ⟨n, r, h2⟩ := ih s.2 (turnOf (f 0) s) h1 (fun k => f (k + 1))
            (fun n => by obtain ⟨k, h3, h4⟩ := hf (n + 1); exact ⟨k - 1, by omega, by rw [show k - 1 + 1 = k by omega]; exact h4⟩)
            (fun n => by rw [List.range_succ_eq_map, List.map_cons, List.map_map]; rfl)
          exact ⟨n + 1, r, by rw [shift]; exact h2⟩
      · have h1 : (turnOf (f 0) s).1 i = .next op k := by
          unfold turnOf
          simp only
          rw [if_neg (fun e => h0 e.symm)]
          exact hm
        obtain ⟨n', r, h2⟩ := ihn (turnOf (f 0) s) h1 (fun k => f (k + 1))
          (fun n => by obtain ⟨k, h3, h4⟩ := hf (n + 1); exact ⟨k - 1, by omega, by rw [show k - 1 + 1 = k by omega]; exact h4⟩)
          (fun n => by rw [List.range_succ_eq_map, List.map_cons, List.map_map]; rfl) (by omega) hn
        exact ⟨n' + 1, r, by rw [shift]; exact h2⟩

/-- C120: and each of them ends if it has a turn again and again, whatever the others do. -/
theorem C120_ends (W : Tree) (jobs : ι → RestoreJob) (sched : Nat → ι) (i : ι) (h : ∀ n, ∃ k, n ≤ k ∧ sched k = i) :
    ∃ n r, (takeTurns ((List.range n).map sched) (fun i => (jobs i).doing, W)).1 i = .done r :=
  turns_end i _ _ rfl sched h

end

/-- C120: a restore that has the file system for itself, operation by operation, ends after some number of turns, as the call
does. -/
theorem C120_alone {W : Tree} {j : RestoreJob} {wd D : Path} {R : List Path} (hj : ReadyToRestore W j wd D R) :
    ∃ n t, takeTurns (List.replicate n ()) (fun _ => j.doing, W) = (fun _ => .done ((j.alone W).map (fun x => x.1)), t) ∧
      ∀ b W', j.alone W = .ok (b, W') → ∀ q, SameThing t W' q := by
  obtain ⟨n, r, h⟩ := C120_ends (ι := Unit) W (fun _ => j) (fun _ => ()) () (fun n => ⟨n, Nat.le_refl n, rfl⟩)
  have e : (List.range n).map (fun _ => ()) = List.replicate n () := by rw [List.map_const', List.length_range]
  rw [e] at h
  have hdis : ∀ i j : Unit, i ≠ j → ¬ Inside D D := fun i j h => absurd rfl h
  have hsrc : ∀ i j : Unit, i ≠ j → ∀ r ∈ R, ¬ Inside D r ∧ ¬ Inside r D := fun i j h => absurd rfl h
  obtain ⟨h1, h2⟩ := C120_together (ι := Unit) (jobs := fun _ => j) (wd := fun _ => wd) (D := fun _ => D) (R := fun _ => R) (fun _ => hj)
    hdis hsrc (List.replicate n ()) () h
  have h3 := C120_kept (ι := Unit) (jobs := fun _ => j) (wd := fun _ => wd) (D := fun _ => D) (R := fun _ => R) (fun _ => hj)
    hdis hsrc (List.replicate n ())
  refine ⟨n, _, Prod.ext (funext fun _ => by rw [← h1]; exact h) rfl, fun b W' ha q => ?_⟩
  by_cases hq : Inside D q
  · exact (h2 b W' ha).2 q hq
  · obtain ⟨a, b, c⟩ := h3 q (fun _ => hq)
    obtain ⟨a', b', c'⟩ := sameThing_of_dget ((alone_there hj ha).2.2 q hq)
    exact ⟨a.trans a'.symm, b.trans b'.symm, c.trans c'.symm⟩

namespace Sample

/-- Restoring the sample's head bag, from `/home`. -/
def shareJob (dest : Str) : RestoreJob where
  env := renv
  cwd := py!"/home"
  exts := [py!".zip"]
  archives := fun _ => none
  dirs := fun _ => []
  headbag := py!"../store/hb"
  destbag := some dest
  compdir := none

/-- What it reads. -/
def shareSources : List Path :=
  [[py!"store", py!"hb"], [py!"store", py!"m1"], [py!"store", py!"hb.zip"], [py!"store", py!"m1.zip"]]

theorem share_members (d : Str) : ∀ H ms, headAt (shareJob d).cwd (diskPlaces (shareJob d).cwd (shareJob d).archives (shareJob d).dirs storeWorld)
      (shareJob d).env.base (shareJob d).headbag = .ok H →
    iterMembers H.mode H.tree H.info = .ok ms → ∀ m ∈ ms, leadsTo [py!"home"] (pathJoin (searched (shareJob d)) m.name) ∈ shareSources ∧
      ∀ e ∈ (shareJob d).exts, leadsTo [py!"home"] (pathJoin (searched (shareJob d)) m.name ++ e) ∈ shareSources := by
  intro H ms h1 h2
  have hc : (match headAt py!"/home" (diskPlaces py!"/home" (fun _ => none) (fun _ => []) storeWorld) renv.base py!"../store/hb" with
    | .ok H => (match iterMembers H.mode H.tree H.info with
      | .ok ms => ms.all fun m => decide (m.name = py!"hb" ∨ m.name = py!"m1")
      | .error _ => true)
    | .error _ => true) = true := by decide +kernel
  have h1 : headAt py!"/home" (diskPlaces py!"/home" (fun _ => none) (fun _ => []) storeWorld) renv.base py!"../store/hb" = .ok H := h1
  rw [h1] at hc
  simp only [h2] at hc
  intro m hm
  have := of_decide_eq_true (List.all_eq_true.1 hc m hm)
  have hs : searched (shareJob d) = searched (shareJob []) := rfl
  rw [hs]
  rcases this with e | e
  · rw [e]; exact ⟨by decide +kernel, fun e he => by
      have : e = py!".zip" := by simpa [shareJob] using he
      rw [this]; decide +kernel⟩
  · rw [e]; exact ⟨by decide +kernel, fun e he => by
      have : e = py!".zip" := by simpa [shareJob] using he
      rw [this]; decide +kernel⟩

theorem share_ready (d : Str) (hd : d = py!"out" ∨ d = py!"other") :
    ReadyToRestore storeWorld (shareJob d) [py!"home"] [py!"home", d] shareSources where
  cwd := home_abs
  dest := ⟨d, rfl, by rcases hd with rfl | rfl <;> decide, by rcases hd with rfl | rfl <;> decide, by rcases hd with rfl | rfl <;> decide⟩
  root := by simp
  parent := by show storeWorld.isdir [py!"home"] = true; decide
  place := by rcases hd with rfl | rfl <;> decide
  head := by show leadsTo [py!"home"] py!"../store/hb" ∈ shareSources; decide
  members := share_members d
  apart := by rcases hd with rfl | rfl <;> (unfold Inside; decide)

theorem share_alone : ∃ b W', (shareJob py!"out").alone storeWorld = .ok (b, W') ∧ b.tree.exists [py!"data", py!"b"] = true := by
  obtain ⟨x, hx, hb⟩ := ok_of_check (f := fun x => x.1.tree.exists [py!"data", py!"b"]) (r := (shareJob py!"out").alone storeWorld) (by decide +kernel)
  exact ⟨x.1, x.2, hx, hb⟩

/-- The two destinations. -/
def shareDest : Bool → Str
  | true => py!"out"
  | false => py!"other"

theorem shareDest_or (i : Bool) : shareDest i = py!"out" ∨ shareDest i = py!"other" := by cases i <;> decide

end Sample

/-- The hypotheses of `C120_together` are met: the sample is restored twice at the same time, to `/home/out` and to
`/home/other`, and the first has its data file whatever the order. -/
example (order : List Bool) (r : Except PyErr RBag)
    (h : (takeTurns order (fun i => (Sample.shareJob (Sample.shareDest i)).doing, Sample.storeWorld)).1 true = .done r) :
    ∃ b, r = .ok b ∧ b.tree.exists [py!"data", py!"b"] = true ∧
      BagAt (takeTurns order (fun i => (Sample.shareJob (Sample.shareDest i)).doing, Sample.storeWorld)).2 [py!"home", py!"out"] b.tree := by
  obtain ⟨b, W', h1, h2⟩ := Sample.share_alone
  obtain ⟨h3, h4⟩ := C120_together (ι := Bool) (jobs := fun i => Sample.shareJob (Sample.shareDest i)) (wd := fun _ => [py!"home"])
    (D := fun i => [py!"home", Sample.shareDest i]) (R := fun _ => Sample.shareSources)
    (fun i => Sample.share_ready _ (Sample.shareDest_or i)) (by unfold Inside; decide) (by unfold Inside; decide) order true h
  have h1 : (Sample.shareJob (Sample.shareDest true)).alone Sample.storeWorld = .ok (b, W') := h1
  rw [h1] at h3
  exact ⟨b, h3, h2, (h4 b W' h1).1⟩

/-- The hypotheses of `C120_undisturbed` are met: a file appears in `/home` before the restore begins. -/
example : Alongside (KeepsOff [py!"home", py!"out"] Sample.shareSources) (Sample.shareJob py!"out").doing Sample.storeWorld
    (Sample.shareJob py!"out").doing (dset Sample.storeWorld [py!"home", py!"f"] (.file py!"x")) := by
  have other : ∀ d : Path, ¬ Inside [py!"home", py!"f"] d → ¬ Inside d [py!"home", py!"f"] →
      LeftAlone d Sample.storeWorld (dset Sample.storeWorld [py!"home", py!"f"] (.file py!"x")) := by
    intro d h1 h2
    have ht := touches_dset (D := [py!"home", py!"f"]) Sample.storeWorld [] (.file py!"x")
    refine ⟨fun q hq => sameThing_of_dget (ht.same q fun h => ?_), ht.order d h1 h2⟩
    rcases List.prefix_or_prefix_of_prefix h hq with h3 | h3
    · exact h1 h3
    · exact h2 h3
  refine .other ⟨by decide +kernel, other _ (by unfold Inside; decide) (by unfold Inside; decide), fun r hr => ?_⟩
    (.refl _ _)
  have : r = [py!"store", py!"hb"] ∨ r = [py!"store", py!"m1"] ∨ r = [py!"store", py!"hb.zip"] ∨ r = [py!"store", py!"m1.zip"] := by
    simpa [Sample.shareSources] using hr
  rcases this with rfl | rfl | rfl | rfl <;>
    exact other _ (by unfold Inside; decide) (by unfold Inside; decide)

namespace Sample

def failed {α : Type} : Doing α → Bool
  | .done (.error _) => true
  | _ => false

end Sample

/-- C120, its limit: two restores of one head bag to one new place, each of which succeeds when it runs alone.  If both look
for the destination before either makes it, the second fails. -/
theorem C120_negation_same : ∃ (W : Tree) (jobs : Bool → RestoreJob) (wd D : Path) (R : List Path) (order : List Bool) (e : PyErr),
    (∀ i, ReadyToRestore W (jobs i) wd D R) ∧ (∀ i, ∃ b W', (jobs i).alone W = .ok (b, W')) ∧
    (takeTurns order (fun i => (jobs i).doing, W)).1 false = .done (.error e) := by
  have hf : Sample.failed ((takeTurns ((List.replicate 10 [true, false]).flatten) (fun _ : Bool => (Sample.shareJob py!"out").doing, Sample.storeWorld)).1
    false) = true := by decide +kernel
  have : ∃ e, (takeTurns ((List.replicate 10 [true, false]).flatten) (fun _ : Bool => (Sample.shareJob py!"out").doing, Sample.storeWorld)).1
    false = .done (.error e) := by
    unfold Sample.failed at hf
    split at hf
    · exact ⟨_, by assumption⟩
    · cases hf
  obtain ⟨e, he⟩ := this
  obtain ⟨b, W', h1, _⟩ := Sample.share_alone
  exact ⟨Sample.storeWorld, fun _ => Sample.shareJob py!"out", [py!"home"], [py!"home", py!"out"], Sample.shareSources, _, e,
    fun _ => Sample.share_ready _ (.inl rfl), fun _ => ⟨b, W', h1⟩, he⟩

end Verif
