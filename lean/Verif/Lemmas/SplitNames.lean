import Verif.Lemmas.PlanText
import Verif.Props.ReplicateText
import Verif.Spec.SplitNames
/-!
# Output bags with any names: lemmas
-/

namespace Verif
open Spec

theorem ldisk_isdir_dset {d : LDisk} {t : LTree} {p x : Path} {n : LNode} (ht : t = dset d.names p n) (hn : dget d.names p = none)
    (h : d.isdir x = true) {d' : LDisk} (e : d'.names = t) : d'.isdir x = true := by
  rcases ldisk_isdir_iff.1 h with h | h
  · exact ldisk_isdir_iff.2 (.inl h)
  · refine ldisk_isdir_iff.2 (.inr ?_)
    rw [e, ht, dget_dset, if_neg]
    · exact h
    · rintro rfl; rw [hn] at h; cases h

/-- Something new in a directory that is there leaves a disk rooted. -/
theorem rooted_dset {d d' : LDisk} (hr : Rooted d) {p : Path} {n : LNode} (hp : d.exists p = false)
    (hd : d.isdir p.dropLast = true) (e : d'.names = dset d.names p n) : Rooted d' := by
  have hn := (ldisk_exists_false.1 hp).2
  intro x y hy hex
  refine ldisk_isdir_dset rfl hn ?_ e
  by_cases hxy : x ++ y = p
  · have hdl : p.dropLast = x ++ y.dropLast := by rw [← hxy, List.dropLast_append_of_ne_nil hy]
    by_cases h0 : y.dropLast = []
    · rw [hdl, h0, List.append_nil] at hd; exact hd
    · exact hr x _ h0 (by rw [← hdl]; exact isdir_exists hd)
  · refine hr x y hy ?_
    unfold LDisk.exists at hex ⊢
    rw [e, dget_dset, if_neg (fun h => hxy h.symm)] at hex
    exact hex

theorem rooted_same {d d' : LDisk} (hr : Rooted d) (e : d'.names = d.names) : Rooted d' := by
  intro x y hy hex
  have := hr x y hy (by unfold LDisk.exists at hex ⊢; rw [← e]; exact hex)
  unfold LDisk.isdir at this ⊢
  rw [e]; exact this

theorem rooted_up {d : LDisk} (hr : Rooted d) {p : Path} (h : d.isdir p = true) : d.isdir p.dropLast = true := by
  by_cases hp : p = []
  · subst hp; exact h
  · refine hr p.dropLast [p.getLast hp] (by simp) ?_
    rw [List.dropLast_concat_getLast]; exact isdir_exists h

theorem rooted_go {d : LDisk} (hr : Rooted d) {cs : List Str} {cur p : Path} (h : d.go cur cs = some p)
    (hc : d.isdir cur.dropLast = true) : d.isdir p.dropLast = true := by
  induction cs generalizing cur with
  | nil => cases h; exact hc
  | cons c cs ih =>
    unfold LDisk.go at h
    split at h
    · cases h
    · next hd =>
      have hd : d.isdir cur = true := by simpa using hd
      split at h
      · exact ih h hc
      · split at h
        · exact ih h (rooted_up hr hc)
        · exact ih h (by rw [List.dropLast_concat]; exact hd)

theorem rooted_mkdir {d : LDisk} (hr : Rooted d) (cs : List Str) : Rooted (d.mkdir cs).2 := by
  unfold LDisk.mkdir
  split
  · exact hr
  · next p hp =>
    split
    · exact hr
    · next he => exact rooted_dset hr (by simpa using he) (rooted_go hr hp (by simp [LDisk.isdir])) rfl

theorem rooted_mkdirs {rs : List Str} {d : LDisk} (hr : Rooted d) : Rooted (d.mkdirs rs).2 := by
  induction rs generalizing d with
  | nil => exact hr
  | cons c up ih =>
    have hs := ih hr
    unfold LDisk.mkdirs
    split
    · exact rooted_mkdir hr _
    · split
      · next e => rw [e] at hs; exact hs
      · next e =>
        rw [e] at hs
        split
        · exact hs
        · exact rooted_mkdir hs _

theorem rooted_makedirsAt {d : LDisk} (hr : Rooted d) (s : Str) : Rooted (d.makedirsAt s).2 := by
  have := rooted_mkdirs (rs := ((splitOn '/' s).filter (· ≠ [])).reverse) hr
  unfold LDisk.makedirsAt
  split
  · next e => rw [e] at this; exact this
  · next e => rw [e] at this; exact this

theorem rooted_write {d d' : LDisk} (hr : Rooted d) {p : Path} {s : Str} (h : d.write p s = .ok d') : Rooted d' := by
  unfold LDisk.write at h
  split at h
  · cases h
  · next hc =>
    simp only [Bool.or_eq_true, Bool.not_eq_true', not_or, Bool.not_eq_true, Bool.not_eq_false] at hc
    split at h
    · injection h with h; subst h; exact rooted_same hr rfl
    · next hnf =>
      injection h with h
      subst h
      refine rooted_dset (p := p) (n := .file d.next) hr ?_ hc.2 rfl
      refine ldisk_exists_false.2 ⟨?_, ?_⟩
      · rintro rfl; simp [LDisk.isdir] at hc
      · cases hg : dget d.names p with
        | none => rfl
        | some n =>
          cases n with
          | dir => simp [LDisk.isdir, hg] at hc
          | file i => exact absurd hg (hnf i)

theorem rooted_linkAt {d d' : LDisk} (hr : Rooted d) {src dst : Str} (h : d.linkAt src dst = some d') : Rooted d' := by
  unfold LDisk.linkAt at h
  split at h
  · split at h
    · next i hi =>
      split at h
      · next hc =>
        injection h with h
        subst h
        simp only [Bool.and_eq_true, Bool.not_eq_true'] at hc
        exact rooted_dset (n := .file i) hr hc.1 hc.2 rfl
      · cases h
    · cases h
  · cases h

theorem rooted_copyAt {d d' : LDisk} (hr : Rooted d) {src dst : Str} (h : d.copyAt src dst = some d') : Rooted d' := by
  rw [copyAt_eq] at h
  split at h
  · split at h
    · split at h
      · cases h
      · split at h
        · next hw => injection h with h; subst h; exact rooted_write hr hw
        · cases h
    · cases h
  · cases h

theorem rooted_copyOrForgetAt {d : LDisk} (hr : Rooted d) (c : TextCall) : Rooted (d.copyOrForgetAt c).2 := by
  unfold LDisk.copyOrForgetAt
  split
  · next e => exact rooted_copyAt hr e
  · split <;> exact hr

theorem rooted_linkOrCopyAt {d : LDisk} (hr : Rooted d) (c : TextCall) : Rooted (d.linkOrCopyAt c).2 := by
  unfold LDisk.linkOrCopyAt
  split
  · split
    · next e =>
      split at e
      · exact rooted_linkAt hr e
      · cases e
    · split
      · exact hr
      · exact rooted_copyOrForgetAt hr c
  · exact rooted_copyOrForgetAt hr c

theorem rooted_parentMade {d : LDisk} (hr : Rooted d) (s : Str) : Rooted (parentMade d s).2 := by
  unfold parentMade
  split
  · exact hr
  · exact rooted_makedirsAt hr _

theorem rooted_replicateAt {d : LDisk} (hr : Rooted d) (c : TextCall) : Rooted (d.replicateAt c).2 := by
  unfold LDisk.replicateAt
  split
  · exact hr
  · split
    · exact hr
    · simp only
      split
      · split
        · exact hr
        · exact rooted_makedirsAt hr _
      · have := rooted_parentMade hr (pathJoin c.dest c.path)
        unfold parentMade at this
        split
        · next e => rw [e] at this; exact this
        · next e => rw [e] at this; exact rooted_linkOrCopyAt this c

theorem rooted_putEntry {d : LDisk} (hr : Rooted d) (c : Filling) (f : Str) : Rooted (d.putEntry c f).2 := by
  unfold LDisk.putEntry
  split
  · exact hr
  · simp only
    split
    · split
      · exact hr
      · have := rooted_makedirsAt hr (pathJoin c.out f)
        split
        · next e => rw [e] at this; exact this
        · next e => rw [e] at this; exact this
    · have := rooted_parentMade hr (pathJoin c.out f)
      unfold parentMade at this
      split
      · next e => rw [e] at this; exact this
      · next e =>
        rw [e] at this
        have := rooted_replicateAt this (c.call f)
        unfold Filling.call at this
        split
        · next e => rw [e] at this; exact this
        · next e =>
          rw [e] at this
          split <;> exact this

theorem rooted_putEntries (c : Filling) (fs : List Str) : ∀ {d : LDisk}, Rooted d → Rooted (d.putEntries c fs).2 := by
  induction fs with
  | nil => intro d hr; exact hr
  | cons f fs ih =>
    intro d hr
    have h1 := rooted_putEntry hr c f
    unfold LDisk.putEntries
    split
    · next e => rw [e] at h1; exact h1
    · next e =>
      rw [e] at h1
      have h2 := ih h1
      split
      · next e => rw [e] at h2; exact h2
      · next e => rw [e] at h2; exact h2

theorem andThen_ok {e : Ended} {f : LDisk → Ended} (h : (e.andThen f).1 = .ok ()) :
    e.1 = .ok () ∧ (e.andThen f) = f e.2 := by
  obtain ⟨r, d⟩ := e
  cases r with
  | ok u => exact ⟨rfl, rfl⟩
  | error x => cases h

/-- What holds after each thing that is done holds in the end. -/
theorem andThen_holds {P : LDisk → Prop} {e : Ended} {f : LDisk → Ended} (h : P e.2) (hf : ∀ d, P d → P (f d).2) :
    P (e.andThen f).2 := by
  obtain ⟨r, d⟩ := e
  cases r with
  | ok u => exact hf d h
  | error x => exact h

theorem rooted_mkdirAt {d : LDisk} (hr : Rooted d) (s : Str) : Rooted (d.mkdirAt s).2 := by
  have := rooted_mkdir hr ((splitOn '/' s).filter (· ≠ []))
  unfold LDisk.mkdirAt
  split
  · next e => rw [e] at this; exact this
  · next e => rw [e] at this; exact this

theorem rooted_writeAt {d : LDisk} (hr : Rooted d) (s t : Str) : Rooted (d.writeAt s t).2 := by
  unfold LDisk.writeAt
  split
  · exact hr
  · split
    · next e => exact rooted_write hr e
    · exact hr

theorem rooted_writeAll (dir : Str) (ts : List (Str × Str)) : ∀ {d : LDisk}, Rooted d → Rooted (d.writeAll dir ts).2 := by
  induction ts with
  | nil => intro d hr; exact hr
  | cons t ts ih => intro d hr; exact andThen_holds (rooted_writeAt hr _ _) fun d h => ih h

theorem rooted_writeHead (dir : Str) (t : Str × Str × Str) {d : LDisk} (hr : Rooted d) : Rooted (d.writeHead dir t).2 := by
  unfold LDisk.writeHead
  refine andThen_holds ?_ fun d h => rooted_writeAll _ _ h
  split
  · exact hr
  · exact rooted_mkdirAt hr _

theorem rooted_writeMeta (dir : Str) (o : Output) {d : LDisk} (hr : Rooted d) : Rooted (d.writeMeta dir o).2 := by
  unfold LDisk.writeMeta
  refine andThen_holds (rooted_writeAll _ _ hr) fun d h => andThen_holds (rooted_writeAll _ _ h) fun d h => ?_
  split
  · exact h
  · exact rooted_writeHead _ _ h

theorem rooted_putAll (c : Filling) (fs : List Str) {d : LDisk} (hr : Rooted d) : Rooted (d.putAll c fs).2 := by
  have := rooted_putEntries c fs hr
  unfold LDisk.putAll
  split
  · next e => rw [e] at this; exact this
  · next e => rw [e] at this; exact this

theorem rooted_makeBag (m : BagMaking) (o : Output) {d : LDisk} (hr : Rooted d) : Rooted (d.makeBag m o).2 := by
  unfold LDisk.makeBag
  exact andThen_holds (rooted_mkdirAt hr _) fun _ h => andThen_holds (rooted_mkdirAt h _) fun _ h =>
    andThen_holds (rooted_writeAll _ _ h) fun _ h => andThen_holds (rooted_replicateAt h _) fun _ h =>
    andThen_holds (rooted_putAll _ _ h) fun _ h => rooted_writeMeta _ _ h

end Verif

namespace Verif
open Spec

theorem parts_abs {s : Str} {D : Path} (h : AbsPath s D) : (splitOn '/' s).filter (· ≠ []) = D := by
  rw [h.2, splitOn_cons_sep, List.filter_cons_of_neg (by simp)]
  rw [show splitOn '/' (joinWith ['/'] D) = D from splitOn_joinWith h.1.1 fun c hc => (h.1.2 c hc).noslash]
  rw [List.filter_eq_self]
  intro c hc
  simpa using (h.1.2 c hc).nonempty

/-- A directory is made where nothing is, or nothing happens. -/
theorem mkdirAt_abs {d : LDisk} {s : Str} {D : Path} (h : AbsPath s D) :
    d.mkdirAt s = (.error .osError, d) ∨
    (d.exists D = false ∧ d.mkdirAt s = (.ok (), { d with names := dset d.names D .dir })) := by
  unfold LDisk.mkdirAt
  rw [parts_abs h]
  unfold LDisk.mkdir
  cases hg : d.go [] D with
  | none => exact .inl rfl
  | some p =>
    have e := go_follow hg
    rw [follow_good _ h.1.2, List.nil_append] at e
    subst e
    simp only
    cases hx : d.exists p with
    | true => exact .inl rfl
    | false => exact .inr ⟨rfl, rfl⟩

theorem mkdirAt_taken {d : LDisk} {s : Str} {D : Path} (h : AbsPath s D) (hx : d.exists D = true) :
    d.mkdirAt s = (.error .osError, d) := by
  rcases mkdirAt_abs (d := d) h with e | ⟨e, _⟩
  · exact e
  · rw [hx] at e; cases e

/-- Two directories, one of which has just been made. -/
theorem sideBySide_new {d : LDisk} (hr : Rooted d) {B D : Path} (hB0 : B ≠ []) (hB : d.isdir B = true) (hD : d.exists D = false)
    (ho : ¬ Inside B D) : SideBySide B D := by
  refine ⟨hB0, fun z hz => ?_⟩
  rcases List.prefix_or_prefix_of_prefix hz (List.prefix_append B z) with e | e
  · rw [isdir_exists (hasDir_of_rooted hr hB D e)] at hD; cases hD
  · exact ho e

theorem below_new {d : LDisk} (hr : Rooted d) {D : Path} (hD : d.exists D = false) (x : Path) : dget d.names (D ++ x) = none := by
  cases hg : dget d.names (D ++ x) with
  | none => rfl
  | some n =>
    by_cases hx : x = []
    · subst hx
      rw [List.append_nil, (ldisk_exists_false.1 hD).2] at hg; cases hg
    · rw [isdir_exists (hr D x hx (exists_of_file hg))] at hD; cases hD

theorem fillable_new {d d1 : LDisk} (hr : Rooted d) (hi : InodesOk d) (B : Path) {D : Path} (hD : d.exists D = false)
    (hr1 : Rooted d1) (e : d1 = { d with names := dset d.names D .dir }) :
    Fillable B D d1 ∧ ∀ x i, dget d1.names (D ++ x) ≠ some (.file i) := by
  have hfile : ∀ p i, dget d1.names p = some (.file i) → dget d.names p = some (.file i) := by
    intro p i hp
    rw [e] at hp
    simp only [dget_dset] at hp
    split at hp
    · cases hp
    · exact hp
  have hno : ∀ x i, dget d1.names (D ++ x) ≠ some (.file i) := by
    intro x i h
    have := hfile _ _ h
    rw [below_new hr hD] at this; cases this
  refine ⟨⟨fun p i hp => by rw [e]; exact hi p i (hfile p i hp), fun x i q h => absurd h (hno x i),
    fun x y hy _ he => hr1 x y hy he, hasDir_of_rooted hr1 ?_⟩, hno⟩
  refine ldisk_isdir_iff.2 (.inr ?_)
  rw [e]
  simp only [dget_dset, if_pos]

theorem filled_mkdirAt {X : Path → Prop} {B D : Path} {d : LDisk} (h : Fillable B D d) {s : Str} (hg : ∀ c ∈ D, GoodName c)
    (hw : OnWay D (parts s)) : Filled X B D d (d.mkdirAt s).2 := by
  have := mkdir_dirs hg h.dir hw
  unfold parts at this
  unfold LDisk.mkdirAt
  split
  · next e => rw [e] at this; exact filled_dirs h this
  · next e => rw [e] at this; exact filled_dirs h this

/-- The bag is filled, and some files have arrived. -/
def Having (X : Path → Prop) (B D : Path) (S : Path → Prop) (d0 d : LDisk) : Prop :=
  Filled X B D d0 d ∧ ∀ x, S x → X x ∧ Delivered B D d x

theorem having_trans {X : Path → Prop} {B D : Path} {S : Path → Prop} {d0 d d' : LDisk} (h : Having X B D S d0 d)
    (h' : Filled X B D d d') : Having X B D S d0 d' :=
  ⟨filled_trans h.1 h', fun x hx => ⟨(h.2 x hx).1, h'.same x (h.2 x hx).1 (h.2 x hx).2⟩⟩

/-- A file is written in the output bag where no file of the source is linked. -/
theorem having_writeAt {X S : Path → Prop} {B D : Path} (hBD : SideBySide B D) {d0 d : LDisk}
    (hnew : ∀ x i, dget d0.names (D ++ x) ≠ some (.file i)) (h : Having X B D S d0 d) {s text : Str} {z : Path}
    (hz : leadsTo [] s = D ++ z) (hX : ¬ X z) : Having X B D S d0 (d.writeAt s text).2 := by
  unfold LDisk.writeAt
  split
  · exact h
  · next p hp =>
    have e := place_leads hp
    rw [hz] at e
    subst e
    split
    · next d1 hw =>
      refine having_trans h (filled_write hBD h.1.after hw ?_ (fun hx => absurd hx hX))
      intro j hj hk
      rcases h.1.linked z j hj (by rw [← hk]; exact (outside_source hBD h.1.grown _).symm) with h1 | h1
      · exact hnew _ _ h1
      · exact hX h1
    · exact h

theorem having_writeAll {X S : Path → Prop} {B D : Path} (hBD : SideBySide B D) {d0 : LDisk}
    (hnew : ∀ x i, dget d0.names (D ++ x) ≠ some (.file i)) {dir : Str} (ts : List (Str × Str))
    (hts : ∀ t ∈ ts, ∃ z, leadsTo [] (pathJoin dir t.1) = D ++ z ∧ ¬ X z) :
    ∀ {d : LDisk}, Having X B D S d0 d → Having X B D S d0 (d.writeAll dir ts).2 := by
  induction ts with
  | nil => intro d h; exact h
  | cons t ts ih =>
    intro d h
    obtain ⟨z, hz, hX⟩ := hts t (by simp)
    exact andThen_holds (having_writeAt hBD hnew h hz hX) fun d h => ih (fun t ht => hts t (by simp [ht])) h

theorem good_down {n : Str} (h : GoodName n) : Downwards n ∧ placeBelow n = [n] := by
  have hs : splitOn '/' n = [n] := splitOn_noSep h.noslash
  refine ⟨⟨fun e => h.noslash (List.mem_of_head? e), ?_⟩, ?_⟩
  · rw [hs]; simp only [List.mem_singleton]; exact fun e => h.nodotdot e.symm
  · unfold placeBelow
    rw [hs, follow_good _ (by simpa using h)]; rfl

theorem leads_name {b : Str} {D : Path} (hD : AbsPath b D) {n : Str} (h : GoodName n) : leadsTo [] (pathJoin b n) = D ++ [n] := by
  rw [leads_join hD (good_down h).1, (good_down h).2]

theorem abs_name {b : Str} {D : Path} (hD : AbsPath b D) {n : Str} (h : GoodName n) : AbsPath (pathJoin b n) (D ++ [n]) := by
  have hp : GoodPath [n] := ⟨by simp, by simpa using h⟩
  refine ⟨⟨by simp, fun c hc => ?_⟩, join_good hD hp⟩
  rcases List.mem_append.1 hc with hc | hc
  · exact hD.1.2 c hc
  · exact hp.2 c hc

theorem good_lit (n : Str) (h1 : n ≠ [] := by decide) (h2 : '/' ∉ n := by decide) (h3 : n ≠ ['.'] := by decide)
    (h4 : n ≠ ['.', '.'] := by decide) : GoodName n := ⟨h1, h2, h3, h4⟩

/-- The places where files of the source may be linked. -/
def mayLink (m : BagMaking) (o : Output) (x : Path) : Prop := x ∉ ownFiles m o

theorem having_writeMeta {m : BagMaking} {o : Output} {B D : Path} {S : Path → Prop} (hBD : SideBySide B D) {d0 : LDisk}
    (hnew : ∀ x i, dget d0.names (D ++ x) ≠ some (.file i)) (hs : Sound m B o D) {d : LDisk}
    (h : Having (mayLink m o) B D S d0 d) : Having (mayLink m o) B D S d0 (d.writeMeta (pathJoin m.outdir o.name) o).2 := by
  have hmb := abs_name hs.place (good_lit py!"multibag")
  unfold LDisk.writeMeta
  refine andThen_holds (having_writeAll hBD hnew _ ?_ h) fun d h => andThen_holds (having_writeAll hBD hnew _ ?_ h) fun d h => ?_
  · intro t ht
    have hm : t.1 ∈ m.manifests ++ o.hashes.map (·.1) := List.mem_append_right _ (List.mem_map_of_mem ht)
    refine ⟨[t.1], leads_name hs.place (hs.manifests _ hm).1, fun hx => hx ?_⟩
    unfold ownFiles
    exact List.mem_append_left _ (List.mem_map_of_mem (List.mem_append_left _ hm))
  · intro t ht
    simp only [List.mem_singleton] at ht
    subst ht
    refine ⟨[py!"bag-info.txt"], leads_name hs.place (good_lit py!"bag-info.txt"), fun hx => hx ?_⟩
    unfold ownFiles
    exact List.mem_append_left _ (List.mem_map_of_mem (List.mem_append_right _ (by simp)))
  · split
    · exact h
    · next texts _ =>
      unfold LDisk.writeHead
      refine andThen_holds ?_ fun d h => having_writeAll hBD hnew _ ?_ h
      · split
        · exact h
        · exact having_trans h (filled_mkdirAt h.1.after hs.place.1.2
            (onWay_join hs.place (good_down (good_lit py!"multibag")).1.1 (good_down (good_lit py!"multibag")).1.2))
      · intro t ht
        simp only [List.mem_cons, List.not_mem_nil, or_false] at ht
        have key : ∀ n, GoodName n → [py!"multibag", n] ∈ ownFiles m o →
            ∃ z, leadsTo [] (pathJoin (pathJoin (pathJoin m.outdir o.name) py!"multibag") n) = D ++ z ∧ ¬ mayLink m o z :=
          fun n hn ho => ⟨_, by rw [leads_name hmb hn, List.append_assoc]; rfl, fun hx => hx ho⟩
        rcases ht with rfl | rfl | rfl
        · exact key py!"member-bags.tsv" (good_lit _) (by unfold ownFiles; simp)
        · exact key py!"file-lookup.tsv" (good_lit _) (by unfold ownFiles; simp)
        · exact key py!"aggregation-info.txt" (good_lit _) (by unfold ownFiles; simp)

theorem bagit_free {m : BagMaking} {o : Output} {B D : Path} (hs : Sound m B o D) : mayLink m o [py!"bagit.txt"] := by
  intro h
  unfold ownFiles at h
  simp only [List.mem_append, List.mem_map, List.mem_singleton, List.mem_cons, List.not_mem_nil, or_false] at h
  rcases h with ⟨n, hn, e⟩ | h
  · injection e with e
    rcases hn with hn | rfl
    · exact (hs.manifests n (by simpa using hn)).2 e
    · revert e; decide
  · revert h; decide

/-- What an output bag does to the disk once its directory is made; its contents arrive if it ends well. -/
theorem filled_makeBag {m : BagMaking} {o : Output} {B D : Path} (hB : AbsPath m.bag B) (hs : Sound m B o D) {d : LDisk}
    (hr : Rooted d) (hi : InodesOk d) (hbag : d.isdir B = true) :
    d.makeBag m o = (.error .osError, d) ∨
    (d.exists D = false ∧ SideBySide B D ∧
      Filled (mayLink m o) B D { d with names := dset d.names D .dir } (d.makeBag m o).2 ∧
      ((d.makeBag m o).1 = .ok () → (∀ f ∈ o.entries, ∀ k, dget d.names (B ++ placeBelow f) = some (.file k) →
        Delivered B D (d.makeBag m o).2 (placeBelow f)) ∧
        ∃ d0 d1 : LDisk, (∀ x i, dget d0.names (D ++ x) ≠ some (.file i)) ∧ Filled (mayLink m o) B D d0 d1 ∧
          d.makeBag m o = d1.writeMeta (pathJoin m.outdir o.name) o)) := by
  have hroot := rooted_mkdirAt hr (pathJoin m.outdir o.name)
  unfold LDisk.makeBag
  rcases mkdirAt_abs (d := d) hs.place with e | ⟨hD, e⟩
  · left; simp only [e]; rfl
  · right
    have hBD := sideBySide_new hr hB.1.1 hbag hD hs.outside
    rw [e] at hroot
    obtain ⟨hfill, hnew⟩ := fillable_new hr hi B hD hroot rfl
    refine ⟨hD, hBD, ?_⟩
    simp only [e]
    generalize hd0 : ({ d with names := dset d.names D .dir } : LDisk) = d0
    rw [hd0] at hfill hnew
    have hsrc : ∀ x, dget d0.names (B ++ x) = dget d.names (B ++ x) := by
      intro x
      rw [← hd0]
      simp only [dget_dset]
      rw [if_neg]
      exact fun e => hBD.2 x (e ▸ List.prefix_refl _)
    have hdata := good_down (good_lit py!"data")
    have hbt := good_down (good_lit py!"bagit.txt")
    have h1 : ∀ d, Filled (mayLink m o) B D d0 d →
        Filled (mayLink m o) B D d0 (d.mkdirAt (pathJoin (pathJoin m.outdir o.name) py!"data")).2 :=
      fun d h => filled_trans h <| filled_mkdirAt h.after hs.place.1.2 (onWay_join hs.place hdata.1.1 hdata.1.2)
    have h2 : ∀ d, Filled (mayLink m o) B D d0 d → Filled (mayLink m o) B D d0
        (d.writeAll (pathJoin m.outdir o.name) (m.manifests.map fun n => (n, []))).2 := fun d h => by
      refine (having_writeAll (S := fun _ => False) hBD hnew _ ?_ ⟨h, fun _ hx => hx.elim⟩).1
      intro t ht
      obtain ⟨n, hn, rfl⟩ := List.mem_map.1 ht
      have hm : n ∈ m.manifests ++ o.hashes.map (·.1) := List.mem_append_left _ hn
      refine ⟨[n], leads_name hs.place (hs.manifests _ hm).1, fun hx => hx ?_⟩
      unfold ownFiles
      exact List.mem_append_left _ (List.mem_map_of_mem (List.mem_append_left _ hm))
    let c : Filling := { bag := m.bag, out := pathJoin m.outdir o.name, hardlink := m.hardlink, canLink := m.canLink }
    have h3 : ∀ d, Filled (mayLink m o) B D d0 d → Filled (mayLink m o) B D d0 (d.replicateAt (c.call py!"bagit.txt")).2 :=
      fun d h => filled_trans h (filled_replicate (c := c) hBD h.after hB hs.place hbt.1 (by rw [hbt.2]; exact bagit_free hs)).1
    have hfree : ∀ f ∈ o.entries, mayLink m o (placeBelow f) := fun f hf => by
      have := hs.free f hf
      rw [leads_below (hs.down f hf)] at this
      exact this
    have h4 : ∀ d, Filled (mayLink m o) B D d0 d → Filled (mayLink m o) B D d0 (d.putAll c o.entries).2 ∧
        ((d.putAll c o.entries).1 = .ok () → ∀ f ∈ o.entries, ∀ k, dget d0.names (B ++ placeBelow f) = some (.file k) →
          Delivered B D (d.putAll c o.entries).2 (placeBelow f)) := by
      intro d h
      obtain ⟨g1, g2⟩ := filled_putEntries (X := mayLink m o) (c := c) hBD hB hs.place o.entries h.after hs.down hfree
      have e : (d.putAll c o.entries).2 = (d.putEntries c o.entries).2 := by
        unfold LDisk.putAll
        split <;> next e => rw [e]
      rw [e]
      refine ⟨filled_trans h g1, fun hok f hf k hk => ?_⟩
      cases hq : (d.putEntries c o.entries).1 with
      | error x =>
        exfalso
        unfold LDisk.putAll at hok
        split at hok
        · next e' => rw [e'] at hq; cases hq
        · cases hok
      | ok l =>
        obtain ⟨_, s2, s3⟩ := g2 l hq
        exact s2 f (s3 f hf k (by rw [← hk]; exact outside_source hBD h.grown _))
    have h5 : ∀ S d, Having (mayLink m o) B D S d0 d → Having (mayLink m o) B D S d0
        (d.writeMeta (pathJoin m.outdir o.name) o).2 := fun S d h => having_writeMeta hBD hnew hs h
    refine ⟨andThen_holds (filled_refl hfill) fun d h => andThen_holds (h1 d h) fun d h => andThen_holds (h2 d h) fun d h => andThen_holds (h3 d h) fun d h =>
      andThen_holds (h4 d h).1 fun d h => (h5 (fun _ => False) d ⟨h, fun _ hx => hx.elim⟩).1, fun hok => ?_⟩
    obtain ⟨_, e1⟩ := andThen_ok hok
    simp only [e1] at hok ⊢
    obtain ⟨_, e1⟩ := andThen_ok hok
    simp only [e1] at hok ⊢
    obtain ⟨_, e1⟩ := andThen_ok hok
    simp only [e1] at hok ⊢
    obtain ⟨_, e1⟩ := andThen_ok hok
    simp only [e1] at hok ⊢
    obtain ⟨hput, e1⟩ := andThen_ok hok
    simp only [e1] at hok ⊢
    have g := h4 _ (h3 _ (h2 _ (h1 _ (filled_refl hfill))))
    exact ⟨fun f hf k hk => ((h5 (fun x => x = placeBelow f) _ ⟨g.1, by
      rintro x rfl
      exact ⟨hfree f hf, g.2 hput f hf k (by rw [hsrc]; exact hk)⟩⟩).2 _ rfl).2, d0, _, hnew, g.1, rfl⟩

end Verif
