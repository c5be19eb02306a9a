import Verif.Lemmas.RestoreAll
/-!
# The whole of a restore
-/

namespace Verif

open Spec

theorem mem_readDeleted_ne_nil {m : TextMode} {s x : Str} (h : x ∈ readDeleted m s) : x ≠ [] := by
  unfold readDeleted at h
  obtain ⟨l, _, hl⟩ := List.mem_filterMap.1 h
  split at hl
  · rename_i hne
    cases hl
    exact hne
  · cases hl

theorem nil_notMem_deleted {m : TextMode} {t : Tree} {info : Info} {deleted : List Str}
    (h : iterDeleted m t info = .ok deleted) : [] ∉ deleted := by
  unfold iterDeleted at h
  split at h
  · cases h; simp
  · cases h
    intro hx
    exact mem_readDeleted_ne_nil hx rfl
  · cases h

theorem deleted_pySet {deleted : List Str} {p : Path} : Deleted (pySet deleted) p ↔ Deleted deleted p := by
  unfold Deleted
  simp only [mem_pySet]

/-- The steps of a successful restore. -/
theorem restore_parts {E : RestoreEnv} {H : RHead} {us rm : Bool} {d out : Tree} (h : restore E H us rm d = .ok out) :
    ∃ deleted ms d1 d2 d3, iterDeleted H.mode H.tree H.info = .ok deleted ∧
      iterMembers H.mode H.tree H.info = .ok ms ∧
      startRestore E H (pySet deleted) d = .ok d1 ∧
      restoreMembers E (pySet deleted) (otherMembers H (ms.map (fun m => m.name))) d1 = .ok d2 ∧
      (if otherMembers H (ms.map (fun m => m.name)) = [] then .ok d2
        else restoreFetch E (otherMembers H (ms.map (fun m => m.name))) d2) = .ok d3 ∧
      finishRestore E us rm d3 = .ok out := by
  unfold restore at h
  cases h1 : iterDeleted H.mode H.tree H.info with
  | error e => rw [h1] at h; cases h
  | ok deleted =>
    rw [h1] at h
    simp only at h
    cases h2 : iterMembers H.mode H.tree H.info with
    | error e => rw [h2] at h; cases h
    | ok ms =>
      rw [h2] at h
      simp only at h
      cases h3 : startRestore E H (pySet deleted) d with
      | error e => rw [h3] at h; cases h
      | ok d1 =>
        rw [h3] at h
        simp only at h
        cases h4 : restoreMembers E (pySet deleted) (otherMembers H (ms.map (fun m => m.name))) d1 with
        | error e => rw [h4] at h; cases h
        | ok d2 =>
          rw [h4] at h
          simp only at h
          cases h5 : (if otherMembers H (ms.map (fun m => m.name)) = [] then .ok d2
              else restoreFetch E (otherMembers H (ms.map (fun m => m.name))) d2) with
          | error e => rw [h5] at h; cases h
          | ok d3 =>
            rw [h5] at h
            exact ⟨deleted, ms, d1, d2, d3, rfl, rfl, h3, h4, h5, h⟩

/-- The sources a restore copies from, in this order. -/
def sourcesOf (E : RestoreEnv) (H : RHead) (srcs : List RSource) : List RSource :=
  if H.path = E.base.bagpath then srcs else ⟨H.path, H.tree⟩ :: srcs

theorem good_baginfo' : GoodPath [py!"bag-info.txt"] := good_baginfo

/-- The start of a restore is a copy of the head after the metadata. -/
theorem startRestore_parts {E : RestoreEnv} {H : RHead} {skip : List Str} {d d1 : Tree}
    (h : startRestore E H skip d = .ok d1) :
    ∃ d0, (match H.tree.read aggregationInfo with
        | none => d0 = d
        | some c => d.write [py!"bag-info.txt"] (copiedText H.mode c) = .ok d0) ∧
      (if H.path = E.base.bagpath then d1 = d0 else restoreFrom E ⟨H.path, H.tree⟩ skip false d0 = .ok d1) := by
  unfold startRestore at h
  cases hr : H.tree.read aggregationInfo with
  | none =>
    rw [hr] at h
    simp only at h
    refine ⟨d, rfl, ?_⟩
    split at h
    · rename_i e; rw [if_pos e]; cases h; rfl
    · rename_i e; rw [if_neg e]; exact h
  | some c =>
    rw [hr] at h
    simp only at h
    cases hw : d.write [py!"bag-info.txt"] (copiedText H.mode c) with
    | error e => rw [hw] at h; cases h
    | ok d0 =>
      rw [hw] at h
      simp only at h
      refine ⟨d0, hw, ?_⟩
      split at h
      · rename_i e; rw [if_pos e]; cases h; rfl
      · rename_i e; rw [if_neg e]; exact h

theorem startRestore_init {H : RHead} {d d0 : Tree}
    (h : (match H.tree.read aggregationInfo with
        | none => d0 = d
        | some c => d.write [py!"bag-info.txt"] (copiedText H.mode c) = .ok d0)) :
    (∀ p, p ≠ [py!"bag-info.txt"] → dget d0 p = dget d p) ∧ (WfTree d → WfTree d0) ∧
    (∀ c, H.tree.read aggregationInfo = some c → dget d0 [py!"bag-info.txt"] = some (.file (copiedText H.mode c))) := by
  cases hr : H.tree.read aggregationInfo with
  | none => rw [hr] at h; subst h; exact ⟨fun _ _ => rfl, id, fun c hc => by cases hc⟩
  | some c =>
    rw [hr] at h
    refine ⟨fun p hp => ?_, fun hw => wf_write hw good_baginfo h, fun c' hc => ?_⟩
    · obtain ⟨rfl, _⟩ := Tree.write_ok h
      rw [dget_dset, if_neg (fun e => hp e.symm)]
    · obtain ⟨rfl, _⟩ := Tree.write_ok h
      cases hc
      rw [dget_dset, if_pos rfl]

theorem good_fetch : GoodPath [py!"fetch.txt"] :=
  ⟨by decide, by intro c hc; simp only [List.mem_singleton] at hc; subst hc; exact ⟨by decide, by decide, by decide, by decide⟩⟩

theorem restoreFetch_frame {E : RestoreEnv} {names : List Str} {d d' : Tree} (h : restoreFetch E names d = .ok d') :
    (∀ p, p ≠ [py!"fetch.txt"] → dget d' p = dget d p) ∧ (WfTree d → WfTree d') := by
  unfold restoreFetch at h
  split at h
  · cases h
  · cases h; exact ⟨fun _ _ => rfl, id⟩
  · refine ⟨fun p hp => ?_, fun hw => wf_write hw good_fetch h⟩
    obtain ⟨rfl, _⟩ := Tree.write_ok h
    rw [dget_dset, if_neg (fun e => hp e.symm)]

theorem fetchStep_frame {E : RestoreEnv} {names : List Str} {d d' : Tree}
    (h : (if names = [] then .ok d else restoreFetch E names d) = .ok d') :
    (∀ p, p ≠ [py!"fetch.txt"] → dget d' p = dget d p) ∧ (WfTree d → WfTree d') := by
  split at h
  · cases h; exact ⟨fun _ _ => rfl, id⟩
  · exact restoreFetch_frame h

/-- The list copied by a restore, as one list. -/
theorem restore_list {E : RestoreEnv} {H : RHead} {skip : List Str} {d d1 d2 : Tree} {names : List Str} {srcs : List RSource}
    (hf : Forall₂ (fun n s => E.find n = some s) names srcs)
    (h1 : startRestore E H skip d = .ok d1) (h2 : restoreMembers E skip names d1 = .ok d2) :
    ∃ d0, (∀ p, p ≠ [py!"bag-info.txt"] → dget d0 p = dget d p) ∧ (WfTree d → WfTree d0) ∧
      restoreList E skip (sourcesOf E H srcs) d0 = .ok d2 ∧
      ∀ c, H.tree.read aggregationInfo = some c → dget d0 [py!"bag-info.txt"] = some (.file (copiedText H.mode c)) := by
  obtain ⟨d0, hi, hr⟩ := startRestore_parts h1
  rw [restoreMembers_eq hf] at h2
  refine ⟨d0, (startRestore_init hi).1, (startRestore_init hi).2.1, ?_, (startRestore_init hi).2.2⟩
  unfold sourcesOf
  by_cases e : H.path = E.base.bagpath
  · rw [if_pos e] at hr ⊢
    subst hr
    exact h2
  · rw [if_neg e] at hr ⊢
    simp only [restoreList, hr]
    exact h2

/-- What is at each path after a restore. -/
theorem restore_dget {E : RestoreEnv} (hE : EnvOk E) {H : RHead} {us rm : Bool} {d out : Tree}
    (h : restore E H us rm d = .ok out) {deleted : List Str} (hd : iterDeleted H.mode H.tree H.info = .ok deleted)
    {ms : List MemberInfo} (hm : iterMembers H.mode H.tree H.info = .ok ms) {srcs : List RSource}
    (hf : Forall₂ (fun n s => E.find n = some s) (otherMembers H (ms.map (fun m => m.name))) srcs)
    (hH : WfTree H.tree) (hs : ∀ s ∈ srcs, WfTree s.tree ∧ s.path ≠ E.base.bagpath)
    {p : Path} (hne : p ≠ []) (hp : ¬ Special p) :
    (dget d p ≠ none → dget out p = dget d p) ∧
    (dget d p = none → Deleted deleted p → dget out p = none) ∧
    (dget d p = none → ¬ Deleted deleted p → dget out p = firstAt (sourcesOf E H srcs) p) := by
  obtain ⟨del', ms', d1, d2, d3, e1, e2, e3, e4, e5, e6⟩ := restore_parts h
  rw [hd] at e1
  cases e1
  rw [hm] at e2
  cases e2
  obtain ⟨d0, i1, i2, hl, _⟩ := restore_list hf e3 e4
  have hss : ∀ s ∈ sourcesOf E H srcs, WfTree s.tree ∧ s.path ≠ E.base.bagpath := by
    unfold sourcesOf
    intro s hx
    split at hx
    · exact hs s hx
    · rename_i hne
      rcases List.mem_cons.1 hx with rfl | hx
      · exact ⟨hH, hne⟩
      · exact hs s hx
  have hman : ¬ ManifestFile p := fun hm => hp (.inr (.inr (.inr (.inl hm))))
  have hnil : [] ∉ pySet deleted := by
    rw [mem_pySet]; exact nil_notMem_deleted hd
  have key := restoreList_read hE hnil hss hl hne hman
  rw [deleted_pySet, i1 p (fun e => hp (.inl e))] at key
  have hend : dget out p = dget d2 p := by
    rw [(finishRestore_spec e6).1 p hp, (fetchStep_frame e5).1 p (fun e => hp (.inr (.inr (.inl e))))]
  rw [hend]
  exact key

theorem wf_restore {E : RestoreEnv} (hE : EnvOk E) {H : RHead} {us rm : Bool} {d out : Tree}
    (h : restore E H us rm d = .ok out)
    {ms : List MemberInfo} (hm : iterMembers H.mode H.tree H.info = .ok ms) {srcs : List RSource}
    (hf : Forall₂ (fun n s => E.find n = some s) (otherMembers H (ms.map (fun m => m.name))) srcs)
    (hH : WfTree H.tree) (hs : ∀ s ∈ srcs, WfTree s.tree) (hd : WfTree d) : WfTree out := by
  obtain ⟨deleted, ms', d1, d2, d3, e1, e2, e3, e4, e5, e6⟩ := restore_parts h
  rw [hm] at e2
  cases e2
  obtain ⟨d0, i1, i2, hl, _⟩ := restore_list hf e3 e4
  have hss : ∀ s ∈ sourcesOf E H srcs, WfTree s.tree := by
    unfold sourcesOf
    intro s hx
    split at hx
    · exact hs s hx
    · rcases List.mem_cons.1 hx with rfl | hx
      · exact hH
      · exact hs s hx
  have hnil : [] ∉ pySet deleted := by
    rw [mem_pySet]; exact nil_notMem_deleted e1
  have w2 := wf_restoreList hE hnil hss (i2 hd) hl
  exact (finishRestore_spec e6).2.2.1 hE.algs ((fetchStep_frame e5).2 w2)

/-! ## Overlays -/

theorem otherMembers_head {H : RHead} {names : List Str} : otherMembers H (names ++ [H.name]) = names.reverse := by
  unfold otherMembers
  rw [List.reverse_append]
  simp

theorem otherMembers_all {H : RHead} {names : List Str} (h : names.getLast? ≠ some H.name) :
    otherMembers H names = names.reverse := by
  unfold otherMembers
  cases hr : names.reverse with
  | nil => rfl
  | cons n rest =>
    have : names.getLast? = some n := by rw [← List.head?_reverse, hr]; rfl
    rw [this] at h
    simp only
    rw [if_neg (fun e => h (by rw [e]))]

theorem forall₂_reverse {α β : Type} {R : α → β → Prop} {l : List α} {m : List β} (h : Forall₂ R l m) :
    Forall₂ R l.reverse m.reverse := by
  have app : ∀ {l : List α} {m : List β} {a : α} {b : β}, Forall₂ R l m → R a b → Forall₂ R (l ++ [a]) (m ++ [b]) := by
    intro l m a b h hab
    induction h with
    | nil => exact .cons hab .nil
    | cons h1 _ ih => exact .cons h1 ih
  induction h with
  | nil => exact .nil
  | cons h1 _ ih => rw [List.reverse_cons, List.reverse_cons]; exact app ih h1

theorem overlay_snoc (ts : List Tree) (t : Tree) (p : Path) : overlay (ts ++ [t]) p = (t.read p).or (overlay ts p) := by
  induction ts with
  | nil => simp [overlay]
  | cons x ts ih => simp only [List.cons_append, overlay, ih, Option.or_assoc]

/-- The first bag of the reversed list is the last bag of the list. -/
theorem firstAt_overlay {srcs : List RSource} {p : Path} (hne : p ≠ []) (hc : NoClash (srcs.map (fun s => s.tree))) :
    (match firstAt srcs p with | some (.file c) => some c | _ => none) = overlay (srcs.reverse.map (fun s => s.tree)) p := by
  induction srcs with
  | nil => rfl
  | cons s srcs ih =>
    have ih' := ih (fun t ht t' ht' q => hc t (List.mem_cons_of_mem _ ht) t' (List.mem_cons_of_mem _ ht') q)
    rw [List.reverse_cons, List.map_append, List.map_cons, List.map_nil, overlay_snoc, ← ih']
    simp only [firstAt, Tree.read]
    cases hn : dget s.tree p with
    | none => simp
    | some n =>
      cases n with
      | file c => simp
      | dir =>
        simp only [Option.some_or, Option.none_or]
        have hd : s.tree.isdir p = true := isdir_iff.2 (.inr hn)
        have : ∀ c, firstAt srcs p ≠ some (.file c) := by
          intro c hcx
          have : ∀ l : List RSource, firstAt l p = some (.file c) → ∃ x ∈ l, x.tree.isfile p = true := by
            intro l
            induction l with
            | nil => intro h; cases h
            | cons y l ihl =>
              intro h
              simp only [firstAt] at h
              cases hy : dget y.tree p with
              | none =>
                rw [hy, Option.none_or] at h
                obtain ⟨x, hx, hxf⟩ := ihl h
                exact ⟨x, List.mem_cons_of_mem _ hx, hxf⟩
              | some n =>
                rw [hy, Option.some_or] at h
                cases h
                exact ⟨y, List.mem_cons_self, isfile_iff.2 ⟨c, hy⟩⟩
          obtain ⟨x, hx, hxf⟩ := this srcs hcx
          exact hc x.tree (List.mem_map.2 ⟨x, List.mem_cons_of_mem _ hx, rfl⟩) s.tree
            (List.mem_map.2 ⟨s, List.mem_cons_self, rfl⟩) p ⟨hxf, hd⟩
        split
        · rename_i c e; exact absurd e (this c)
        · rfl

theorem overlay_nil_path {ts : List Tree} (h : ∀ t ∈ ts, WfTree t) : overlay ts [] = none := by
  induction ts with
  | nil => rfl
  | cons t ts ih =>
    have h1 : t.read [] = none := by
      cases hr : t.read [] with
      | none => rfl
      | some c =>
        have : t.isfile [] = true := by rw [isfile_read, hr]; rfl
        exact absurd rfl (file_ne_nil (h t List.mem_cons_self) this).1
    simp [overlay, h1, ih (fun t ht => h t (List.mem_cons_of_mem _ ht))]

end Verif
