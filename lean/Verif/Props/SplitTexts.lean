import Verif.Props.SplitNames
/-!
# The texts that a split writes into its output bags
-/

namespace Verif
open Spec

/-- A write that ends well puts its text in place and leaves the other files of the output bag. -/
theorem writeAt_texts {X : Path → Prop} {B D : Path} (hBD : SideBySide B D) {d0 d : LDisk}
    (hnew : ∀ x i, dget d0.names (D ++ x) ≠ some (.file i)) (h : Filled X B D d0 d) {s text : Str} {z : Path}
    (hz : leadsTo [] s = D ++ z) (hX : ¬ X z) (hok : (d.writeAt s text).1 = .ok ()) :
    (d.writeAt s text).2.node (D ++ z) = some (.file text) ∧
    ∀ y, y ≠ z → ∀ c, d.node (D ++ y) = some (.file c) → (d.writeAt s text).2.node (D ++ y) = some (.file c) := by
  unfold LDisk.writeAt at hok ⊢
  split at hok
  · cases hok
  · next p hp =>
    have e := place_leads hp
    rw [hz] at e
    subst e
    split at hok
    · next d1 hw =>
      simp only [hp, hw]
      unfold LDisk.write at hw
      split at hw
      · cases hw
      · split at hw
        · next i hi =>
          cases hw
          refine ⟨by simp [LDisk.node, hi, LNode.view], fun y hy c hc => ?_⟩
          unfold LDisk.node at hc ⊢
          cases hg : dget d.names (D ++ y) with
          | none => rw [hg] at hc; cases hc
          | some v =>
            cases v with
            | dir => rw [hg] at hc; simp [LNode.view] at hc
            | file j =>
              rw [hg] at hc
              by_cases hj : j = i
              · subst hj
                have hb := h.after.own z j (D ++ y) hi hg (fun e => hy (List.append_cancel_left e))
                rcases h.linked z j hi (by rw [← hb]; exact (outside_source hBD h.grown _).symm) with h1 | h1
                · exact absurd h1 (hnew _ _)
                · exact absurd h1 hX
              · simpa [LNode.view, hj] using hc
        · cases hw
          refine ⟨by simp [LDisk.node, dget_dset, LNode.view], fun y hy c hc => ?_⟩
          unfold LDisk.node at hc ⊢
          simp only [dget_dset]
          rw [if_neg (fun e => hy (List.append_cancel_left e).symm)]
          cases hg : dget d.names (D ++ y) with
          | none => rw [hg] at hc; cases hc
          | some v =>
            cases v with
            | dir => rw [hg] at hc; simp [LNode.view] at hc
            | file j =>
              rw [hg] at hc
              have := h.after.ok _ _ hg
              have hj : j ≠ d.next := by omega
              simpa [LNode.view, hj] using hc
    · cases hok

theorem writeAll_texts {X : Path → Prop} {B D : Path} (hBD : SideBySide B D) {d0 : LDisk}
    (hnew : ∀ x i, dget d0.names (D ++ x) ≠ some (.file i)) {dir : Str} {q : Path} (ts : List (Str × Str))
    (hts : ∀ t ∈ ts, leadsTo [] (pathJoin dir t.1) = D ++ (q ++ [t.1]) ∧ ¬ X (q ++ [t.1])) :
    ∀ {d : LDisk}, Filled X B D d0 d → (d.writeAll dir ts).1 = .ok () →
    Filled X B D d0 (d.writeAll dir ts).2 ∧
    (∀ y, (∀ t ∈ ts, y ≠ q ++ [t.1]) → ∀ c, d.node (D ++ y) = some (.file c) →
      (d.writeAll dir ts).2.node (D ++ y) = some (.file c)) ∧
    ((ts.map (·.1)).Nodup → ∀ t ∈ ts, (d.writeAll dir ts).2.node (D ++ (q ++ [t.1])) = some (.file t.2)) := by
  induction ts with
  | nil => intro d h _; exact ⟨h, fun _ _ _ h => h, fun _ t ht => by cases ht⟩
  | cons t ts ih =>
    intro d h hok
    obtain ⟨hz, hX⟩ := hts t (by simp)
    have hF := (having_writeAt (S := fun _ => False) (text := t.2) hBD hnew ⟨h, fun _ hx => hx.elim⟩ hz hX).1
    unfold LDisk.writeAll at hok ⊢
    obtain ⟨hok1, e⟩ := andThen_ok hok
    rw [e] at hok ⊢
    obtain ⟨a1, a2⟩ := writeAt_texts hBD hnew h hz hX hok1
    obtain ⟨b0, b1, b2⟩ := ih (fun t ht => hts t (by simp [ht])) hF hok
    refine ⟨b0, fun y hy c hc => b1 y (fun t ht => hy t (by simp [ht])) c (a2 y (hy t (by simp)) c hc), fun hn t' ht' => ?_⟩
    rw [List.map_cons, List.nodup_cons] at hn
    rcases List.mem_cons.1 ht' with rfl | ht'
    · refine b1 _ (fun u hu e => hn.1 ?_) _ a1
      have := List.append_cancel_left e
      injection this with this
      rw [this]; exact List.mem_map_of_mem hu
    · exact b2 hn.2 t' ht'

/-- A directory that is made leaves the files. -/
theorem mkdirAt_files {d : LDisk} {s : Str} {p : Path} {c : Str} (h : d.node p = some (.file c)) :
    (d.mkdirAt s).2.node p = some (.file c) := by
  have key : (d.mkdirAt s).2 = d ∨ ∃ q, d.exists q = false ∧ (d.mkdirAt s).2 = { d with names := dset d.names q .dir } := by
    unfold LDisk.mkdirAt LDisk.mkdir
    split
    · next e =>
      split at e
      · cases e
      · split at e
        · cases e
        · next q _ hx => cases e; exact .inr ⟨q, by simpa using hx, rfl⟩
    · next e =>
      split at e
      · cases e; exact .inl rfl
      · split at e
        · cases e; exact .inl rfl
        · cases e; rename_i hm; exact (hm rfl).elim
  rcases key with e | ⟨q, hq, e⟩
  · rw [e]; exact h
  · rw [e]
    unfold LDisk.node at h ⊢
    simp only [dget_dset]
    rw [if_neg]
    · exact h
    · rintro rfl
      rw [(ldisk_exists_false.1 hq).2] at h; cases h

/-- The texts of an output bag. -/
def Texts (d : LDisk) (D : Path) (o : Output) : Prop :=
  d.node (D ++ [py!"bag-info.txt"]) = some (.file o.info) ∧
  ((o.hashes.map (·.1)).Nodup → ∀ t ∈ o.hashes, t.1 ≠ py!"bag-info.txt" → d.node (D ++ [t.1]) = some (.file t.2)) ∧
  ∀ a b c, o.head = some (a, b, c) →
    d.node (D ++ [py!"multibag", py!"member-bags.tsv"]) = some (.file a) ∧
    d.node (D ++ [py!"multibag", py!"file-lookup.tsv"]) = some (.file b) ∧
    d.node (D ++ [py!"multibag", py!"aggregation-info.txt"]) = some (.file c)

theorem writeMeta_texts {m : BagMaking} {o : Output} {B D : Path} (hBD : SideBySide B D) {d0 : LDisk}
    (hnew : ∀ x i, dget d0.names (D ++ x) ≠ some (.file i)) (hs : Sound m B o D) {d : LDisk}
    (h : Filled (mayLink m o) B D d0 d) (hok : (d.writeMeta (pathJoin m.outdir o.name) o).1 = .ok ()) :
    Texts (d.writeMeta (pathJoin m.outdir o.name) o).2 D o := by
  have hmb := abs_name hs.place (good_lit py!"multibag")
  unfold LDisk.writeMeta at hok ⊢
  obtain ⟨hok1, e⟩ := andThen_ok hok
  rw [e] at hok ⊢
  obtain ⟨f1, k1, t1⟩ := writeAll_texts (q := []) hBD hnew o.hashes (fun t ht => by
    have hm : t.1 ∈ m.manifests ++ o.hashes.map (·.1) := List.mem_append_right _ (List.mem_map_of_mem ht)
    refine ⟨leads_name hs.place (hs.manifests _ hm).1, fun hx => hx ?_⟩
    unfold ownFiles
    exact List.mem_append_left _ (List.mem_map_of_mem (f := fun n => [n]) (List.mem_append_left _ hm))) h hok1
  obtain ⟨hok2, e⟩ := andThen_ok hok
  rw [e] at hok ⊢
  obtain ⟨f2, k2, t2⟩ := writeAll_texts (q := []) hBD hnew [(py!"bag-info.txt", o.info)] (fun t ht => by
    simp only [List.mem_singleton] at ht
    subst ht
    refine ⟨leads_name hs.place (good_lit py!"bag-info.txt"), fun hx => hx ?_⟩
    unfold ownFiles
    exact List.mem_append_left _ (List.mem_map_of_mem (f := fun n => [n]) (List.mem_append_right _ (by simp)))) f1 hok2
  have i2 := t2 (by simp) (py!"bag-info.txt", o.info) (by simp)
  have h2 : (o.hashes.map (·.1)).Nodup → ∀ t ∈ o.hashes, t.1 ≠ py!"bag-info.txt" →
      (((d.writeAll (pathJoin m.outdir o.name) o.hashes).2).writeAll (pathJoin m.outdir o.name)
        [(py!"bag-info.txt", o.info)]).2.node (D ++ [t.1]) = some (.file t.2) := fun hn t ht hb =>
    k2 [t.1] (fun u hu e => by
      simp only [List.mem_singleton] at hu
      subst hu
      exact hb (by simpa using e)) _ (t1 hn t ht)
  revert i2 h2 f2 hok
  generalize (((d.writeAll (pathJoin m.outdir o.name) o.hashes).2).writeAll (pathJoin m.outdir o.name)
        [(py!"bag-info.txt", o.info)]).2 = d2
  intro hok f2 i2 h2
  cases hh : o.head with
  | none =>
    simp only [hh] at hok ⊢
    exact ⟨i2, h2, fun a b c e => by rw [hh] at e; cases e⟩
  | some texts =>
    simp only [hh] at hok ⊢
    unfold LDisk.writeHead at hok ⊢
    obtain ⟨-, e⟩ := andThen_ok hok
    rw [e] at hok ⊢
    have f3 : Filled (mayLink m o) B D d0 (if d2.isdirAt (pathJoin (pathJoin m.outdir o.name) py!"multibag") then (.ok (), d2)
        else d2.mkdirAt (pathJoin (pathJoin m.outdir o.name) py!"multibag") : Ended).2 := by
      split
      · exact f2
      · exact filled_trans f2 (filled_mkdirAt f2.after hs.place.1.2
          (onWay_join hs.place (good_down (good_lit py!"multibag")).1.1 (good_down (good_lit py!"multibag")).1.2))
    have k3 : ∀ p c, d2.node p = some (.file c) →
        (if d2.isdirAt (pathJoin (pathJoin m.outdir o.name) py!"multibag") then (.ok (), d2)
        else d2.mkdirAt (pathJoin (pathJoin m.outdir o.name) py!"multibag") : Ended).2.node p = some (.file c) := by
      intro p c hp
      split
      · exact hp
      · exact mkdirAt_files hp
    revert f3 k3 hok
    generalize (if d2.isdirAt (pathJoin (pathJoin m.outdir o.name) py!"multibag") then (.ok (), d2)
        else d2.mkdirAt (pathJoin (pathJoin m.outdir o.name) py!"multibag") : Ended).2 = d3
    intro hok f3 k3
    have key : ∀ n, GoodName n → [py!"multibag", n] ∈ ownFiles m o →
        leadsTo [] (pathJoin (pathJoin (pathJoin m.outdir o.name) py!"multibag") n) = D ++ ([py!"multibag"] ++ [n]) ∧
        ¬ mayLink m o ([py!"multibag"] ++ [n]) :=
      fun n hn ho => ⟨by rw [leads_name hmb hn, List.append_assoc], fun hx => hx ho⟩
    obtain ⟨-, k4, t4⟩ := writeAll_texts (q := [py!"multibag"]) hBD hnew _ (fun t ht => by
      simp only [List.mem_cons, List.not_mem_nil, or_false] at ht
      rcases ht with rfl | rfl | rfl
      · exact key py!"member-bags.tsv" (good_lit _) (by unfold ownFiles; simp)
      · exact key py!"file-lookup.tsv" (good_lit _) (by unfold ownFiles; simp)
      · exact key py!"aggregation-info.txt" (good_lit _) (by unfold ownFiles; simp)) f3 hok
    refine ⟨k4 [py!"bag-info.txt"] (fun t _ e => by injection e with _ e; cases e) _ (k3 _ _ i2),
      fun hn t ht hb => k4 [t.1] (fun t _ e => by injection e with _ e; cases e) _ (k3 _ _ (h2 hn t ht hb)), fun a b c e => ?_⟩
    rw [hh] at e
    cases e
    have t5 := t4 (by simp only [List.map_cons, List.map_nil]; decide)
    exact ⟨t5 (py!"member-bags.tsv", a) (by simp), t5 (py!"file-lookup.tsv", b) (by simp),
      t5 (py!"aggregation-info.txt", c) (by simp)⟩

/-- **C132**, part: if the output bags are all written, every one of them has its metadata in the end, after all the bags:
the text of its bag-info.txt, the lines of its manifests, and, if it is the head bag, the texts of its three lists.
Missing: as in `C132_kept_partial`; a manifest that is called bag-info.txt, or listed twice. -/
theorem C132_texts_partial {m : BagMaking} {B : Path} (hB : AbsPath m.bag B) {os : List Output} :
    ∀ {d : LDisk}, Rooted d → InodesOk d → d.isdir B = true → (∀ o ∈ os, ∃ D, Sound m B o D) →
    (d.makeBags m os).1 = .ok () → ∀ o ∈ os, ∀ D, Sound m B o D →
    (d.makeBags m os).2.node (D ++ [py!"bag-info.txt"]) = some (.file o.info) ∧
    ((o.hashes.map (·.1)).Nodup → ∀ t ∈ o.hashes, t.1 ≠ py!"bag-info.txt" →
      (d.makeBags m os).2.node (D ++ [t.1]) = some (.file t.2)) ∧
    ∀ a b c, o.head = some (a, b, c) →
      (d.makeBags m os).2.node (D ++ [py!"multibag", py!"member-bags.tsv"]) = some (.file a) ∧
      (d.makeBags m os).2.node (D ++ [py!"multibag", py!"file-lookup.tsv"]) = some (.file b) ∧
      (d.makeBags m os).2.node (D ++ [py!"multibag", py!"aggregation-info.txt"]) = some (.file c) := by
  induction os with
  | nil => intro d _ _ _ _ _ o ho; cases ho
  | cons o os ih =>
    intro d hr hi hbag hs hok o' ho' D hD
    obtain ⟨D0, hD0⟩ := hs o (by simp)
    obtain ⟨k1, k2, -⟩ := makeBag_kept hB hD0 hr hi hbag
    unfold LDisk.makeBags at hok ⊢
    obtain ⟨hok1, e⟩ := andThen_ok hok
    rw [e] at hok ⊢
    have hr' := rooted_makeBag m o hr
    have hbag' := isdir_kept k2 hbag
    have hs' : ∀ o ∈ os, ∃ D, Sound m B o D := fun o ho => hs o (by simp [ho])
    rcases List.mem_cons.1 ho' with rfl | ho'
    · have later := (makeBags_kept hB os hr' k1 hbag' hs').1
      rcases filled_makeBag hB hD hr hi hbag with e' | ⟨_, hBD, _, hdel⟩
      · rw [e'] at hok1; cases hok1
      · obtain ⟨-, d0, d1, hnew, hf, em⟩ := hdel hok1
        have ht : Texts (d.makeBag m o').2 D o' := by
          rw [em] at hok1 ⊢
          exact writeMeta_texts hBD hnew hD hf hok1
        exact ⟨later _ _ ht.1, fun hn t ht' hb => later _ _ (ht.2.1 hn t ht' hb), fun a b c e =>
          ⟨later _ _ (ht.2.2 a b c e).1, later _ _ (ht.2.2 a b c e).2.1, later _ _ (ht.2.2 a b c e).2.2⟩⟩
    · exact ih hr' k1 hbag' hs' hok o' ho' D hD

/-- A head bag in the payload of a member bag: both have their metadata in the end. -/
example (l : Bool) : (linkedBag.makeBags (intoO l) nestedOutputs).2.node [py!"o", py!"b", py!"manifest-md5.txt"] =
    some (.file py!"0 data/x") :=
  (C132_texts_partial (m := intoO l) abs_va linkedBag_rooted linkedBag_ok (by decide) (sound_nested l) (nested_ends l) _
    (by simp [nestedOutputs]) _ (sound_b l)).2.1 (by decide) (py!"manifest-md5.txt", py!"0 data/x") (by simp [nestedOutputs])
    (by decide)

example (l : Bool) : (linkedBag.makeBags (intoO l) nestedOutputs).2.node
    [py!"o", py!"b", py!"data", py!"h", py!"multibag", py!"file-lookup.tsv"] = some (.file py!"t") :=
  ((C132_texts_partial (m := intoO l) abs_va linkedBag_rooted linkedBag_ok (by decide) (sound_nested l) (nested_ends l) _
    (by simp [nestedOutputs]) _ (sound_h l)).2.2 _ _ _ rfl).2.1

end Verif
