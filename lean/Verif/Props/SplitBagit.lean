import Verif.Props.SplitTexts
/-!
# The bagit.txt of the output bags of a split
-/

namespace Verif
open Spec

theorem place_name {d : LDisk} {s : Str} {D : Path} (hD : AbsPath s D) {n : Str} (hn : GoodName n) (hd : HasDir d D) :
    d.place (pathJoin s n) = some (D ++ [n]) := by
  have ha := abs_name hD hn
  rw [ha.2]
  refine place_abs ha.1.2 fun x y e hy => hd x ?_
  have : y = y.dropLast ++ [y.getLast hy] := (List.dropLast_concat_getLast hy).symm
  rw [this, ← List.append_assoc] at e
  exact ⟨_, (List.append_inj' e rfl).1.symm⟩

theorem parent_there {d : LDisk} {s : Str} {D : Path} (hD : AbsPath s D) {n : Str} (hn : GoodName n) (hd : HasDir d D) :
    d.existsAt (dirName (pathJoin s n)) = true := by
  obtain ⟨x, hx⟩ : ∃ x, pathJoin s n = x ++ '/' :: n := by
    unfold pathJoin isAbs
    rw [if_neg (by simpa using (good_down hn).1.1)]
    split
    · next h =>
      simp only [Bool.or_eq_true, decide_eq_true_eq] at h
      rcases h with h | h
      · rw [hD.2] at h; cases h
      · refine ⟨s.dropLast, ?_⟩
        have hs : s ≠ [] := by rintro rfl; cases h
        have := List.dropLast_concat_getLast hs
        rw [List.getLast?_eq_some_getLast hs] at h
        injection h with h
        rw [h] at this
        conv => lhs; rw [← this]
        simp
    · exact ⟨s, rfl⟩
  have hp := place_name hD hn hd
  rw [hx] at hp ⊢
  obtain ⟨r, h1, h2, -⟩ := place_dirName hn.noslash hp
  unfold LDisk.existsAt
  rw [h1]
  exact isdir_exists h2

/-- A file of the source whose name is free in the output bag arrives there. -/
theorem replicate_new {B D : Path} (hBD : SideBySide B D) {d : LDisk} (h : Fillable B D d) {c : Filling} {n : Str}
    (hB : AbsPath c.bag B) (hD : AbsPath c.out D) (hn : GoodName n) {k : Nat} (hk : dget d.names (B ++ [n]) = some (.file k))
    (hfree : dget d.names (D ++ [n]) = none) {X : Path → Prop} (hX : X [n]) :
    (d.replicateAt (c.call n)).1 = .ok () ∧ Delivered B D (d.replicateAt (c.call n)).2 [n] := by
  have hdown := good_down hn
  have hfill := filled_replicate (X := X) hBD h hB hD hdown.1 (by rw [hdown.2]; exact hX)
  rw [hdown.2] at hfill
  obtain ⟨hx, hi⟩ := canon_place hBD h hB hdown.1
  rw [hdown.2] at hx hi
  have hex : d.exists (B ++ [n]) = true := exists_of_file hk
  have hnd : d.isdir (B ++ [n]) = false := by
    cases hd : d.isdir (B ++ [n]) with
    | false => rfl
    | true =>
      rcases ldisk_isdir_iff.1 hd with e0 | e0
      · simp at e0
      · rw [hk] at e0; cases e0
  have hBdir : HasDir d B := fun x hx => by
    obtain ⟨y, rfl⟩ := hx
    have := h.rooted x (y ++ [n]) (by simp) (by rw [← List.append_assoc]; exact hBD.2 _) (by rw [← List.append_assoc]; exact hex)
    exact this
  have psrc := place_name hB hn hBdir
  have pdst := place_name hD hn h.dir
  have hDx : d.exists (D ++ [n]) = false := by
    unfold LDisk.exists; rw [hfree]; simp
  have hDd : d.isdir (D ++ [n]) = false := by
    unfold LDisk.isdir; rw [hfree]; simp
  have hup : d.isdir (D ++ [n]).dropLast = true := by
    rw [List.dropLast_concat]; exact h.dir D (List.prefix_refl _)
  have hcopy : ∃ d' j, d.copyAt (pathJoin c.bag n) (pathJoin c.out n) = some d' ∧ dget d'.names (D ++ [n]) = some (.file j) := by
    rw [copyAt_eq]
    have ht : copyTarget d (pathJoin c.bag n) (pathJoin c.out n) = pathJoin c.out n := by
      unfold copyTarget LDisk.isdirAt
      rw [pdst]
      simp only [hDd]
      rfl
    rw [ht, psrc, pdst]
    simp only [hk, hfree]
    unfold LDisk.write
    rw [hDd, hup, hfree]
    simp only [Bool.not_true, Bool.or_self, Bool.false_eq_true, if_false, reduceCtorEq]
    exact ⟨_, d.next, rfl, by simp [dget_dset]⟩
  have hlink : ∃ d' j, d.linkAt (pathJoin c.bag n) (pathJoin c.out n) = some d' ∧ dget d'.names (D ++ [n]) = some (.file j) := by
    unfold LDisk.linkAt
    rw [psrc, pdst]
    simp only [hk, hDx, hup]
    exact ⟨_, k, rfl, by simp [dget_dset]⟩
  have e : d.replicateAt (c.call n) = d.linkOrCopyAt (c.call n) := by
    unfold LDisk.replicateAt
    have : canonPath (c.call n).bag (c.call n).path = some ('/' :: joinPath (B ++ [n])) := by
      have := canon_below hB hdown.1
      rwa [hdown.2] at this
    rw [this]
    simp only [hx, hi, hex, hnd]
    have := parent_there hD hn h.dir
    simp only [Filling.call, this]
    rfl
  have key : ∃ d' j, d.linkOrCopyAt (c.call n) = (.ok (), d') ∧ dget d'.names (D ++ [n]) = some (.file j) := by
    obtain ⟨d1, j1, e1, g1⟩ := hcopy
    obtain ⟨d2, j2, e2, g2⟩ := hlink
    have hc : d.copyOrForgetAt (c.call n) = (.ok (), d1) := by
      unfold LDisk.copyOrForgetAt
      simp only [Filling.call, e1]
    unfold LDisk.linkOrCopyAt
    rw [hc]
    simp only [Filling.call, e2]
    cases c.hardlink with
    | false => exact ⟨d1, j1, rfl, g1⟩
    | true =>
      cases c.canLink n with
      | false => exact ⟨d1, j1, rfl, g1⟩
      | true => exact ⟨d2, j2, rfl, g2⟩
  obtain ⟨d', j, ek, gk⟩ := key
  rw [e, ek] at hfill ⊢
  refine ⟨rfl, hfill.2 k hk rfl ?_⟩
  unfold LDisk.isfileAt
  rw [place_name hD hn hfill.1.after.dir]
  simp only [gk]

theorem writeAt_free {d : LDisk} {s text : Str} {p q : Path} (hp : leadsTo [] s = p) (hne : q ≠ p)
    (h : dget d.names q = none) : dget (d.writeAt s text).2.names q = none := by
  unfold LDisk.writeAt
  split
  · exact h
  · next p' hp' =>
    have e := place_leads hp'
    rw [hp] at e
    subst e
    split
    · next d1 hw =>
      unfold LDisk.write at hw
      split at hw
      · cases hw
      · split at hw
        · cases hw; exact h
        · cases hw
          simp only [dget_dset]
          rw [if_neg (Ne.symm hne)]; exact h
    · exact h

theorem writeAll_free {dir : Str} {D : Path} (hD : AbsPath dir D) {n : Str} (ts : List (Str × Str))
    (hts : ∀ t ∈ ts, GoodName t.1 ∧ t.1 ≠ n) : ∀ {d : LDisk}, dget d.names (D ++ [n]) = none →
    dget (d.writeAll dir ts).2.names (D ++ [n]) = none := by
  induction ts with
  | nil => intro d h; exact h
  | cons t ts ih =>
    intro d h
    refine andThen_holds (P := fun d => dget d.names (D ++ [n]) = none) (writeAt_free (leads_name hD (hts t (by simp)).1) ?_ h)
      fun d h => ih (fun t ht => hts t (by simp [ht])) h
    intro e
    have := List.append_cancel_left e
    injection this with this
    exact (hts t (by simp)).2 this.symm

/-- An output bag that is written has the bagit.txt of the source. -/
theorem makeBag_bagit {m : BagMaking} {o : Output} {B D : Path} (hB : AbsPath m.bag B) (hs : Sound m B o D) {d : LDisk}
    (hr : Rooted d) (hi : InodesOk d) (hbag : d.isdir B = true) (hok : (d.makeBag m o).1 = .ok ()) {k : Nat}
    (hk : dget d.names (B ++ [py!"bagit.txt"]) = some (.file k)) : Delivered B D (d.makeBag m o).2 [py!"bagit.txt"] := by
  have hroot := rooted_mkdirAt hr (pathJoin m.outdir o.name)
  unfold LDisk.makeBag at hok ⊢
  rcases mkdirAt_abs (d := d) hs.place with e | ⟨hD, e⟩
  · simp only [e] at hok; cases hok
  · have hBD := sideBySide_new hr hB.1.1 hbag hD hs.outside
    rw [e] at hroot
    obtain ⟨hfill, hnew⟩ := fillable_new hr hi B hD hroot rfl
    have hfree0 : dget ({ d with names := dset d.names D .dir } : LDisk).names (D ++ [py!"bagit.txt"]) = none := by
      simp only [dget_dset]
      rw [if_neg (by simp)]
      exact below_new hr hD _
    simp only [e] at hok ⊢
    generalize hd0 : ({ d with names := dset d.names D .dir } : LDisk) = d0 at *
    have hsrc : dget d0.names (B ++ [py!"bagit.txt"]) = some (.file k) := by
      rw [← hd0, ← hk]
      simp only [dget_dset]
      rw [if_neg]
      exact fun e => hBD.2 [py!"bagit.txt"] (e ▸ List.prefix_refl _)
    have hdata := good_down (good_lit py!"data")
    obtain ⟨_, e1⟩ := andThen_ok hok
    simp only [e1] at hok ⊢
    obtain ⟨_, e1⟩ := andThen_ok hok
    simp only [e1] at hok ⊢
    obtain ⟨_, e1⟩ := andThen_ok hok
    simp only [e1] at hok ⊢
    obtain ⟨_, e1⟩ := andThen_ok hok
    simp only [e1] at hok ⊢
    obtain ⟨_, e1⟩ := andThen_ok hok
    simp only [e1] at hok ⊢
    have g1 : Filled (mayLink m o) B D d0 (d0.mkdirAt (pathJoin (pathJoin m.outdir o.name) py!"data")).2 :=
      filled_mkdirAt hfill hs.place.1.2 (onWay_join hs.place hdata.1.1 hdata.1.2)
    have n1 : dget (d0.mkdirAt (pathJoin (pathJoin m.outdir o.name) py!"data")).2.names (D ++ [py!"bagit.txt"]) = none := by
      rcases mkdirAt_abs (d := d0) (abs_name hs.place (good_lit py!"data")) with e | ⟨_, e⟩
      · rw [e]; exact hfree0
      · rw [e]
        simp only [dget_dset]
        rw [if_neg]
        · exact hfree0
        · intro e
          have := List.append_cancel_left e
          revert this; decide
    revert g1 n1 hok
    generalize (d0.mkdirAt (pathJoin (pathJoin m.outdir o.name) py!"data")).2 = d1
    intro hok g1 n1
    have g2 : Filled (mayLink m o) B D d0 (d1.writeAll (pathJoin m.outdir o.name) (m.manifests.map fun n => (n, []))).2 := by
      refine (having_writeAll (S := fun _ => False) hBD hnew _ ?_ ⟨g1, fun _ hx => hx.elim⟩).1
      intro t ht
      obtain ⟨n, hn, rfl⟩ := List.mem_map.1 ht
      have hm : n ∈ m.manifests ++ o.hashes.map (·.1) := List.mem_append_left _ hn
      refine ⟨[n], leads_name hs.place (hs.manifests _ hm).1, fun hx => hx ?_⟩
      unfold ownFiles
      exact List.mem_append_left _ (List.mem_map_of_mem (List.mem_append_left _ hm))
    have n2 : dget (d1.writeAll (pathJoin m.outdir o.name) (m.manifests.map fun n => (n, []))).2.names
        (D ++ [py!"bagit.txt"]) = none := by
      refine writeAll_free hs.place _ (fun t ht => ?_) n1
      obtain ⟨n, hn, rfl⟩ := List.mem_map.1 ht
      exact hs.manifests n (List.mem_append_left _ hn)
    revert g2 n2 hok
    generalize (d1.writeAll (pathJoin m.outdir o.name) (m.manifests.map fun n => (n, []))).2 = d2
    intro hok g2 n2
    let c : Filling := { bag := m.bag, out := pathJoin m.outdir o.name, hardlink := m.hardlink, canLink := m.canLink }
    have hX := bagit_free hs
    have hbt := good_down (good_lit py!"bagit.txt")
    have g3 := (filled_replicate (X := mayLink m o) (c := c) hBD g2.after hB hs.place hbt.1 (by rw [hbt.2]; exact hX)).1
    have r3 := (replicate_new (c := c) hBD g2.after hB hs.place (good_lit py!"bagit.txt")
      (by rw [outside_source hBD g2.grown]; exact hsrc) n2 hX).2
    have hfree : ∀ f ∈ o.entries, mayLink m o (placeBelow f) := fun f hf => by
      have := hs.free f hf
      rw [leads_below (hs.down f hf)] at this
      exact this
    have g4 := (filled_putEntries (X := mayLink m o) (c := c) hBD hB hs.place o.entries g3.after hs.down hfree).1
    have e4 : ((d2.replicateAt (c.call py!"bagit.txt")).2.putAll c o.entries).2 =
        ((d2.replicateAt (c.call py!"bagit.txt")).2.putEntries c o.entries).2 := by
      unfold LDisk.putAll
      split <;> next e => rw [e]
    rw [← e4] at g4
    exact ((having_writeMeta (S := fun x => x = [py!"bagit.txt"]) hBD hnew hs
      ⟨filled_trans (filled_trans g2 g3) g4, by rintro x rfl; exact ⟨hX, g4.same _ hX r3⟩⟩).2 _ rfl).2

/-- **C132**, part: if the output bags are all written, every one of them has the bagit.txt of the source in the end, after
all the bags, whether or not links can be made.
Missing: as in `C132_kept_partial`. -/
theorem C132_bagit_partial {m : BagMaking} {B : Path} (hB : AbsPath m.bag B) {s : Str} {os : List Output} :
    ∀ {d : LDisk}, Rooted d → InodesOk d → d.isdir B = true → (∀ o ∈ os, ∃ D, Sound m B o D) →
    (d.makeBags m os).1 = .ok () → d.node (B ++ [py!"bagit.txt"]) = some (.file s) → ∀ o ∈ os, ∀ D, Sound m B o D →
    (d.makeBags m os).2.node (D ++ [py!"bagit.txt"]) = some (.file s) := by
  induction os with
  | nil => intro d _ _ _ _ _ _ o ho; cases ho
  | cons o os ih =>
    intro d hr hi hbag hs hok hfs o' ho' D hD
    obtain ⟨D0, hD0⟩ := hs o (by simp)
    obtain ⟨k1, k2, -⟩ := makeBag_kept hB hD0 hr hi hbag
    unfold LDisk.makeBags at hok ⊢
    obtain ⟨hok1, e⟩ := andThen_ok hok
    rw [e] at hok ⊢
    have hr' := rooted_makeBag m o hr
    have hbag' := isdir_kept k2 hbag
    have hs' : ∀ o ∈ os, ∃ D, Sound m B o D := fun o ho => hs o (by simp [ho])
    rcases List.mem_cons.1 ho' with rfl | ho'
    · refine (makeBags_kept hB os hr' k1 hbag' hs').1 _ _ ?_
      obtain ⟨k, hk⟩ : ∃ k, dget d.names (B ++ [py!"bagit.txt"]) = some (.file k) := by
        unfold LDisk.node at hfs
        cases hg : dget d.names (B ++ [py!"bagit.txt"]) with
        | none => rw [hg] at hfs; cases hfs
        | some v =>
          cases v with
          | dir => rw [hg] at hfs; simp [LNode.view] at hfs
          | file k => exact ⟨k, rfl⟩
      obtain ⟨i, k', h1, h2, h3⟩ := makeBag_bagit hB hD hr hi hbag hok1 hk
      have := k2 _ _ hfs
      simp only [LDisk.node, h2, Option.map_some, LNode.view] at this
      simp only [LDisk.node, h1, Option.map_some, LNode.view, h3, this]
    · exact ih hr' k1 hbag' hs' hok (k2 _ _ hfs) o' ho' D hD

/-- With or without links, a head bag in the payload of a member bag has it. -/
example (l : Bool) : (linkedBag.makeBags (intoO l) nestedOutputs).2.node
    ([py!"o", py!"b", py!"data", py!"h"] ++ [py!"bagit.txt"]) = some (.file py!"tags") :=
  C132_bagit_partial (m := intoO l) (s := py!"tags") abs_va linkedBag_rooted linkedBag_ok (by decide) (sound_nested l)
    (nested_ends l) (by kernel_rfl) (nestedOutputs[1]'(by decide)) (by simp [nestedOutputs]) _ (sound_h l)

end Verif
