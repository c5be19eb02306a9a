import Verif.Lemmas.AmendStopped
import Verif.Props.Convert
/-!
# An amendment or a conversion that is stopped on the way (C101)
-/

namespace Verif

open Spec

theorem listPath_ne_info {dir : Str} {p : Path} (hd : comps dir ≠ [py!"bag-info.txt"]) (h : ListPath dir p) :
    p ≠ [py!"bag-info.txt"] := by
  rcases h with rfl | rfl | rfl
  · exact (tagFile_ne_info comps_members (by decide) (by decide)).1
  · exact (tagFile_ne_info comps_lookup (by decide) (by decide)).1
  · exact hd

theorem members_not_info (dir : Str) : ¬ InfoPath (tagFile dir py!"member-bags.tsv") := by
  have := tagFile_ne_info (dir := dir) comps_members (by decide) (by decide)
  rintro (h | ⟨a, h⟩)
  · exact this.1 h
  · exact this.2 a h

theorem lookup_not_info (dir : Str) : ¬ InfoPath (tagFile dir py!"file-lookup.tsv") := by
  have := tagFile_ne_info (dir := dir) comps_lookup (by decide) (by decide)
  rintro (h | ⟨a, h⟩)
  · exact this.1 h
  · exact this.2 a h

theorem eqOutside_both {dir : Str} {a b c : Tree} (h1 : EqOutside (ListPath dir) a b) (h2 : EqOutside InfoPath b c) :
    EqOutside (fun p => ListPath dir p ∨ InfoPath p) a c :=
  (h1.mono (fun _ => .inl)).trans (h2.mono (fun _ => .inr))

/-- The stages of an amendment: while the lists are made, only they change; the metadata is written after them. -/
theorem amend_stages {E : SaveEnv} {keep : Bool} {old : Amendee} {me : NewHead} {version : Str} {bags : List Amending}
    {s s' : HeadBag} (h : amend E keep old me version bags s = (.ok (), s')) :
    ∃ s4 : HeadBag, EqOutside (ListPath (tagDir s.info)) s.tree s4.tree ∧
      s4.updateInfo E (some version) (profileVersion s4.info) = (.ok (), s') ∧
      (∀ x, x ∈ amendStates E keep old me version bags s →
        EqOutside (ListPath (tagDir s.info)) s.tree x ∨ x ∈ s4.updateInfoStates E (some version) (profileVersion s4.info)) ∧
      s.tree ∈ amendStates E keep old me version bags s ∧
      ∀ x, x ∈ s4.updateInfoStates E (some version) (profileVersion s4.info) → x ∈ amendStates E keep old me version bags s := by
  unfold amend at h
  unfold amendStates
  simp only
  have hd : tagDir (initInfo keep old.info s.info) = tagDir s.info := tagDir_initInfo keep old.info s.info
  -- reading the old head
  have a1 := initMembers_same { s with info := initInfo keep old.info s.info } old
  simp only [hd] at a1
  cases hi : s.initFrom keep old with
  | mk r s1 =>
    rw [hi] at h
    cases r with
    | error e => injection h with h; cases h
    | ok u =>
    simp only at h ⊢
    have hstates : ∀ x ∈ s.initFromStates keep old, EqOutside (ListPath (tagDir s.info)) s.tree x := by
      intro x hx
      unfold HeadBag.initFromStates at hx
      simp only [List.mem_cons, List.not_mem_nil, or_false] at hx
      rcases hx with rfl | rfl | rfl
      · exact EqOutside.refl _
      · exact a1.1
      · have := (initLookup_same (({ s with info := initInfo keep old.info s.info } : HeadBag).initMembers old).2 old).1
        rw [a1.2, hd] at this
        exact a1.1.trans this
    have b1 : EqOutside (ListPath (tagDir s.info)) s.tree s1.tree ∧ tagDir s1.info = tagDir s.info := by
      unfold HeadBag.initFrom at hi
      revert hi a1
      cases ({ s with info := initInfo keep old.info s.info } : HeadBag).initMembers old with
      | mk r t1 =>
        intro a1 hi
        cases r with
        | error e => injection hi with hi; cases hi
        | ok u =>
          simp only at hi a1
          have := initLookup_same t1 old
          rw [hi] at this
          simp only at this
          rw [a1.2, hd] at this
          exact ⟨a1.1.trans this.1, by rw [this.2]; exact hd⟩
    -- the amending bags
    have a2 := addAllAmending_quiet bags s1
    cases hb : s1.addAllAmending bags with
    | mk r s2 =>
      rw [hb] at h a2
      cases r with
      | error e => injection h with h; cases h
      | ok u =>
      simp only at h ⊢
      have b2 : EqOutside (ListPath (tagDir s.info)) s.tree s2.tree ∧ tagDir s2.info = tagDir s.info := by
        rw [a2.1, a2.2]; exact b1
      -- the head bag itself
      unfold HeadBag.finalize at h
      unfold HeadBag.finalizeStates
      simp only
      have a3 := addMemberBag_tree s2 ⟨me.name, me.uri, me.comment, me.extra⟩ true
      cases hm : s2.addMemberBag ⟨me.name, me.uri, me.comment, me.extra⟩ with
      | mk r s3 =>
        rw [hm] at h a3
        cases r with
        | error e => injection h with h; cases h
        | ok u =>
        simp only at h ⊢
        have a4 := updateForMember_quiet s3 false s3.tree me.name me.incl me.excl
        cases hu : s3.updateForMember false s3.tree me.name me.incl me.excl false with
        | mk r s5 =>
          rw [hu] at h a4
          cases r with
          | error e => injection h with h; cases h
          | ok u =>
          simp only at h ⊢
          have b3 : EqOutside (ListPath (tagDir s.info)) s.tree s5.tree ∧ tagDir s5.info = tagDir s.info := by
            rw [a4.1, a4.2, a3.1, a3.2]; exact b2
          have a5 := saveMembers_same s5
          cases hsm : s5.saveMemberBags with
          | mk r s6 =>
            rw [hsm] at h a5
            cases r with
            | error e => injection h with h; cases h
            | ok u =>
            simp only at h ⊢
            rw [b3.2] at a5
            have b4 : EqOutside (ListPath (tagDir s.info)) s.tree s6.tree ∧ tagDir s6.info = tagDir s.info := by
              refine ⟨b3.1.trans a5.2.1, ?_⟩
              rw [a5.2.2]; exact b3.2
            have a6 := saveLookup_same s6
            cases hsl : s6.saveFileLookup with
            | mk r s7 =>
              rw [hsl] at h a6
              cases r with
              | error e => injection h with h; cases h
              | ok u =>
              simp only at h ⊢
              rw [b4.2] at a6
              refine ⟨s7, b4.1.trans a6.2.1, h, ?_, ?_, ?_⟩
              · intro x hx
                rcases List.mem_append.1 hx with hx | hx
                · exact .inl (hstates x hx)
                rcases List.mem_append.1 hx with hx | hx
                · rcases List.mem_append.1 hx with hx | hx
                  · exact .inl (b3.1.trans (a5.1 x hx))
                  · exact .inl (b4.1.trans (a6.1 x hx))
                · exact .inr hx
              · exact List.mem_append.2 (.inl (List.mem_cons_self ..))
              · intro x hx
                exact List.mem_append.2 (.inr (List.mem_append.2 (.inr hx)))

/-- C101: wherever an amendment is stopped, the new head bag has all its files but the two lists, the metadata and the
tag manifests as they were; and either bag-info.txt is as it was, or both lists are as the whole amendment leaves
them. -/
theorem C101_amend_stopped (E : SaveEnv) (keep : Bool) (old : Amendee) (me : NewHead) (version : Str) (bags : List Amending)
    (tree : Tree) (info : Info) (s' : HeadBag) (hd : comps (tagDir info) ≠ [py!"bag-info.txt"])
    (h : amend E keep old me version bags (HeadBag.open tree info) = (.ok (), s'))
    (x : Tree) (hx : x ∈ amendStates E keep old me version bags (HeadBag.open tree info)) :
    (∀ p, p ≠ tagFile (tagDir info) py!"member-bags.tsv" → p ≠ tagFile (tagDir info) py!"file-lookup.tsv" →
      p ≠ comps (tagDir info) → p ≠ [py!"bag-info.txt"] → (∀ a, p ≠ manPath py!"tagmanifest" a) → dget x p = dget tree p) ∧
    (x.read [py!"bag-info.txt"] = tree.read [py!"bag-info.txt"] ∨
      (x.read (tagFile (tagDir info) py!"member-bags.tsv") = s'.tree.read (tagFile (tagDir info) py!"member-bags.tsv") ∧
       x.read (tagFile (tagDir info) py!"file-lookup.tsv") = s'.tree.read (tagFile (tagDir info) py!"file-lookup.tsv"))) := by
  obtain ⟨s4, h1, h2, h3, _⟩ := amend_stages h
  have hout : ∀ {p : Path}, p ≠ tagFile (tagDir info) py!"member-bags.tsv" → p ≠ tagFile (tagDir info) py!"file-lookup.tsv" →
      p ≠ comps (tagDir info) → ¬ ListPath (tagDir info) p := by
    rintro p k1 k2 k3 (k | k | k)
    · exact k1 k
    · exact k2 k
    · exact k3 k
  rcases h3 x hx with k | k
  · refine ⟨fun p k1 k2 k3 _ _ => k p (hout k1 k2 k3), .inl ?_⟩
    rw [read_eq, k _ (fun l => listPath_ne_info hd l rfl), read_eq]
    rfl
  · have k1 := (updateInfo_same E s4 (some version) (profileVersion s4.info)).1 x k
    have k2 := (updateInfo_same E s4 (some version) (profileVersion s4.info)).2
    rw [h2] at k2
    refine ⟨fun p j1 j2 j3 j4 j5 => ?_, .inr ⟨?_, ?_⟩⟩
    · rw [k1 p (by rintro (e | ⟨a, e⟩); exact j4 e; exact j5 a e)]
      exact h1 p (hout j1 j2 j3)
    · rw [read_eq, read_eq, k1 _ (members_not_info _), k2 _ (members_not_info _)]
    · rw [read_eq, read_eq, k1 _ (lookup_not_info _), k2 _ (lookup_not_info _)]

/-- The states at the beginning and at the end are among those in which an amendment may be stopped. -/
theorem amendStates_ends {E : SaveEnv} {keep : Bool} {old : Amendee} {me : NewHead} {version : Str} {bags : List Amending}
    {s s' : HeadBag} (h : amend E keep old me version bags s = (.ok (), s')) :
    s.tree ∈ amendStates E keep old me version bags s ∧ s'.tree ∈ amendStates E keep old me version bags s := by
  obtain ⟨s4, _, h2, _, h4, h5⟩ := amend_stages h
  exact ⟨h4, h5 _ (updateInfo_last h2)⟩

/-- C101 fails in this: every amendment can be stopped when bag-info.txt is empty, with what it said lost. -/
theorem C101_negation_baginfo (E : SaveEnv) (keep : Bool) (old : Amendee) (me : NewHead) (version : Str) (bags : List Amending)
    (s s' : HeadBag) (h : amend E keep old me version bags s = (.ok (), s')) :
    ∃ x ∈ amendStates E keep old me version bags s, x.read [py!"bag-info.txt"] = some [] := by
  obtain ⟨s4, _, h2, _, _, h5⟩ := amend_stages h
  exact ⟨_, h5 _ (updateInfo_torn h2).1, by rw [read_eq, dget_dset, if_pos rfl]⟩

/-! ## Conversions -/

/-- The first step of both list-writing methods. -/
def HeadBag.introduced (E : SaveEnv) (s : HeadBag) : Res Unit :=
  if noProfile s.info then s.updateInfo E (some py!"1") CURRENT_VERSION else (.ok (), s)

theorem introduced_ok {E : SaveEnv} {s s1 : HeadBag} (h : s.introduced E = (.ok (), s1)) :
    EqOutside InfoPath s.tree s1.tree ∧ tagDir s1.info = tagDir s.info ∧ (noProfile s.info = false → s1 = s) ∧
    (if noProfile s.info then (s.updateInfo E (some py!"1") CURRENT_VERSION).2 else s) = s1 := by
  unfold HeadBag.introduced at h
  split at h
  · rename_i hn
    have := (updateInfo_same E s (some py!"1") CURRENT_VERSION).2
    rw [h] at this
    obtain ⟨⟨t0, e⟩, _⟩ := updateInfo_ok h
    rw [if_pos hn, h]
    refine ⟨this, ?_, fun k => (by rw [hn] at k; cases k), rfl⟩
    rw [e, tagDir_updateInfo]
  · rename_i hn
    injection h with _ h
    subst h
    rw [if_neg hn]
    exact ⟨EqOutside.refl _, rfl, fun _ => rfl, rfl⟩

/-- The states of that step. -/
def HeadBag.introducedStates (E : SaveEnv) (s : HeadBag) : List Tree :=
  if noProfile s.info then s.updateInfoStates E (some py!"1") CURRENT_VERSION else [s.tree]

theorem introduced_states (E : SaveEnv) (s : HeadBag) :
    (∀ x ∈ s.introducedStates E, EqOutside InfoPath s.tree x) ∧
    (noProfile s.info = false → ∀ x ∈ s.introducedStates E, x = s.tree) := by
  unfold HeadBag.introducedStates
  split
  · rename_i hn
    exact ⟨(updateInfo_same E s _ _).1, fun k => (by rw [hn] at k; cases k)⟩
  · exact ⟨fun x hx => by rw [List.mem_singleton.1 hx]; exact EqOutside.refl _, fun _ x hx => List.mem_singleton.1 hx⟩

/-- Where a conversion may stop, stage by stage. -/
theorem convert_stages {E : SaveEnv} {dir version : Str} {pid : Option Str} {s s' : HeadBag}
    (h : s.convert E dir version pid = (.ok (), s')) :
    ∃ a b c d : HeadBag, s.introduced E = (.ok (), a) ∧ tagDir b.info = tagDir s.info ∧
      EqOutside (ListPath (tagDir s.info)) a.tree b.tree ∧ b.introduced E = (.ok (), c) ∧ (b.info = a.info) ∧
      EqOutside (ListPath (tagDir s.info)) c.tree d.tree ∧ tagDir d.info = tagDir s.info ∧
      d.updateInfo E (some version) CURRENT_VERSION = (.ok (), s') ∧
      (∀ x ∈ s.introducedStates E, x ∈ s.convertStates E dir version pid) ∧
      (∀ x ∈ d.updateInfoStates E (some version) CURRENT_VERSION, x ∈ s.convertStates E dir version pid) ∧
      ∀ x ∈ s.convertStates E dir version pid, x ∈ s.introducedStates E ∨ EqOutside (ListPath (tagDir s.info)) a.tree x ∨
        x ∈ b.introducedStates E ∨ EqOutside (ListPath (tagDir s.info)) c.tree x ∨
        x ∈ d.updateInfoStates E (some version) CURRENT_VERSION := by
  unfold HeadBag.convert at h
  unfold HeadBag.convertStates
  simp only
  cases hm : s.writeMemberBags E dir pid with
  | mk r b =>
    rw [hm] at h
    cases r with
    | error e => injection h with h; cases h
    | ok u =>
    simp only at h ⊢
    cases hl : b.writeFileLookup E dir .none .none true with
    | mk r d =>
      rw [hl] at h
      cases r with
      | error e => injection h with h; cases h
      | ok u =>
      simp only at h ⊢
      -- the member list
      unfold HeadBag.writeMemberBags at hm
      change (match s.introduced E with
        | (.error e, s) => (.error e, s)
        | (.ok _, s) =>
          match s.setMemberBags [⟨baseName dir, pid, none, []⟩] with
          | (.error e, s) => (.error e, s)
          | (.ok _, s) => s.saveMemberBags : Res Unit) = _ at hm
      cases ha : s.introduced E with
      | mk r a =>
        rw [ha] at hm
        cases r with
        | error e => injection hm with hm; cases hm
        | ok u =>
        simp only [HeadBag.setMemberBags] at hm
        obtain ⟨i1, i2, _, i4⟩ := introduced_ok ha
        have a1 := saveMembers_same { a with members := some [⟨baseName dir, pid, none, []⟩] }
        rw [hm] at a1
        simp only at a1
        rw [i2] at a1
        have hb : tagDir b.info = tagDir s.info := by rw [a1.2.2]; exact i2
        -- the lookup list
        unfold HeadBag.writeFileLookup at hl
        change (match b.introduced E with
          | (.error e, s) => (.error e, s)
          | (.ok _, s) =>
            match s.clearFileLookup with
            | (.error e, s) => (.error e, s)
            | (.ok _, s) =>
              match s.updateForMember false s.tree (baseName (rstripBy (fun c => c = '/') dir)) .none .none false with
              | (.error e, s) => (.error e, s)
              | (.ok _, s) => s.saveFileLookup : Res Unit) = _ at hl
        cases hc : b.introduced E with
        | mk r c =>
          rw [hc] at hl
          cases r with
          | error e => injection hl with hl; cases hl
          | ok u =>
          simp only at hl
          obtain ⟨_, j2, _, j4⟩ := introduced_ok hc
          have a2 := clearFileLookup_same c
          cases hcl : c.clearFileLookup with
          | mk r c1 =>
            rw [hcl] at hl a2
            cases r with
            | error e => injection hl with hl; cases hl
            | ok u =>
            simp only at hl a2
            have a3 := updateForMember_quiet c1 false c1.tree (baseName (rstripBy (fun c => c = '/') dir)) .none .none
            cases hu : c1.updateForMember false c1.tree (baseName (rstripBy (fun c => c = '/') dir)) .none .none false with
            | mk r c2 =>
              rw [hu] at hl a3
              cases r with
              | error e => injection hl with hl; cases hl
              | ok u =>
              simp only at hl
              have hdir : tagDir c2.info = tagDir s.info := by rw [a3.2, a2.2, j2, hb]
              have a4 := saveLookup_same c2
              rw [hl, hdir] at a4
              simp only at a4
              rw [j2, hb] at a2
              have e2 : EqOutside (ListPath (tagDir s.info)) c.tree c2.tree := by rw [a3.1]; exact a2.1
              refine ⟨a, b, c, d, rfl, hb, a1.2.1, hc, a1.2.2, e2.trans a4.2.1, by rw [a4.2.2, hdir], h, ?_, ?_, ?_⟩
              · intro x hx
                exact List.mem_append.2 (.inl (List.mem_append.2 (.inl (List.mem_append.2 (.inl hx)))))
              · intro x hx
                exact List.mem_append.2 (.inr hx)
              · intro x hx
                rcases List.mem_append.1 hx with hx | hx
                · rcases List.mem_append.1 hx with hx | hx
                  · rcases List.mem_append.1 hx with hx | hx
                    · exact .inl hx
                    · simp only [i4] at hx
                      exact .inr (.inl (a1.1 x hx))
                  · rcases List.mem_append.1 hx with hx | hx
                    · exact .inr (.inr (.inl hx))
                    · simp only [if_true, j4, hcl, hu] at hx
                      exact .inr (.inr (.inr (.inl (e2.trans (a4.1 x hx)))))
                · exact .inr (.inr (.inr (.inr hx)))

/-- The state at the end is among those in which a conversion may be stopped. -/
theorem convertStates_last {E : SaveEnv} {dir version : Str} {pid : Option Str} {s s' : HeadBag}
    (h : s.convert E dir version pid = (.ok (), s')) : s'.tree ∈ s.convertStates E dir version pid := by
  obtain ⟨_, _, _, d, _, _, _, _, _, _, _, hup, _, hst, _⟩ := convert_stages h
  exact hst _ (updateInfo_last hup)

/-- C101: wherever a conversion is stopped, all files of the bag but the two lists, the metadata and the tag manifests
are as they were. -/
theorem C101_convert_files (E : SaveEnv) (dir version : Str) (pid : Option Str) (tree : Tree) (info : Info) (s' : HeadBag)
    (h : (HeadBag.open tree info).convert E dir version pid = (.ok (), s'))
    (x : Tree) (hx : x ∈ (HeadBag.open tree info).convertStates E dir version pid) (p : Path)
    (h1 : p ≠ tagFile (tagDir info) py!"member-bags.tsv") (h2 : p ≠ tagFile (tagDir info) py!"file-lookup.tsv")
    (h3 : p ≠ comps (tagDir info)) (h4 : p ≠ [py!"bag-info.txt"]) (h5 : ∀ a, p ≠ manPath py!"tagmanifest" a) :
    dget x p = dget tree p := by
  obtain ⟨a, b, c, d, ha, hb, hab, hc, _, hcd, _, _, _, _, hall⟩ := convert_stages h
  have nl : ¬ ListPath (tagDir info) p := by
    rintro (k | k | k)
    · exact h1 k
    · exact h2 k
    · exact h3 k
  have ni : ¬ InfoPath p := by
    rintro (k | ⟨a, k⟩)
    · exact h4 k
    · exact h5 a k
  have e1 : dget a.tree p = dget tree p := (introduced_ok ha).1 p ni
  have e2 : dget b.tree p = dget tree p := (hab p nl).trans e1
  have e3 : dget c.tree p = dget tree p := ((introduced_ok hc).1 p ni).trans e2
  have e4 : dget d.tree p = dget tree p := (hcd p nl).trans e3
  rcases hall x hx with k | k | k | k | k
  · exact (introduced_states E _).1 x k p ni
  · exact (k p nl).trans e1
  · exact ((introduced_states E _).1 x k p ni).trans e2
  · exact (k p nl).trans e3
  · exact ((updateInfo_same E d _ _).1 x k p ni).trans e4

/-- C101 for a conversion: either bag-info.txt is as it was, or both lists are as the whole conversion leaves them.
Missing: bags that have no profile version yet (see `C101_negation_convert`). -/
theorem C101_convert_stopped_partial (E : SaveEnv) (dir version : Str) (pid : Option Str) (tree : Tree) (info : Info)
    (s' : HeadBag) (hp : noProfile info = false) (hd : comps (tagDir info) ≠ [py!"bag-info.txt"])
    (h : (HeadBag.open tree info).convert E dir version pid = (.ok (), s'))
    (x : Tree) (hx : x ∈ (HeadBag.open tree info).convertStates E dir version pid) :
    x.read [py!"bag-info.txt"] = tree.read [py!"bag-info.txt"] ∨
      (x.read (tagFile (tagDir info) py!"member-bags.tsv") = s'.tree.read (tagFile (tagDir info) py!"member-bags.tsv") ∧
       x.read (tagFile (tagDir info) py!"file-lookup.tsv") = s'.tree.read (tagFile (tagDir info) py!"file-lookup.tsv")) := by
  obtain ⟨a, b, c, d, ha, hb, hab, hc, hba, hcd, hdd, hup, _, _, hall⟩ := convert_stages h
  have e1 : a = HeadBag.open tree info := (introduced_ok ha).2.2.1 hp
  subst e1
  have hbi : noProfile b.info = false := by rw [hba]; exact hp
  have e2 : c = b := (introduced_ok hc).2.2.1 hbi
  subst e2
  have key : ∀ {y : Tree}, EqOutside (ListPath (tagDir info)) tree y → y.read [py!"bag-info.txt"] = tree.read [py!"bag-info.txt"] := by
    intro y hy
    rw [read_eq, hy _ (fun l => listPath_ne_info hd l rfl), read_eq]
  rcases hall x hx with k | k | k | k | k
  · rw [(introduced_states E _).2 hp x k]; exact .inl rfl
  · exact .inl (key k)
  · rw [(introduced_states E _).2 hbi x k]; exact .inl (key hab)
  · exact .inl (key (EqOutside.trans hab k))
  · have k1 := (updateInfo_same E d (some version) CURRENT_VERSION).1 x k
    have k2 := (updateInfo_same E d (some version) CURRENT_VERSION).2
    rw [hup] at k2
    right
    constructor
    · rw [read_eq, read_eq, k1 _ (members_not_info _), k2 _ (members_not_info _)]
    · rw [read_eq, read_eq, k1 _ (lookup_not_info _), k2 _ (lookup_not_info _)]

/-- C101 fails for the conversion of a bag without a profile version: it can be stopped when bag-info.txt already says
that the bag is the head bag of version 1, whatever version was asked for, and nothing else has been written. -/
theorem C101_negation_convert (E : SaveEnv) (dir version : Str) (pid : Option Str) (tree : Tree) (info : Info) (s' : HeadBag)
    (hp : noProfile info = true) (h : (HeadBag.open tree info).convert E dir version pid = (.ok (), s')) :
    fields (headInfo (some py!"1") CURRENT_VERSION info) py!"Multibag-Head-Version" = [py!"1"] ∧
    ∃ x ∈ (HeadBag.open tree info).convertStates E dir version pid,
      x.read [py!"bag-info.txt"] = some (fieldsText (tagFields (headInfo (some py!"1") CURRENT_VERSION info))) ∧
      ∀ p, p ≠ [py!"bag-info.txt"] → dget x p = dget tree p := by
  obtain ⟨a, b, c, d, ha, _, _, _, _, _, _, _, hst, _, _⟩ := convert_stages h
  have hp' : noProfile (HeadBag.open tree info).info = true := hp
  refine ⟨?_, ?_⟩
  · obtain ⟨_, _, _, f4, _⟩ := C20_sets_fields (fun _ => []) (some py!"1") CURRENT_VERSION info
    have e : fields (headInfo (some py!"1") CURRENT_VERSION info) py!"Multibag-Head-Version" =
        fields (updateInfo (fun _ => []) (some py!"1") CURRENT_VERSION info) py!"Multibag-Head-Version" := by
      unfold updateInfo fields
      simp only
      rw [dget_dset, if_neg (by decide)]
    rw [e, f4]
  · unfold HeadBag.introduced at ha
    rw [if_pos hp'] at ha
    have := (updateInfo_torn ha).2
    refine ⟨_, hst _ (by unfold HeadBag.introducedStates; rw [if_pos hp']; exact this), ?_, ?_⟩
    · rw [read_eq, dget_dset, if_pos rfl]; rfl
    · intro p hpne
      rw [dget_dset, if_neg (fun (e : _ = p) => hpne e.symm)]
      rfl

/-! ## Cases -/

/-- The sample amendment can be stopped when a part of the member list is written, bag-info.txt still being the old one;
and when bag-info.txt breaks off in the middle of a line, with both lists complete. -/
example :
    (∃ x ∈ amendStates Sample.saveEnv false Sample.oldHead Sample.newHead py!"2.0" [Sample.extra] (HeadBag.open Sample.newTree Sample.newInfo),
      x.read [py!"multibag", py!"member-bags.tsv"] = some py!"m1\tark:/1\nb0\nx" ∧
      x.read [py!"bag-info.txt"] = some py!"Contact: me\n") ∧
    ∃ x ∈ amendStates Sample.saveEnv false Sample.oldHead Sample.newHead py!"2.0" [Sample.extra] (HeadBag.open Sample.newTree Sample.newInfo),
      x.read [py!"bag-info.txt"] = some py!"Cont" ∧
      x.read [py!"multibag", py!"member-bags.tsv"] = Sample.amendedBag.tree.read [py!"multibag", py!"member-bags.tsv"] ∧
      x.read [py!"multibag", py!"file-lookup.tsv"] = Sample.amendedBag.tree.read [py!"multibag", py!"file-lookup.tsv"] := by
  constructor
  · decide +kernel
  · have : ∃ x ∈ amendStates Sample.saveEnv false Sample.oldHead Sample.newHead py!"2.0" [Sample.extra]
        (HeadBag.open Sample.newTree Sample.newInfo), x.read [py!"bag-info.txt"] = some py!"Cont" := by decide +kernel
    obtain ⟨x, hx, h1⟩ := this
    have key := (C101_amend_stopped _ _ _ _ _ _ _ _ _ (by decide) Sample.amend_runs x hx).2
    rcases key with k | k
    · rw [h1] at k; exact absurd k (by decide)
    · exact ⟨x, hx, h1, k⟩

/-- A case of `C101_negation_convert`: the sample bag is to become version 1.0; stopped, it says that it is the head bag of version
1, and has no multibag directory. -/
example : ∃ x ∈ (HeadBag.open Sample.newTree Sample.newInfo).convertStates Sample.saveEnv py!"/bags/n0" py!"1.0" (some py!"ark:/9"),
    x.exists [py!"multibag"] = false ∧ x.read [py!"bag-info.txt"] =
      some (fieldsText (tagFields (headInfo (some py!"1") CURRENT_VERSION Sample.newInfo))) := by
  obtain ⟨_, x, hx, h1, h2⟩ := C101_negation_convert _ _ _ _ _ _ _ (by decide) Sample.convert_runs
  refine ⟨x, hx, ?_, h1⟩
  have : dget x [py!"multibag"] = none := by rw [h2 _ (by decide)]; decide
  cases he : x.exists [py!"multibag"] with
  | false => rfl
  | true => exact absurd this ((exists_iff (by simp)).1 he)

/-- A case of `C101_convert_stopped_partial`: a bag that already names a profile version. -/
example : ∃ s', (HeadBag.open Sample.newTree (Sample.newInfo ++ [(py!"Multibag-Version", .one py!"0.4")])).convert Sample.saveEnv
      py!"/bags/n0" py!"1.0" (some py!"ark:/9") = (.ok (), s') ∧
    noProfile (Sample.newInfo ++ [(py!"Multibag-Version", .one py!"0.4")]) = false ∧
    ∃ x ∈ (HeadBag.open Sample.newTree (Sample.newInfo ++ [(py!"Multibag-Version", .one py!"0.4")])).convertStates Sample.saveEnv
      py!"/bags/n0" py!"1.0" (some py!"ark:/9"), x.read [py!"multibag", py!"member-bags.tsv"] = some py!"n0\ta" :=
  ⟨_, Prod.ext (show ((HeadBag.open Sample.newTree (Sample.newInfo ++ [(py!"Multibag-Version", .one py!"0.4")])).convert Sample.saveEnv
      py!"/bags/n0" py!"1.0" (some py!"ark:/9")).1 = .ok () by decide +kernel) rfl, by decide, by decide +kernel⟩

end Verif
