import Verif.Lemmas.PlanText
import Verif.Props.ReplicateText
/-!
# C131: plans whose entries are any strings
-/

namespace Verif
open Spec

theorem TwoDirs.filled {d : LDisk} {B D : Path} (h : TwoDirs d B D) {c : Filling} (hB : AbsPath c.bag B) (hD : AbsPath c.out D)
    {fs : List Str} (hfs : ∀ f ∈ fs, Downwards f) : Filled (fun _ => True) B D d (d.putEntries c fs).2 :=
  (filled_putEntries (h.aside hB.1.1) hB hD fs h.fillable hfs (fun _ _ => trivial)).1

/-- **C131**, part: filling an output bag changes nothing outside it, whatever the outcome: for every list of relative
entries without `..`, on every disk, if neither bag is in the other and no file that is already in the output bag has
another name.
Missing: entries with `..` (`C131_negation_outside`), and output bags with hard links before (`C127_negation_links`). -/
theorem C131_confined_partial {d : LDisk} {B D : Path} (h : TwoDirs d B D) {c : Filling} (hB : AbsPath c.bag B)
    (hD : AbsPath c.out D) {fs : List Str} (hfs : ∀ f ∈ fs, Downwards f) {p : Path} (hp : ¬ Inside D p) :
    (d.putEntries c fs).2.node p = d.node p := by
  have hf := TwoDirs.filled h hB hD hfs
  unfold LDisk.node
  rw [grown_outside hf.grown hp]
  cases hg : dget d.names p with
  | none => rfl
  | some n =>
    cases n with
    | dir => rfl
    | file i => simp only [Option.map_some, LNode.view, hf.kept p i hp hg]

/-- **C131**, part: if filling an output bag ends without an error, the lookup list gets exactly the entries that lead to a
file of the source, in the order of the plan, and each of them leads to a file with the same content in the output bag.
Missing: absolute entries (`C131_negation_absolute`), entries with `..`, and output bags with hard links before. -/
theorem C131_delivered_partial {d : LDisk} {B D : Path} (h : TwoDirs d B D) {c : Filling} (hB : AbsPath c.bag B)
    (hD : AbsPath c.out D) {fs recorded : List Str} (hfs : ∀ f ∈ fs, Downwards f) (hok : (d.putEntries c fs).1 = .ok recorded) :
    recorded.Sublist fs ∧
    (∀ f ∈ fs, f ∈ recorded ↔ ∃ s, d.node (leadsTo B f) = some (.file s)) ∧
    ∀ f ∈ recorded, (d.putEntries c fs).2.node (leadsTo D f) = d.node (leadsTo B f) := by
  have ha := h.aside hB.1.1
  obtain ⟨hf, hr⟩ := filled_putEntries (X := fun _ => True) ha hB hD fs h.fillable hfs (fun _ _ => trivial)
  obtain ⟨hs, hd, hin⟩ := hr recorded hok
  have key : ∀ f ∈ recorded, (∃ s, d.node (leadsTo B f) = some (.file s)) ∧
      (d.putEntries c fs).2.node (leadsTo D f) = d.node (leadsTo B f) := by
    intro f hfr
    have hdown := hfs f (hs.mem hfr)
    obtain ⟨i, k, hi, hk, he⟩ := hd f hfr
    rw [leads_below hdown, leads_below hdown]
    have hk0 : dget d.names (B ++ placeBelow f) = some (.file k) := by rw [← hk]; exact (outside_source ha hf.grown _).symm
    have hnode : d.node (B ++ placeBelow f) = some (.file (d.data k)) := by simp [LDisk.node, hk0, LNode.view]
    refine ⟨⟨_, hnode⟩, ?_⟩
    rw [hnode]
    simp [LDisk.node, hi, LNode.view, he, hf.kept _ k (ha.2 _) hk0]
  refine ⟨hs, fun f hff => ⟨fun hfr => (key f hfr).1, fun ⟨s, hns⟩ => ?_⟩, fun f hfr => (key f hfr).2⟩
  have hdown := hfs f hff
  rw [leads_below hdown] at hns
  unfold LDisk.node at hns
  cases hg : dget d.names (B ++ placeBelow f) with
  | none => rw [hg] at hns; cases hns
  | some n =>
    cases n with
    | dir => rw [hg] at hns; cases hns
    | file k => exact hin f hff k hg

/-! ## Directories -/

theorem mkdir_there {d d' : LDisk} {cs : List Str} {r : Mkdir} (h : d.mkdir cs = (r, d')) (hr : r ≠ .failed) :
    d'.exists (follow [] cs) = true := by
  unfold LDisk.mkdir at h
  split at h
  · cases h; exact absurd rfl hr
  · next p hp =>
    rw [← go_follow hp]
    split at h
    · next he => cases h; exact he
    · cases h
      unfold LDisk.exists
      rw [dget_dset, if_pos rfl]
      simp

theorem mkdirs_there {d : LDisk} {cs : List Str} : ∀ {d' : LDisk} {r : Mkdir}, d.mkdirs cs = (r, d') → r ≠ .failed →
    d'.exists (follow [] cs.reverse) = true := by
  induction cs with
  | nil => intro d' r _ _; rfl
  | cons c up ih =>
    intro d' r h hr
    rw [List.reverse_cons]
    unfold LDisk.mkdirs at h
    split at h
    · exact mkdir_there h hr
    · rcases hm : d.mkdirs up with ⟨r1, d1⟩
      rw [hm] at h
      cases r1 with
      | failed => cases h; exact absurd rfl hr
      | made =>
        simp only at h
        split at h
        · next hc =>
          cases h
          rw [hc, follow_append]
          exact ih hm (by simp)
        · exact mkdir_there h hr
      | fileExists =>
        simp only at h
        split at h
        · next hc =>
          cases h
          rw [hc, follow_append]
          exact ih hm (by simp)
        · exact mkdir_there h hr

theorem makedirs_there {d d' : LDisk} {s : Str} (h : d.makedirsAt s = (.ok (), d')) :
    d'.exists (leadsTo [] s) = true := by
  unfold LDisk.makedirsAt at h
  have key : ∀ {r d1}, d.mkdirs ((splitOn '/' s).filter (· ≠ [])).reverse = (r, d1) → r ≠ .failed →
      d1.exists (leadsTo [] s) = true := by
    intro r d1 hm hr
    have := mkdirs_there hm hr
    rw [List.reverse_reverse, ← follow_filter, List.filter_filter] at this
    unfold leadsTo
    rw [ite_self, ← follow_filter]
    rw [show (splitOn '/' s).filter (fun c => c ≠ [] && c ≠ ['.']) =
      (splitOn '/' s).filter (fun c => (c ≠ [] && c ≠ ['.']) && c ≠ []) from
        List.filter_congr (fun c _ => by by_cases e : c = [] <;> simp [e])]
    simpa using this
  split at h
  · next hm => cases h; exact key hm (by simp)
  · cases h

/-- **C131**, part: if filling an output bag ends without an error, every entry that leads to a directory of the source leads
to something in the output bag.  Missing: the entries that C131_delivered_partial leaves out. -/
theorem C131_directories_partial {d : LDisk} {B D : Path} (h : TwoDirs d B D) {c : Filling} (hB : AbsPath c.bag B)
    (hD : AbsPath c.out D) {fs recorded : List Str} (hfs : ∀ f ∈ fs, Downwards f) (hok : (d.putEntries c fs).1 = .ok recorded)
    {f : Str} (hf : f ∈ fs) (hdir : d.node (leadsTo B f) = some .dir) :
    (d.putEntries c fs).2.node (leadsTo D f) ≠ none := by
  have ha := h.aside hB.1.1
  have hfill := h.fillable
  clear h
  induction fs generalizing d recorded with
  | nil => cases hf
  | cons g gs ih =>
    have hg := hfs g (by simp)
    obtain ⟨h1, _, _⟩ := filled_putEntry (X := fun _ => True) ha hfill hB hD hg trivial
    have hrest : ∀ {d1 : LDisk} {l : List Str}, Fillable B D d1 → (d1.putEntries c gs).1 = .ok l →
        Grown D d1.names (d1.putEntries c gs).2.names := fun hd _ =>
      (filled_putEntries (X := fun _ => True) ha hB hD gs hd (fun x hx => hfs x (by simp [hx])) (fun _ _ => trivial)).1.grown
    unfold LDisk.putEntries at hok ⊢
    have hput : f = g → ∀ b, (d.putEntry c g).1 = .ok b → (d.putEntry c g).2.exists (D ++ placeBelow f) = true := by
      rintro rfl b hb
      rw [leads_below hg] at hdir
      have e1 : dget d.names (B ++ placeBelow f) = some .dir := by
        unfold LDisk.node at hdir
        cases hn : dget d.names (B ++ placeBelow f) with
        | none => rw [hn] at hdir; cases hdir
        | some n => cases n with
          | dir => rfl
          | file i => rw [hn] at hdir; cases hdir
      rw [putEntry_eq c ha hfill hB hg] at hb ⊢
      rw [if_neg (by simp [LDisk.exists, e1]), if_pos (by simp [LDisk.isdir, e1])] at hb ⊢
      split at hb
      · next he =>
        rw [if_pos he]
        unfold LDisk.existsAt at he
        cases hp : d.place (pathJoin c.out f) with
        | none => rw [hp] at he; cases he
        | some p =>
          rw [hp] at he
          have := (place_join hD hg hp).1
          rw [← this]
          exact he
      · next he =>
        rw [if_neg he]
        rcases hm : d.makedirsAt (pathJoin c.out f) with ⟨r, d1⟩
        rw [hm] at hb
        cases r with
        | error e => cases hb
        | ok u =>
          have := makedirs_there hm
          rw [leads_join hD hg] at this
          exact this
    rcases hr : d.putEntry c g with ⟨r1, d1⟩
    rw [hr] at h1 hput hok
    cases r1 with
    | error e => cases hok
    | ok b =>
      simp only at hok ⊢ hput
      rcases hq : d1.putEntries c gs with ⟨q1, d2⟩
      rw [hq] at hok
      cases q1 with
      | error e => cases hok
      | ok l =>
        simp only
        rcases List.mem_cons.1 hf with e | e
        · have hx := hput e b rfl
          have hgr := hrest h1.after (by rw [hq])
          rw [hq] at hgr
          rw [leads_below (e ▸ hg)]
          intro hnone
          have h2 : dget d2.names (D ++ placeBelow f) = none := by
            unfold LDisk.node at hnone
            cases hn : dget d2.names (D ++ placeBelow f) with
            | none => rfl
            | some n => rw [hn] at hnone; cases hnone
          cases hn : dget d1.names (D ++ placeBelow f) with
          | some n => rw [hgr.keep _ _ hn] at h2; cases h2
          | none =>
            unfold LDisk.exists at hx
            rw [hn] at hx
            simp at hx
            exact absurd hx.1 hD.1.1
        · have := ih (d := d1) (recorded := l) (fun x hx => hfs x (by simp [hx])) (by rw [hq]) e (by
            rw [leads_below (hfs f (by simp [e]))] at hdir ⊢
            unfold LDisk.node at hdir ⊢
            rw [outside_source ha h1.grown _]
            cases hn : dget d.names (B ++ placeBelow f) with
            | none => rw [hn] at hdir; cases hdir
            | some n => cases n with
              | dir => rfl
              | file i => rw [hn] at hdir; cases hdir) h1.after
          rw [hq] at this
          exact this

/-- The disk `sameNames` has a bag `/v/a` and a directory `/o/out` for an output bag. -/
theorem sameNames_two : TwoDirs sameNames [py!"v", py!"a"] [py!"o", py!"out"] :=
  ⟨sameNames_rooted, sameNames_ok, fun _ _ _ h1 h2 => sameNames_unshared _ _ _ h2 h1, by decide, by decide,
    by unfold Inside; decide, by unfold Inside; decide⟩

/-- The output bag `/o/out` filled from `/v/a`. -/
def fillOut (hardlink : Bool) : Filling := { bag := py!"/v/a", out := py!"/o/out", hardlink }

/-- The entries of a plan: a file in an odd spelling, a directory, and a file that is not there. -/
def oddPlan : List Str := [py!"data//./x", py!"data/", py!"data/y"]

theorem oddPlan_down : ∀ f ∈ oddPlan, Downwards f := by
  intro f hf
  simp only [oddPlan, List.mem_cons, List.not_mem_nil, or_false] at hf
  rcases hf with rfl | rfl | rfl <;> exact ⟨by decide, by decide⟩

example (b : Bool) : (sameNames.putEntries (fillOut b) oddPlan).2.node [py!"o", py!"a", py!"data", py!"y"] =
    some (.file py!"other") :=
  (C131_confined_partial sameNames_two (c := fillOut b) abs_va abs_out oddPlan_down (by unfold Inside; decide)).trans
    (by kernel_rfl)

/-- The plan ends well, with hard links and with copies, and one entry is recorded. -/
theorem oddPlan_ends (b : Bool) : (sameNames.putEntries (fillOut b) oddPlan).1 = .ok [py!"data//./x"] := by
  cases b <;> kernel_rfl

example (b : Bool) : (sameNames.putEntries (fillOut b) oddPlan).2.node [py!"o", py!"out", py!"data", py!"x"] =
    some (.file py!"one") :=
  ((C131_delivered_partial sameNames_two (c := fillOut b) abs_va abs_out oddPlan_down (oddPlan_ends b)).2.2 py!"data//./x"
    (by simp)).trans (by kernel_rfl)

example (b : Bool) : (sameNames.putEntries (fillOut b) oddPlan).2.node [py!"o", py!"out", py!"data"] ≠ none :=
  C131_directories_partial sameNames_two (c := fillOut b) abs_va abs_out oddPlan_down (oddPlan_ends b) (f := py!"data/")
    (by decide) (by kernel_rfl)

/-- **C131**, negation: an entry with `..` that leads to a file of the bag is put outside the output bag, and recorded as
one of its files. -/
theorem C131_negation_outside : ∃ (d : LDisk) (c : Filling) (B D p : Path) (f : Str), TwoDirs d B D ∧ AbsPath c.bag B ∧
    AbsPath c.out D ∧ (d.putEntries c [f]).1 = .ok [f] ∧ ¬ Inside D p ∧ d.node p = none ∧
    (d.putEntries c [f]).2.node p = some (.file py!"one") :=
  ⟨sameNames, fillOut true, _, _, [py!"o", py!"a", py!"data", py!"x"], py!"../a/data/x", sameNames_two, abs_va, abs_out,
    by kernel_rfl, by unfold Inside; decide, by kernel_rfl, by kernel_rfl⟩

/-- **C131**, negation: an absolute entry that leads to a file of the bag is recorded as a file of the output bag although
nothing is put there. -/
theorem C131_negation_absolute : ∃ (d : LDisk) (c : Filling) (B D : Path) (f : Str), TwoDirs d B D ∧ AbsPath c.bag B ∧
    AbsPath c.out D ∧ (d.putEntries c [f]).1 = .ok [f] ∧ (d.putEntries c [f]).2 = d :=
  ⟨sameNames, fillOut true, _, _, py!"/v/a/data/x", sameNames_two, abs_va, abs_out, by kernel_rfl, by
    kernel_rfl⟩

/-- **C131**, negation: a file of the source is recorded once for each spelling among the entries, so that the lookup list
has two entries for one file. -/
theorem C131_negation_twice : ∃ (d : LDisk) (c : Filling) (B D : Path) (f g : Str), TwoDirs d B D ∧ AbsPath c.bag B ∧
    AbsPath c.out D ∧ Downwards f ∧ Downwards g ∧ f ≠ g ∧ leadsTo D f = leadsTo D g ∧
    (d.putEntries c [f, g]).1 = .ok [f, g] :=
  ⟨sameNames, fillOut true, _, _, py!"data/x", py!"data//x", sameNames_two, abs_va, abs_out, ⟨by decide, by decide⟩,
    ⟨by decide, by decide⟩, by decide, by decide, by kernel_rfl⟩

end Verif
