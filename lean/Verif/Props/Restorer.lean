import Verif.Lemmas.Restorer
import Verif.Props.Restore
import Verif.Props.OpenBag
/-!
# C97: where a restorer takes member bags from
-/

namespace Verif
open Spec

theorem given_eq_some {o : Option Str} {s : Str} : given o = some s ↔ o = some s ∧ s ≠ [] := by
  cases o with
  | none => simp [given]
  | some x =>
    cases x with
    | nil => simp only [given, reduceCtorEq, Option.some.injEq, false_iff, not_and]; rintro rfl; simp
    | cons c x => simp only [given, Option.some.injEq, iff_self_and]; rintro rfl; simp

theorem given_eq_none {o : Option Str} : given o = none ↔ o = none ∨ o = some [] := by
  cases o with
  | none => simp [given]
  | some x => cases x <;> simp [given]

/-- The two ways in which the set-up can fail. -/
theorem make_ok {cwd : Str} {disk : Tree} {isHead : Str → Except PyErr Bool} {head : HeadArg}
    {dest comp : Option Str} {fetcher : Bool} {r : Restorer}
    (h : Restorer.make cwd disk isHead head dest comp fetcher = .ok r) :
    (∀ p, head = .location p → diskExists cwd disk p = true ∧ isHead p = .ok true) ∧
    diskIsdir cwd disk (dirName (abspath cwd ((given dest).getD head.path))) = true ∧
    r = { headPath := head.path,
          inplace := (given dest).isNone || abspath cwd ((given dest).getD head.path) = abspath cwd head.path,
          destdir := abspath cwd ((given dest).getD head.path),
          cachedir := (given comp).getD (if fetcher
            then pathJoin (pathJoin (abspath cwd ((given dest).getD head.path)) py!"multibag") py!"_membercache"
            else dirName (abspath cwd head.path)) } := by
  unfold Restorer.make at h
  split at h
  · cases h
  · next hh =>
    simp only at h
    split at h
    · cases h
    · next hd =>
      refine ⟨?_, by simpa using hd, by cases h; rfl⟩
      rintro p rfl
      simp only at hh
      split at hh
      · cases hh
      · next he =>
        split at hh
        · cases hh
        · cases hh
        · next ht => exact ⟨by simpa using he, ht⟩

theorem cachedir_ne_nil {cwd : Str} {wd : Path} (hc : AbsPath cwd wd) {disk : Tree}
    {isHead : Str → Except PyErr Bool} {head : HeadArg} {dest comp : Option Str} {fetcher : Bool} {r : Restorer}
    (h : Restorer.make cwd disk isHead head dest comp fetcher = .ok r) : r.cachedir ≠ [] := by
  obtain ⟨_, _, rfl⟩ := make_ok h
  simp only
  cases hg : given comp with
  | some s => exact (given_eq_some.1 hg).2
  | none =>
    simp only [Option.getD_none]
    split
    · exact pathJoin_ne_nil (by decide)
    · obtain ⟨k, hk, e⟩ := abspath_shape hc head.path
      rw [e, dirName_slashes hk (goodName_leadsTo hc.1.2 _)]
      intro e'
      have := (List.append_eq_nil_iff.1 e').1
      rw [List.replicate_eq_nil_iff] at this
      omega

/-! ## Setting up -/

/-- C97: a restorer writes to the place given as destination, or to the head bag's own if none is given;
it works in place exactly if these are the same.  It looks for member bags in the given directory, or else
in the directory of the head bag, or, if bags can be fetched, in `multibag/_membercache` in the destination. -/
theorem C97_setup {cwd : Str} {wd : Path} (hc : AbsPath cwd wd) {disk : Tree} {isHead : Str → Except PyErr Bool}
    {head : HeadArg} {dest comp : Option Str} {fetcher : Bool} {r : Restorer}
    (h : Restorer.make cwd disk isHead head dest comp fetcher = .ok r) :
    (∀ d, dest = some d → d ≠ [] → leadsTo wd r.destdir = leadsTo wd d) ∧
    (dest = none ∨ dest = some [] → leadsTo wd r.destdir = leadsTo wd head.path) ∧
    (r.inplace = true → leadsTo wd r.destdir = leadsTo wd head.path) ∧
    (leadsTo wd r.destdir = leadsTo wd head.path → ¬ py!"//" <+: dest.getD [] → ¬ py!"//" <+: head.path →
      r.inplace = true) ∧
    (∀ c, comp = some c → c ≠ [] → r.cachedir = c) ∧
    (comp = none ∨ comp = some [] → fetcher = false →
      leadsTo wd r.cachedir = (leadsTo wd head.path).dropLast) ∧
    (comp = none ∨ comp = some [] → fetcher = true →
      leadsTo wd r.cachedir = leadsTo wd r.destdir ++ [py!"multibag", py!"_membercache"]) := by
  obtain ⟨_, _, rfl⟩ := make_ok h
  simp only [Bool.or_eq_true, Option.isNone_iff_eq_none, decide_eq_true_eq]
  rw [leadsTo_abspath hc]
  have hm : GoodName py!"multibag" := ⟨by decide, by decide, by decide, by decide⟩
  have hmc : GoodName py!"_membercache" := ⟨by decide, by decide, by decide, by decide⟩
  have habs : ∀ p : Str, abspath cwd p ≠ [] := by
    intro p e
    obtain ⟨k, hk, e'⟩ := abspath_shape hc p
    rw [e] at e'
    have := (List.append_eq_nil_iff.1 e'.symm).1
    rw [List.replicate_eq_nil_iff] at this
    omega
  refine ⟨fun d hd hne => ?_, fun hd => ?_, fun hi => ?_, fun hl h1 h2 => ?_, fun c hcc hne => ?_, fun hcc hf => ?_,
    fun hcc hf => ?_⟩
  · rw [given_eq_some.2 ⟨hd, hne⟩]; rfl
  · rw [given_eq_none.2 hd]; rfl
  · rcases hi with hi | hi
    · rw [hi]; rfl
    · have := congrArg (leadsTo wd) hi
      rwa [leadsTo_abspath hc, leadsTo_abspath hc] at this
  · cases hg : given dest with
    | none => exact .inl rfl
    | some d =>
      right
      obtain ⟨rfl, _⟩ := given_eq_some.1 hg
      rw [hg] at hl
      simp only [Option.getD_some] at hl h1 ⊢
      rw [abspath_one hc h1, abspath_one hc h2, hl]
  · rw [given_eq_some.2 ⟨hcc, hne⟩]; rfl
  · rw [given_eq_none.2 hcc, hf]
    exact leadsTo_dirName hc _
  · rw [given_eq_none.2 hcc, hf]
    simp only [Option.getD_none, if_true]
    have hne : pathJoin (abspath cwd ((given dest).getD head.path)) py!"multibag" ≠ [] := pathJoin_ne_nil (by decide)
    rw [leadsTo_join_name wd hne hmc, leadsTo_join_name wd (habs _) hm, leadsTo_abspath hc]
    simp

/-- C97: it is accepted exactly if the head bag exists and is one, when it is given by its path, and the
destination's parent is a directory. -/
theorem C97_accepts {cwd : Str} {wd : Path} (hc : AbsPath cwd wd) (disk : Tree) (isHead : Str → Except PyErr Bool)
    (head : HeadArg) (dest comp : Option Str) (fetcher : Bool) :
    (∃ r, Restorer.make cwd disk isHead head dest comp fetcher = .ok r) ↔
      (∀ p, head = .location p → disk.exists (leadsTo wd p) = true ∧ isHead p = .ok true) ∧
      ((∃ d, dest = some d ∧ d ≠ [] ∧ disk.isdir (leadsTo wd d).dropLast = true) ∨
       ((dest = none ∨ dest = some []) ∧ disk.isdir (leadsTo wd head.path).dropLast = true)) := by
  have key : diskIsdir cwd disk (dirName (abspath cwd ((given dest).getD head.path))) = true ↔
      ((∃ d, dest = some d ∧ d ≠ [] ∧ disk.isdir (leadsTo wd d).dropLast = true) ∨
       ((dest = none ∨ dest = some []) ∧ disk.isdir (leadsTo wd head.path).dropLast = true)) := by
    rw [diskIsdir_eq hc, leadsTo_dirName hc]
    cases hg : given dest with
    | none =>
      have hg := given_eq_none.1 hg
      constructor
      · exact fun h => .inr ⟨hg, h⟩
      · rintro (⟨d, rfl, hne, _⟩ | ⟨_, h⟩)
        · simp [hne] at hg
        · exact h
    | some d =>
      obtain ⟨rfl, hne⟩ := given_eq_some.1 hg
      constructor
      · exact fun h => .inl ⟨d, rfl, hne, h⟩
      · rintro (⟨_, e, _, h⟩ | ⟨h, _⟩)
        · cases e; exact h
        · simp [hne] at h
  rw [← key]
  constructor
  · rintro ⟨r, h⟩
    obtain ⟨h1, h2, _⟩ := make_ok h
    exact ⟨fun p hp => by rw [← diskExists_eq hc]; exact h1 p hp, h2⟩
  · rintro ⟨h1, h2⟩
    unfold Restorer.make
    cases head with
    | bag p => simp only; rw [if_neg (by simpa using h2)]; exact ⟨_, rfl⟩
    | location p =>
      obtain ⟨h3, h4⟩ := h1 p rfl
      rw [← diskExists_eq hc] at h3
      simp only [h3, h4, Bool.not_true, Bool.false_eq_true, if_false]
      rw [if_neg (by simpa using h2)]
      exact ⟨_, rfl⟩

/-! ## Finding -/

section
variable {cwd : Str} {wd : Path} {disk : Tree} {r : Restorer} {exts : List Str} {name : Str}

theorem find_dir (hc : AbsPath cwd wd) (hr : r.cachedir ≠ []) (hn : GoodName name) :
    diskIsdir cwd disk (pathJoin r.cachedir name) = true ↔ HasUnpacked disk (leadsTo wd r.cachedir) name := by
  rw [diskIsdir_eq hc, leadsTo_join_name wd hr hn]; rfl

theorem find_file (hc : AbsPath cwd wd) (hr : r.cachedir ≠ []) (hn : GoodName name) {e : Str} (he : e ∈ serialized) :
    leadsTo wd (pathJoin r.cachedir name ++ e) = leadsTo wd r.cachedir ++ [name ++ e] ∧
    (diskIsfile cwd disk (pathJoin r.cachedir name ++ e) = true ↔
      disk.isfile (leadsTo wd r.cachedir ++ [name ++ e]) = true) := by
  have hh : name.head? ≠ some '/' := fun e => hn.noslash (List.mem_of_head? e)
  rw [pathJoin_ext hn.nonempty hh, diskIsfile_eq hc, leadsTo_join_name wd hr (goodName_ext hn he)]
  exact ⟨rfl, Iff.rfl⟩

/-- What `find` returns. -/
theorem find_cases (hc : AbsPath cwd wd) (hr : r.cachedir ≠ []) (hn : GoodName name)
    (hx : ∀ e, e ∈ exts ↔ e ∈ serialized) :
    (∀ p, r.find exts cwd disk name = some p → p ≠ [] ∧ IsMember disk (leadsTo wd r.cachedir) name (leadsTo wd p)) ∧
    (r.find exts cwd disk name = none ↔ Absent disk (leadsTo wd r.cachedir) name) := by
  unfold Restorer.find
  simp only
  have hj : ∀ s : Str, pathJoin r.cachedir name ++ s ≠ [] := by
    intro s e
    exact pathJoin_ne_nil hn.nonempty (List.append_eq_nil_iff.1 e).1
  by_cases hd : diskIsdir cwd disk (pathJoin r.cachedir name) = true
  · rw [if_pos hd]
    have hd' := (find_dir hc hr hn).1 hd
    refine ⟨?_, by simp [Absent, hd']⟩
    rintro p ⟨⟩
    exact ⟨by simpa using hj [], .inl ⟨hd', leadsTo_join_name wd hr hn⟩⟩
  · rw [if_neg hd]
    have hd' : ¬ HasUnpacked disk (leadsTo wd r.cachedir) name := fun h => hd ((find_dir hc hr hn).2 h)
    constructor
    · intro p hp
      have hm := List.mem_of_head? hp
      rw [List.mem_filter, List.mem_map] at hm
      obtain ⟨⟨e, he, rfl⟩, hf⟩ := hm
      have he' := (hx e).1 he
      obtain ⟨h1, h2⟩ := find_file (disk := disk) hc hr hn he'
      exact ⟨hj e, .inr ⟨hd', e, ⟨he', h2.1 hf⟩, h1⟩⟩
    · rw [List.head?_eq_none_iff, List.filter_eq_nil_iff]
      constructor
      · intro h
        refine ⟨hd', ?_⟩
        rintro e ⟨he, hf⟩
        exact h _ (List.mem_map.2 ⟨e, (hx e).2 he, rfl⟩) ((find_file hc hr hn he).2.2 hf)
      · rintro ⟨_, h⟩ q hq hf
        obtain ⟨e, he, rfl⟩ := List.mem_map.1 hq
        have he' := (hx e).1 he
        exact h e ⟨he', (find_file hc hr hn he').2.1 hf⟩
end

/-- C97, part: a member bag with an ordinary name that is found lies in the directory for member bags,
under its name if there is such a directory, and otherwise with one of the extensions of archives.  It is
not found exactly if there is neither.
Missing: names with a slash, for which it is false (`C97_negation_outside`). -/
theorem C97_finds_partial {cwd : Str} {wd : Path} (hc : AbsPath cwd wd) {disk disk' : Tree}
    {isHead : Str → Except PyErr Bool} {head : HeadArg} {dest comp : Option Str} {fetcher : Bool} {r : Restorer}
    (h : Restorer.make cwd disk isHead head dest comp fetcher = .ok r) {exts : List Str}
    (hx : ∀ e, e ∈ exts ↔ e ∈ serialized) {name : Str} (hn : GoodName name) :
    (∀ p, r.find exts cwd disk' name = some p → IsMember disk' (leadsTo wd r.cachedir) name (leadsTo wd p)) ∧
    (r.find exts cwd disk' name = none ↔ Absent disk' (leadsTo wd r.cachedir) name) :=
  have k := find_cases hc (cachedir_ne_nil hc h) hn hx
  ⟨fun p hp => (k.1 p hp).2, k.2⟩

/-- C97: which bag is found does not depend on the order in which the extensions are tried, if there is the
directory, or at most one archive.
Missing: several archives (`C97_negation_two_archives`). -/
theorem C97_determined_partial {cwd : Str} {wd : Path} (hc : AbsPath cwd wd) {disk disk' : Tree}
    {isHead : Str → Except PyErr Bool} {head : HeadArg} {dest comp : Option Str} {fetcher : Bool} {r : Restorer}
    (h : Restorer.make cwd disk isHead head dest comp fetcher = .ok r) {exts exts' : List Str}
    (hx : ∀ e, e ∈ exts ↔ e ∈ serialized) (hx' : ∀ e, e ∈ exts' ↔ e ∈ serialized) {name : Str} (hn : GoodName name)
    (h1 : HasUnpacked disk' (leadsTo wd r.cachedir) name ∨
      ∀ e e', HasArchive disk' (leadsTo wd r.cachedir) name e → HasArchive disk' (leadsTo wd r.cachedir) name e' → e = e') :
    r.find exts cwd disk' name = r.find exts' cwd disk' name := by
  have hr := cachedir_ne_nil hc h
  by_cases hd : diskIsdir cwd disk' (pathJoin r.cachedir name) = true
  · unfold Restorer.find; simp only [hd, if_true]
  · have hd' : ¬ HasUnpacked disk' (leadsTo wd r.cachedir) name := fun h => hd ((find_dir hc hr hn).2 h)
    have h1 := h1.resolve_left hd'
    have key : ∀ xs : List Str, (∀ e, e ∈ xs ↔ e ∈ serialized) → ∀ p, r.find xs cwd disk' name = some p →
        ∃ e, HasArchive disk' (leadsTo wd r.cachedir) name e ∧ p = pathJoin r.cachedir name ++ e := by
      intro xs hxs p hp
      unfold Restorer.find at hp
      simp only [hd, Bool.false_eq_true, if_false] at hp
      have hm := List.mem_of_head? hp
      rw [List.mem_filter, List.mem_map] at hm
      obtain ⟨⟨e, he, rfl⟩, hf⟩ := hm
      have he' := (hxs e).1 he
      exact ⟨e, ⟨he', (find_file hc hr hn he').2.1 hf⟩, rfl⟩
    have hnone : ∀ xs : List Str, (∀ e, e ∈ xs ↔ e ∈ serialized) →
        (r.find xs cwd disk' name = none ↔ Absent disk' (leadsTo wd r.cachedir) name) :=
      fun xs hxs => (find_cases hc hr hn hxs).2
    cases ha : r.find exts cwd disk' name with
    | none => exact ((hnone exts' hx').2 ((hnone exts hx).1 ha)).symm
    | some p =>
      cases hb : r.find exts' cwd disk' name with
      | none => rw [(hnone exts hx).2 ((hnone exts' hx').1 hb)] at ha; cases ha
      | some p' =>
        obtain ⟨e, he, rfl⟩ := key exts hx p ha
        obtain ⟨e', he', rfl⟩ := key exts' hx' p' hb
        rw [h1 e e' he he']

/-! ## Creating the directory for member bags -/

theorem createDest_only {cwd : Str} {wd : Path} (hc : AbsPath cwd wd) {disk disk' : Tree} {r : Restorer}
    (h : r.createDest cwd disk = .ok disk') :
    OnlyDirsAdded disk disk' (fun q => q = leadsTo wd r.destdir ∨
      (startsWith r.destdir r.cachedir = true ∧ q <+: leadsTo wd r.cachedir)) := by
  unfold Restorer.createDest at h
  split at h
  · cases h
  · next d1 hd1 =>
    have h1 : ∀ q, dget d1 q = dget disk q ∨ (dget disk q = none ∧ dget d1 q = some .dir ∧ q = leadsTo wd r.destdir) := by
      intro q
      split at hd1
      · cases hd1; exact .inl rfl
      · unfold Tree.mkdir at hd1
        split at hd1
        · cases hd1
        · next hx =>
          cases hd1
          rw [comps_abspath hc] at hx ⊢
          rw [dget_dset]
          split
          · next e =>
            right
            subst e
            simp only [Bool.or_eq_true, not_or] at hx
            have hx := hx.1
            unfold Tree.exists at hx
            simp only [Bool.or_eq_true, not_or, Option.not_isSome] at hx
            exact ⟨by simpa using hx.2, rfl, rfl⟩
          · exact .inl rfl
    intro q
    split at h
    · next hl =>
      have hs : startsWith r.destdir r.cachedir = true := by
        unfold Restorer.lacksCache at hl
        simp only [Bool.and_eq_true] at hl
        exact hl.2
      rw [comps_abspath hc] at h
      rcases makedirsFrom_ok h q with h2 | ⟨h2, h3, h4⟩
      · rw [h2]
        rcases h1 q with h1 | ⟨a, b, c⟩
        · exact .inl h1
        · exact .inr ⟨a, b, .inl c⟩
      · rw [List.nil_append] at h2
        rcases h1 q with h1 | ⟨_, b, _⟩
        · exact .inr ⟨h1 ▸ h3, h4, .inr ⟨hs, h2⟩⟩
        · rw [b] at h3; cases h3
    · cases h
      rcases h1 q with h1 | ⟨a, b, c⟩
      · exact .inl h1
      · exact .inr ⟨a, b, .inl c⟩

/-! ## Getting -/

/-- C97, part: a bag that is in the directory for member bags is taken from there, and nothing is fetched;
one that is not is fetched, if bags can be fetched.  Before that only directories are created.
Missing: names with a slash (`C97_negation_outside`). -/
theorem C97_gets_partial {cwd : Str} {wd : Path} (hc : AbsPath cwd wd) {disk0 disk disk' : Tree}
    {isHead : Str → Except PyErr Bool} {head : HeadArg} {dest comp : Option Str} {fetcher : Option Fetcher} {r : Restorer}
    (h : Restorer.make cwd disk0 isHead head dest comp fetcher.isSome = .ok r) {exts : List Str}
    (hx : ∀ e, e ∈ exts ↔ e ∈ serialized) {name : Str} (hn : GoodName name) {o : Option Str}
    (hg : r.getMember exts fetcher cwd disk name = .ok (o, disk')) :
    (¬ Absent disk (leadsTo wd r.cachedir) name → disk' = disk ∧
      ∃ p, o = some p ∧ IsMember disk (leadsTo wd r.cachedir) name (leadsTo wd p)) ∧
    (Absent disk (leadsTo wd r.cachedir) name → fetcher = none → o = none ∧ disk' = disk) ∧
    (Absent disk (leadsTo wd r.cachedir) name → ∀ f, fetcher = some f →
      ∃ d1, OnlyDirsAdded disk d1 (fun q => q = leadsTo wd r.destdir ∨ q <+: leadsTo wd r.cachedir) ∧
        f name r.cachedir d1 = .ok (o, disk')) := by
  have hr := cachedir_ne_nil hc h
  obtain ⟨k1, k2⟩ := find_cases (disk := disk) hc hr hn hx
  unfold Restorer.getMember at hg
  refine ⟨fun ha => ?_, fun ha hf => ?_, fun ha f hf => ?_⟩
  · cases hfd : r.find exts cwd disk name with
    | none => exact absurd (k2.1 hfd) ha
    | some p =>
      obtain ⟨hne, hm⟩ := k1 p hfd
      rw [hfd, given_eq_some.2 ⟨rfl, hne⟩] at hg
      cases hg
      exact ⟨rfl, p, rfl, hm⟩
  · rw [k2.2 ha] at hg
    simp only [given, Restorer.fetch, hf, Except.ok.injEq, Prod.mk.injEq] at hg
    exact ⟨hg.1.symm, hg.2.symm⟩
  · rw [k2.2 ha] at hg
    simp only [given, Restorer.fetch, hf] at hg
    split at hg
    · cases hg
    · next d1 hd1 =>
      refine ⟨d1, ?_, hg⟩
      split at hd1
      · intro q
        rcases createDest_only hc hd1 q with h1 | ⟨h1, h2, h3⟩
        · exact .inl h1
        · exact .inr ⟨h1, h2, h3.imp id And.right⟩
      · cases hd1; exact fun q => .inl rfl

/-- C97, part: directories are only created for the destination and for the member bags, the latter if their
directory is inside the destination or in a directory next to it whose name starts like the
destination's.
Missing: the directories next to it (`C97_negation_cache`). -/
theorem C97_creates_partial {cwd : Str} {wd : Path} (hc : AbsPath cwd wd) {disk disk' : Tree} {r : Restorer}
    {D C : Path} (hD : AbsPath r.destdir D) (hC : AbsPath r.cachedir C) (hg : r.createDest cwd disk = .ok disk') :
    OnlyDirsAdded disk disk' (fun q => q = D ∨ ((Inside D C ∨ Lookalike D C) ∧ q <+: C)) := by
  have e1 : leadsTo wd r.destdir = D := by
    rw [hD.2]; exact leadsTo_slashes (k := 1) (by omega) hD.1.2 wd
  have e2 : leadsTo wd r.cachedir = C := by
    rw [hC.2]; exact leadsTo_slashes (k := 1) (by omega) hC.1.2 wd
  intro q
  rcases createDest_only hc hg q with h1 | ⟨h1, h2, h3⟩
  · exact .inl h1
  · rw [e1, e2] at h3
    refine .inr ⟨h1, h2, h3.imp id ?_⟩
    rintro ⟨h4, h5⟩
    have h4 := List.isPrefixOf_iff_prefix.1 h4
    rw [hD.2, hC.2, List.cons_prefix_cons] at h4
    exact ⟨(prefix_joinPath hD.1 hC.1.2).1 h4.2, h5⟩

/-! ## Restoring -/

theorem wf_below {t : Tree} (h : WfTree t) {d : Path} (hd : d ≠ []) (hdir : t.isdir d = true) : WfTree (t.below d) := by
  have hmem : ∀ p, p ∈ dkeys (t.below d) → p ≠ [] ∧ d ++ p ∈ dkeys t := by
    intro p hp
    have hne : p ≠ [] := by
      rintro rfl
      have := dget_below_root t d
      rw [dget_eq_none_iff] at this
      exact this hp
    obtain ⟨v, hv⟩ := mem_dkeys_iff.1 hp
    rw [dget_below hne] at hv
    exact ⟨hne, mem_dkeys_iff.2 ⟨v, hv⟩⟩
  refine ⟨?_, fun p hp => ?_, fun p hp => ?_⟩
  · have hn := h.nodup
    unfold Tree.below
    clear hdir hmem h
    induction t with
    | nil => simp [dkeys]
    | cons e t ih =>
      have hn2 : (e.1 :: dkeys t).Nodup := hn
      obtain ⟨hnot, hn⟩ := List.nodup_cons.1 hn2
      rw [List.filterMap_cons]
      split
      · exact ih hn
      · next x hx =>
        split at hx
        · next hc =>
          cases hx
          simp only [Bool.and_eq_true, List.isPrefixOf_iff_prefix, decide_eq_true_eq] at hc
          obtain ⟨s, hs⟩ := hc.1
          simp only [dkeys, List.map_cons, List.nodup_cons]
          refine ⟨?_, ih hn⟩
          intro hm
          obtain ⟨y, hy, e1⟩ := List.mem_map.1 hm
          obtain ⟨z, hz, e2⟩ := List.mem_filterMap.1 hy
          split at e2
          · next hc' =>
            cases e2
            simp only [Bool.and_eq_true, List.isPrefixOf_iff_prefix, decide_eq_true_eq] at hc'
            obtain ⟨s', hs'⟩ := hc'.1
            rw [← hs, ← hs', List.drop_left, List.drop_left] at e1
            refine hnot (List.mem_map.2 ⟨z, hz, ?_⟩)
            rw [← hs, ← hs']; exact congrArg _ e1
          · cases e2
        · cases hx
  · obtain ⟨hne, hm⟩ := hmem p hp
    exact ⟨hne, fun c hc => (h.good _ hm).2 c (by simp [hc])⟩
  · obtain ⟨hne, hm⟩ := hmem p hp
    by_cases he : p.dropLast = []
    · rw [he]; rfl
    · have := h.parent _ hm
      rw [List.dropLast_append_of_ne_nil hne] at this
      rw [isdir_iff] at this ⊢
      rcases this with this | this
      · exact absurd (List.append_eq_nil_iff.1 this).1 hd
      · exact .inr (by rw [dget_below he]; exact this)

/-- C97, part: restoring without a function to fetch bags, from member bags with ordinary names that are all
there as directories: each file of the result that is not rewritten has the contents it has in the last of
the bags, in the order of the member list, that has it in the directory for member bags.
Missing: archives, which `C97_restores` adds, and bags that are fetched, for which see `C111_same`. -/
theorem C97_restores_partial {cwd : Str} {wd : Path} (hc : AbsPath cwd wd) {disk : Tree} (hdisk : WfTree disk)
    {isHead : Str → Except PyErr Bool} {head : HeadArg} {dest comp : Option Str} {r : Restorer}
    (hr : Restorer.make cwd disk isHead head dest comp false = .ok r) {exts : List Str}
    (hx : ∀ e, e ∈ exts ↔ e ∈ serialized) {archives : Path → Option Tree}
    {E : RestoreEnv} (hE : EnvOk E) (hfind : E.find = r.source exts cwd disk archives) (hdest : E.base.bagpath = r.destdir)
    {H : RHead} (hH : WfTree H.tree) {ms : List MemberInfo} {names : List Str}
    (hms : iterMembers H.mode H.tree H.info = .ok ms) (hnames : ms.map (fun m => m.name) = names ++ [H.name])
    (hgood : ∀ n ∈ names, GoodName n ∧ HasUnpacked disk (leadsTo wd r.cachedir) n ∧
      leadsTo wd r.cachedir ++ [n] ≠ leadsTo wd r.destdir)
    (hclash : ∀ a ∈ names, ∀ b ∈ names, ∀ p,
      ¬ (disk.isfile (leadsTo wd r.cachedir ++ a :: p) = true ∧ disk.isdir (leadsTo wd r.cachedir ++ b :: p) = true) ∧
      ¬ (disk.isfile (leadsTo wd r.cachedir ++ a :: p) = true ∧ H.tree.isdir p = true) ∧
      ¬ (H.tree.isfile p = true ∧ disk.isdir (leadsTo wd r.cachedir ++ a :: p) = true))
    {us rm : Bool} {d out : Tree} (hs : StartsFrom E H d) (h : restore E H us rm d = .ok out)
    {deleted : List Str} (hd : iterDeleted H.mode H.tree H.info = .ok deleted)
    {p : Path} (hp : ¬ Special p) (hdel : ¬ Deleted deleted p) :
    out.read p = (H.tree.read p).or (lastWith disk (leadsTo wd r.cachedir) names p) := by
  have hcn := cachedir_ne_nil hc hr
  have hg := goodName_leadsTo hc.1.2 r.cachedir
  let srcs : List RSource := names.map (fun n =>
    ⟨abspath cwd (pathJoin r.cachedir n), disk.below (leadsTo wd r.cachedir ++ [n])⟩)
  have hne : ∀ n : Str, leadsTo wd r.cachedir ++ [n] ≠ [] := fun n => by simp
  have hcont : ∀ n ∈ names, ∀ q, disk.read (leadsTo wd r.cachedir ++ n :: q) = (disk.below (leadsTo wd r.cachedir ++ [n])).read q ∧
      disk.isdir (leadsTo wd r.cachedir ++ n :: q) = (disk.below (leadsTo wd r.cachedir ++ [n])).isdir q := by
    intro n hn q
    have := contains_below (hne n) (hgood n hn).2.1 q
    rw [List.append_assoc] at this
    exact this
  have hfile : ∀ n ∈ names, ∀ q, (disk.below (leadsTo wd r.cachedir ++ [n])).isfile q =
      disk.isfile (leadsTo wd r.cachedir ++ n :: q) := by
    intro n hn q
    have hiff : (disk.below (leadsTo wd r.cachedir ++ [n])).isfile q = true ↔
        disk.isfile (leadsTo wd r.cachedir ++ n :: q) = true := by
      have hr1 := (hcont n hn q).1
      have hfr : ∀ (t : Tree) x, t.isfile x = true ↔ ∃ c, t.read x = some c := by
        intro t x
        rw [isfile_iff, read_eq]
        constructor
        · rintro ⟨c, hcc⟩; exact ⟨c, by rw [hcc]⟩
        · rintro ⟨c, hcc⟩
          split at hcc
          · next e => exact ⟨_, e⟩
          · cases hcc
      rw [hfr, hfr, hr1]
    exact Bool.eq_iff_iff.2 hiff
  have hA : Aggregation E H srcs := by
    refine ⟨⟨ms, names, hms, .inl hnames, ?_⟩, hH, ?_, ?_⟩
    · have key : ∀ ns : List Str, (∀ n ∈ ns, n ∈ names) → Forall₂ (fun n s => E.find n = some s) ns
          (ns.map (fun n => ⟨abspath cwd (pathJoin r.cachedir n), disk.below (leadsTo wd r.cachedir ++ [n])⟩)) := by
        intro ns hsub
        induction ns with
        | nil => exact .nil
        | cons n ns ih =>
          refine .cons ?_ (ih (fun m hm => hsub m (by simp [hm])))
          obtain ⟨g1, g2, _⟩ := hgood n (hsub n (by simp))
          have hdir := (find_dir hc hcn g1).2 g2
          have e1 : r.find exts cwd disk n = some (pathJoin r.cachedir n) := by
            unfold Restorer.find; simp only [hdir, if_true]
          have e2 : comps (abspath cwd (pathJoin r.cachedir n)) = leadsTo wd r.cachedir ++ [n] := by
            rw [comps_abspath hc, leadsTo_join_name wd hcn g1]
          rw [hfind]
          unfold Restorer.source
          simp only [e1, e2]
          rw [if_pos (show disk.isdir _ = true from g2)]
      exact key names (fun n hn => hn)
    · intro s hsm
      obtain ⟨n, hn, rfl⟩ := List.mem_map.1 hsm
      exact wf_below hdisk (hne n) (hgood n hn).2.1
    · intro s hsm
      obtain ⟨n, hn, rfl⟩ := List.mem_map.1 hsm
      intro e
      have := congrArg (leadsTo wd) (e.trans hdest)
      rw [leadsTo_abspath hc, leadsTo_join_name wd hcn (hgood n hn).1] at this
      exact (hgood n hn).2.2 this
  have hcl : NoClash (memberTrees H srcs) := by
    intro t ht t' ht' q hq
    simp only [memberTrees, List.mem_append, List.mem_singleton, srcs, List.map_map, List.mem_map, Function.comp] at ht ht'
    rcases ht with ⟨a, ha, rfl⟩ | rfl
    · rw [hfile a ha] at hq
      rcases ht' with ⟨b, hb, rfl⟩ | rfl
      · rw [← (hcont b hb q).2] at hq
        exact (hclash a ha b hb q).1 hq
      · exact (hclash a ha a ha q).2.1 hq
    · rcases ht' with ⟨b, hb, rfl⟩ | rfl
      · rw [← (hcont b hb q).2] at hq
        exact (hclash b hb b hb q).2.2 hq
      · obtain ⟨c, hcc⟩ := isfile_iff.1 hq.1
        rcases isdir_iff.1 hq.2 with h0 | h0
        · subst h0
          exact (hH.good [] (mem_dkeys_iff.2 ⟨_, hcc⟩)).1 rfl
        · rw [hcc] at h0; cases h0
  have hov := C44_overlay hE hA hcl hs h hd hp hdel
  rw [hov]
  have hlast : ∀ ns : List Str, (∀ n ∈ ns, n ∈ names) →
      overlay (ns.map (fun n => disk.below (leadsTo wd r.cachedir ++ [n])) ++ [H.tree]) p =
        (H.tree.read p).or (lastWith disk (leadsTo wd r.cachedir) ns p) := by
    intro ns hsub
    induction ns with
    | nil => simp [overlay, lastWith]
    | cons n ns ih =>
      simp only [List.map_cons, List.cons_append, overlay, lastWith]
      rw [ih (fun m hm => hsub m (by simp [hm])), Option.or_assoc, (hcont n (hsub n (by simp)) p).1]
  have e : memberTrees H srcs = names.map (fun n => disk.below (leadsTo wd r.cachedir ++ [n])) ++ [H.tree] := by
    simp only [memberTrees, srcs, List.map_map, Function.comp_def]
  rw [e]
  exact hlast names (fun n hn => hn)

/-! ## A restorer on a disk -/

namespace Sample

/-- Two bags in `/store`, one more as two archives, and a directory elsewhere. -/
def storeDisk : Tree :=
  ([py!"store"], .dir) :: ([py!"store", py!"m1"], .dir) ::
    (m1.map (fun e => (py!"store" :: py!"m1" :: e.1, e.2)) ++
     ([py!"store", py!"hb"], .dir) :: hb.map (fun e => (py!"store" :: py!"hb" :: e.1, e.2)) ++
     [([py!"store", py!"m2.zip"], .file []), ([py!"store", py!"m2.tgz"], .file []), ([py!"store", py!"m3.tar"], .file []),
      ([py!"elsewhere"], .dir), ([py!"elsewhere", py!"m4"], .dir)])

/-- Restoring the head bag `hb` in the working directory `/store` to `../out`. -/
def storeRestorer : Restorer :=
  { headPath := py!"hb", inplace := false, destdir := py!"/out", cachedir := py!"/store" }

theorem store_made : Restorer.make py!"/store" storeDisk (fun _ => .ok true) (.location py!"hb")
    (some py!"../out") none false = .ok storeRestorer := by decide

theorem store_cwd : AbsPath py!"/store" [py!"store"] := by
  refine ⟨⟨by decide, ?_⟩, rfl⟩
  intro c hc
  rw [List.mem_singleton.1 hc]
  exact ⟨by decide, by decide, by decide, by decide⟩

theorem good_m1 : GoodName py!"m1" := ⟨by decide, by decide, by decide, by decide⟩

end Sample

/-- The directory for member bags is the head bag's, and it is not restored in place. -/
example : leadsTo [py!"store"] Sample.storeRestorer.cachedir = [py!"store"] ∧ Sample.storeRestorer.inplace = false :=
  ⟨by have := C97_setup Sample.store_cwd Sample.store_made
      rw [this.2.2.2.2.2.1 (.inl rfl) rfl]; decide, rfl⟩

/-- A destination below a directory that is not there is rejected. -/
example : Restorer.make py!"/store" Sample.storeDisk (fun _ => .ok true) (.location py!"hb")
    (some py!"/new/out") none false = .error .osError ∧
    Restorer.make py!"/store" Sample.storeDisk (fun _ => .ok true) (.location py!"nowhere")
    (some py!"/out") none false = .error .osError := by decide

/-- The bag `m1` is found as a directory, `m3` as an archive, `m5` not at all. -/
example : Sample.storeRestorer.find serialized py!"/store" Sample.storeDisk py!"m1" = some py!"/store/m1" ∧
    Sample.storeRestorer.find serialized py!"/store" Sample.storeDisk py!"m3" = some py!"/store/m3.tar" ∧
    Sample.storeRestorer.find serialized py!"/store" Sample.storeDisk py!"m5" = none ∧
    IsMember Sample.storeDisk [py!"store"] py!"m1" (leadsTo [py!"store"] py!"/store/m1") :=
  ⟨by decide, by decide, by decide,
    (C97_finds_partial Sample.store_cwd Sample.store_made (fun _ => Iff.rfl) Sample.good_m1).1 _ (by decide)⟩

/-- With a function that fetches, the directory for what it fetches is created. -/
example : ∃ r, Restorer.make py!"/store" Sample.storeDisk (fun _ => .ok true) (.location py!"hb")
      (some py!"../out") none true = .ok r ∧
    ∃ disk', r.getMember serialized (some (fun n c d => .ok (some (pathJoin c n), d))) py!"/store" Sample.storeDisk py!"m5" =
      .ok (some py!"/out/multibag/_membercache/m5", disk') ∧
    disk'.isdir [py!"out", py!"multibag", py!"_membercache"] = true := ⟨_, rfl, _, rfl, by decide⟩

/-- Nothing is fetched for a bag that is there. -/
example : Sample.storeRestorer.getMember serialized (some (fun _ _ _ => .error .runtimeError)) py!"/store"
    Sample.storeDisk py!"m3" = .ok (some py!"/store/m3.tar", Sample.storeDisk) := by decide

/-- C97 is false of names with a slash: the bag is taken from outside the directory for member bags. -/
theorem C97_negation_outside : ∃ (r : Restorer) (disk : Tree) (a b : Str),
    Restorer.make py!"/store" disk (fun _ => .ok true) (.location py!"hb") (some py!"../out") none false = .ok r ∧
    r.find serialized py!"/store" disk py!"../elsewhere/m4" = some a ∧
    ¬ Inside (leadsTo [py!"store"] r.cachedir) (leadsTo [py!"store"] a) ∧
    r.find serialized py!"/store" disk py!"/elsewhere/m4" = some b ∧
    ¬ Inside (leadsTo [py!"store"] r.cachedir) (leadsTo [py!"store"] b) :=
  ⟨_, Sample.storeDisk, py!"/store/../elsewhere/m4", py!"/elsewhere/m4", Sample.store_made,
    by decide, by decide, by decide, by decide⟩

/-- C97 is false if there are two archives of a bag: which one is taken depends on the order in which a set
of strings is traversed. -/
theorem C97_negation_two_archives : ∃ (r : Restorer) (disk : Tree) (exts exts' : List Str),
    Restorer.make py!"/store" disk (fun _ => .ok true) (.location py!"hb") (some py!"../out") none false = .ok r ∧
    (∀ e, e ∈ exts ↔ e ∈ serialized) ∧ (∀ e, e ∈ exts' ↔ e ∈ serialized) ∧
    r.find exts py!"/store" disk py!"m2" = some py!"/store/m2.zip" ∧
    r.find exts' py!"/store" disk py!"m2" = some py!"/store/m2.tgz" :=
  ⟨_, Sample.storeDisk, serialized, serialized.reverse, Sample.store_made, fun _ => Iff.rfl,
    fun _ => List.mem_reverse, by decide, by decide⟩

/-- C97 is false of a directory for member bags next to the destination whose name starts like it: it is
created, too. -/
theorem C97_negation_cache : ∃ (r : Restorer) (disk disk' : Tree),
    Restorer.make py!"/store" disk (fun _ => .ok true) (.location py!"hb") (some py!"../out") (some py!"/output") true = .ok r ∧
    r.createDest py!"/store" disk = .ok disk' ∧ disk.exists [py!"output"] = false ∧ disk'.isdir [py!"output"] = true ∧
    ¬ Inside (leadsTo [py!"store"] r.destdir) [py!"output"] :=
  ⟨_, Sample.storeDisk, _, rfl, rfl, by decide, by decide, by decide⟩

namespace Sample

/-- The environment of the sample restore, with members found on that disk. -/
def diskEnv : RestoreEnv :=
  { renv with find := storeRestorer.source serialized py!"/store" storeDisk (fun _ => none) }

theorem diskEnv_ok : EnvOk diskEnv := ⟨fun _ h => isWalk_walkOf h, by decide⟩

end Sample

/-- The hypotheses of `C97_restores_partial` are met, and `data/b` is taken from `/store/m1`. -/
example : restore Sample.diskEnv Sample.head true true [] = .ok Sample.restored ∧
    Sample.restored.read [py!"data", py!"b"] = Sample.storeDisk.read [py!"store", py!"m1", py!"data", py!"b"] := by
  have hrun : restore Sample.diskEnv Sample.head true true [] = .ok Sample.restored := by rfl
  refine ⟨hrun, ?_⟩
  have := C97_restores_partial Sample.store_cwd (Sample.wf_of_check (by decide +kernel)) Sample.store_made (exts := serialized)
    (fun _ => Iff.rfl) (archives := fun _ => none) Sample.diskEnv_ok rfl rfl (Sample.wf_of_check (t := Sample.head.tree) (by decide +kernel))
    (ms := [⟨py!"m1", none, none, []⟩, ⟨py!"hb", none, none, []⟩]) (names := [py!"m1"]) rfl rfl
    (by
      intro n hn
      rw [List.mem_singleton.1 hn]
      exact ⟨Sample.good_m1, show Sample.storeDisk.isdir _ = true by decide, by decide⟩)
    (by
      intro a ha b hb p
      rw [List.mem_singleton.1 ha, List.mem_singleton.1 hb]
      have hch : ∀ e ∈ Sample.storeDisk, e.2 ≠ .dir → Sample.hb.isdir (e.1.drop 2) = false ∨ e.1.take 2 ≠ [py!"store", py!"m1"] := by
        decide +kernel
      have hch2 : ∀ e ∈ Sample.hb, e.2 ≠ .dir → Sample.storeDisk.isdir (py!"store" :: py!"m1" :: e.1) = false := by
        decide +kernel
      have e1 : leadsTo [py!"store"] Sample.storeRestorer.cachedir = [py!"store"] := by decide
      rw [e1]
      refine ⟨?_, ?_, ?_⟩
      · rintro ⟨h1, h2⟩
        obtain ⟨c, h1⟩ := isfile_iff.1 h1
        rcases isdir_iff.1 h2 with h2 | h2
        · simp at h2
        · rw [h1] at h2; cases h2
      · rintro ⟨h1, h2⟩
        obtain ⟨c, h1⟩ := isfile_iff.1 h1
        have := hch _ (mem_of_dget h1) (by simp)
        simp at this
        exact absurd h2 (by rw [show Sample.head.tree = Sample.hb from rfl, this]; decide)
      · rintro ⟨h1, h2⟩
        obtain ⟨c, h1⟩ := isfile_iff.1 h1
        have := hch2 _ (mem_of_dget h1) (by simp)
        rw [show [py!"store"] ++ py!"m1" :: p = py!"store" :: py!"m1" :: p from rfl, this] at h2
        cases h2)
    (.inl ⟨by decide, rfl⟩) hrun (deleted := [py!"data/x"]) rfl (p := [py!"data", py!"b"])
    (by rintro (h | h | h | ⟨a, h | h⟩ | ⟨r, h⟩) <;> simp at h)
    (by
      rintro ⟨q, hq, ⟨s, hpre⟩, hm⟩
      match q, hq, hpre, hm with
      | [a], _, e, hm =>
        cases e
        exact absurd hm (by decide)
      | [a, b], _, e, hm =>
        cases e
        exact absurd hm (by decide)
      | a :: b :: c :: q, _, e, _ => simp at e)
  rw [this]
  decide

end Verif
