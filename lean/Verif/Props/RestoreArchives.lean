import Verif.Props.Restorer
import Verif.Spec.RestoreArchives
/-!
# C97: restoring from directories and archives

What a member bag holds does not depend on whether it is there as a directory or as an archive.
-/

namespace Verif
open Spec

/-- What the restorer restores a member bag from. -/
theorem source_of {cwd : Str} {wd : Path} (hc : AbsPath cwd wd) {disk : Tree} {r : Restorer} (hr : r.cachedir ≠ [])
    {exts : List Str} (hx : ∀ e, e ∈ exts ↔ e ∈ serialized) {archives : Path → Option Tree} {n : Str} (hn : GoodName n)
    {t : Tree} (ht : MemberHas disk archives (leadsTo wd r.cachedir) n t) :
    ∃ p, r.source exts cwd disk archives n = some ⟨abspath cwd p, t⟩ ∧
      IsMember disk (leadsTo wd r.cachedir) n (leadsTo wd p) := by
  obtain ⟨k1, k2⟩ := find_cases (disk := disk) hc hr hn hx
  cases hf : r.find exts cwd disk n with
  | none =>
    have ha := k2.1 hf
    rcases ht with ⟨h1, _⟩ | ⟨_, ⟨e, he⟩, _⟩
    · exact absurd h1 ha.1
    · exact absurd he (ha.2 e)
  | some p =>
    have hm := (k1 p hf).2
    refine ⟨p, ?_, hm⟩
    unfold Restorer.source
    simp only [hf]
    rw [comps_abspath hc]
    rcases ht with ⟨h1, rfl⟩ | ⟨h1, _, h2⟩
    · rcases hm with ⟨_, e⟩ | ⟨h, _⟩
      · rw [e, if_pos (show disk.isdir _ = true from h1)]
      · exact absurd h1 h
    · rcases hm with ⟨h, _⟩ | ⟨_, e, he, hq⟩
      · exact absurd h h1
      · have hnd : ¬ disk.isdir (leadsTo wd r.cachedir ++ [n ++ e]) = true := by
          intro hd
          obtain ⟨c, h3⟩ := isfile_iff.1 he.2
          rcases isdir_iff.1 hd with h4 | h4
          · simp at h4
          · rw [h3] at h4; cases h4
        rw [hq, if_neg hnd, h2 e he]
        rfl

theorem sources_of {cwd : Str} {wd : Path} (hc : AbsPath cwd wd) {disk : Tree} {r : Restorer} (hr : r.cachedir ≠ [])
    {exts : List Str} (hx : ∀ e, e ∈ exts ↔ e ∈ serialized) {archives : Path → Option Tree} {find : Str → Option RSource}
    (hfind : find = r.source exts cwd disk archives)
    {names : List Str} {trees : List Tree} (hgood : ∀ n ∈ names, GoodName n)
    (ht : Forall₂ (MemberHas disk archives (leadsTo wd r.cachedir)) names trees) :
    ∃ srcs : List RSource, Forall₂ (fun n s => find n = some s) names srcs ∧ srcs.map (fun s => s.tree) = trees ∧
      ∀ s ∈ srcs, ∃ n ∈ names, ∃ p, s.path = abspath cwd p ∧ IsMember disk (leadsTo wd r.cachedir) n (leadsTo wd p) := by
  induction ht with
  | nil => exact ⟨[], .nil, rfl, by simp⟩
  | @cons n t ns ts h1 _ ih =>
    obtain ⟨p, e, hm⟩ := source_of hc hr hx (hgood n (by simp)) h1
    obtain ⟨srcs, f1, f2, f3⟩ := ih (fun m hm => hgood m (by simp [hm]))
    refine ⟨⟨abspath cwd p, t⟩ :: srcs, .cons (by rw [hfind]; exact e) f1, by simp [f2], ?_⟩
    intro s hs
    rcases List.mem_cons.1 hs with rfl | hs
    · exact ⟨n, by simp, p, rfl, hm⟩
    · obtain ⟨m, hm, q⟩ := f3 s hs
      exact ⟨m, by simp [hm], q⟩

/-- C97: restoring without a function to fetch bags, from member bags with ordinary names, each of which is
there as a directory or as an archive: each file of the result that is not rewritten and not deleted has the
contents it has in the last of the bags, in the order of the member list, that has it.  It makes no
difference which of them are directories and which archives, and in which order the extensions are tried.
(Fetched bags: `C111_same`.) -/
theorem C97_restores {cwd : Str} {wd : Path} (hc : AbsPath cwd wd) {disk : Tree}
    {isHead : Str → Except PyErr Bool} {head : HeadArg} {dest comp : Option Str} {r : Restorer}
    (hr : Restorer.make cwd disk isHead head dest comp false = .ok r) {exts : List Str}
    (hx : ∀ e, e ∈ exts ↔ e ∈ serialized) {archives : Path → Option Tree}
    {E : RestoreEnv} (hE : EnvOk E) (hfind : E.find = r.source exts cwd disk archives) (hdest : E.base.bagpath = r.destdir)
    {H : RHead} (hH : WfTree H.tree) {ms : List MemberInfo} {names : List Str} {trees : List Tree}
    (hms : iterMembers H.mode H.tree H.info = .ok ms) (hnames : ms.map (fun m => m.name) = names ++ [H.name])
    (hgood : ∀ n ∈ names, GoodName n ∧ ∀ q, IsMember disk (leadsTo wd r.cachedir) n q → q ≠ leadsTo wd r.destdir)
    (ht : Forall₂ (MemberHas disk archives (leadsTo wd r.cachedir)) names trees) (hwf : ∀ t ∈ trees, WfTree t)
    (hclash : NoClash (trees ++ [H.tree]))
    {us rm : Bool} {d out : Tree} (hs : StartsFrom E H d) (h : restore E H us rm d = .ok out)
    {deleted : List Str} (hd : iterDeleted H.mode H.tree H.info = .ok deleted)
    {p : Path} (hp : ¬ Special p) (hdel : ¬ Deleted deleted p) :
    out.read p = overlay (trees ++ [H.tree]) p := by
  obtain ⟨srcs, f1, f2, f3⟩ := sources_of hc (cachedir_ne_nil hc hr) hx hfind (fun n hn => (hgood n hn).1) ht
  have e : memberTrees H srcs = trees ++ [H.tree] := by rw [memberTrees, f2]
  have hA : Aggregation E H srcs := by
    refine ⟨⟨ms, names, hms, .inl hnames, f1⟩, hH, ?_, ?_⟩
    · intro s hs
      exact hwf _ (f2 ▸ List.mem_map.2 ⟨s, hs, rfl⟩)
    · intro s hs e
      obtain ⟨n, hn, q, e1, hm⟩ := f3 s hs
      have := congrArg (leadsTo wd) ((e1.symm.trans e).trans hdest)
      rw [leadsTo_abspath hc] at this
      exact (hgood n hn).2 _ hm this
  rw [← e]
  exact C44_overlay hE hA (by rw [e]; exact hclash) hs h hd hp hdel

namespace Sample

/-- The head bag in `/store`, and the member `m1` as two archives. -/
def packedDisk : Tree :=
  ([py!"store"], .dir) :: ([py!"store", py!"hb"], .dir) :: hb.map (fun e => (py!"store" :: py!"hb" :: e.1, e.2)) ++
    [([py!"store", py!"m1.tgz"], .file py!"x"), ([py!"store", py!"m1.zip"], .file py!"y")]

/-- What is in the archives. -/
def packed (q : Path) : Option Tree :=
  if q = [py!"store", py!"m1.tgz"] ∨ q = [py!"store", py!"m1.zip"] then some m1 else none

theorem packed_made : Restorer.make py!"/store" packedDisk (fun _ => .ok true) (.location py!"hb")
    (some py!"../out") none false = .ok storeRestorer := by decide

/-- The environment of the sample restore, with members found on that disk. -/
def packedEnv : RestoreEnv :=
  { renv with find := storeRestorer.source serialized py!"/store" packedDisk packed }

theorem packedEnv_ok : EnvOk packedEnv := ⟨fun _ h => isWalk_walkOf h, by decide⟩

theorem packed_has : MemberHas packedDisk packed (leadsTo [py!"store"] storeRestorer.cachedir) py!"m1" m1 := by
  have e1 : leadsTo [py!"store"] storeRestorer.cachedir = [py!"store"] := by decide
  rw [e1]
  refine .inr ⟨show ¬ packedDisk.isdir _ = true by decide, ⟨py!".tgz", by decide, by decide⟩, ?_⟩
  rintro e ⟨he, hf⟩
  have : ∀ e ∈ serialized, packedDisk.isfile ([py!"store"] ++ [py!"m1" ++ e]) = true →
      packed ([py!"store"] ++ [py!"m1" ++ e]) = some m1 := by decide
  exact this e he hf

end Sample

/-- The hypotheses of `C97_restores` are met, and `data/b` is taken from the archive of `m1`. -/
example : restore Sample.packedEnv Sample.head true true [] = .ok Sample.restored ∧
    Sample.restored.read [py!"data", py!"b"] = Sample.m1.read [py!"data", py!"b"] := by
  have hrun : restore Sample.packedEnv Sample.head true true [] = .ok Sample.restored := by rfl
  refine ⟨hrun, ?_⟩
  have := C97_restores Sample.store_cwd Sample.packed_made (exts := serialized)
    (fun _ => Iff.rfl) (archives := Sample.packed) Sample.packedEnv_ok rfl rfl
    (Sample.wf_of_check (t := Sample.head.tree) (by decide +kernel))
    (ms := [⟨py!"m1", none, none, []⟩, ⟨py!"hb", none, none, []⟩]) (names := [py!"m1"]) (trees := [Sample.m1]) rfl rfl
    (by
      intro n hn
      rw [List.mem_singleton.1 hn]
      refine ⟨Sample.good_m1, ?_⟩
      have e1 : leadsTo [py!"store"] Sample.storeRestorer.cachedir = [py!"store"] := by decide
      have e2 : leadsTo [py!"store"] Sample.storeRestorer.destdir = [py!"out"] := by decide
      rw [e1, e2]
      rintro q (⟨_, rfl⟩ | ⟨_, e, _, rfl⟩) <;> simp)
    (.cons Sample.packed_has .nil) (by intro t ht; rw [List.mem_singleton.1 ht]; exact Sample.wf_of_check (by decide +kernel))
    Sample.clash_sample
    (.inl ⟨by decide, rfl⟩) hrun (deleted := [py!"data/x"]) rfl (p := [py!"data", py!"b"])
    (by rintro (h | h | h | ⟨a, h | h⟩ | ⟨r, h⟩) <;> simp at h)
    (by
      rintro ⟨q, hq, ⟨s, hpre⟩, hm⟩
      match q, hq, hpre, hm with
      | [a], _, e, hm =>
        cases e
        exact absurd hm (by decide)
      | [a, b], _, e, hm =>
        cases e
        exact absurd hm (by decide)
      | a :: b :: c :: q, _, e, _ => simp at e)
  rw [this]
  decide

end Verif
