import Verif.Lemmas.RestoreSums
import Verif.Props.Restore
/-!
# Checksums of a restored bag: C47
-/

namespace Verif

open Spec

theorem manifest_not_special {a : Str} : manPath py!"manifest" a ≠ [py!"fetch.txt"] ∧ manPath py!"manifest" a ≠ [py!"bag-info.txt"] := by
  unfold manPath
  constructor <;> (intro h; simp at h)

/-- C47 for member bags that use the same checksum algorithms and list all their payload files:
for each payload path that is not deleted, the restored bag's manifests record what those of the
last member bag with this file do, and nothing else.  Missing: differing algorithms, and files that
are listed but not there (`C47_negation`, `C47_fetch_negation`). -/
theorem C47_checksums_partial {E : RestoreEnv} (hE : EnvOk E)
    (hutf : ∀ e, E.base.knownEncoding e = true → startsWith py!"UTF" e = true)
    {H : RHead} {srcs : List RSource} (hA : Aggregation E H srcs) (hc : NoClash (memberTrees H srcs))
    {A : Str → Prop} (hsum : ∀ t ∈ memberTrees H srcs, Sums E.base.algs A t)
    {us rm : Bool} {d out : Tree} (hs : StartsFrom E H d) (h : restore E H us rm d = .ok out)
    {deleted : List Str} (hd : iterDeleted H.mode H.tree H.info = .ok deleted)
    {p : Path} (hpay : isPayload (joinPath p) = true) (hx : ¬ Deleted deleted p)
    {pre post : List Tree} {t : Tree} (hsp : memberTrees H srcs = pre ++ t :: post) (ht : t.isfile p = true)
    (hlast : ∀ t' ∈ post, t'.isfile p = false) :
    ∀ a ∈ E.base.algs, ∀ v, Recorded py!"manifest" out a (joinPath p) v ↔ Recorded py!"manifest" t a (joinPath p) v := by
  intro a haa v
  have hwall : ∀ t ∈ memberTrees H srcs, WfTree t := by
    intro t ht
    rcases List.mem_append.1 ht with ht | ht
    · obtain ⟨s, hs, rfl⟩ := List.mem_map.1 ht
      exact hA.wf s hs
    · rw [List.mem_singleton] at ht; subst ht; exact hA.head
  have htm : t ∈ memberTrees H srcs := by rw [hsp]; simp
  have hg : GoodPath p := file_ne_nil (hwall t htm) ht
  obtain ⟨ms, h1, h2⟩ := aggregation_parts hA
  obtain ⟨deleted', ms', d1, d2, d3, e1, e2, e3, e4, e5, e6⟩ := restore_parts h
  rw [h1] at e2
  cases e2
  rw [hd] at e1
  cases e1
  obtain ⟨d0, i1, i2, hl, i3⟩ := restore_list h2 e3 e4
  have hnil : [] ∉ pySet deleted := by
    rw [mem_pySet]; exact nil_notMem_deleted hd
  have hx' : ¬ Deleted (pySet deleted) p := by rw [deleted_pySet]; exact hx
  -- the end changes no payload manifest
  have hend : Recorded py!"manifest" out a (joinPath p) v ↔ Recorded py!"manifest" d2 a (joinPath p) v := by
    refine recorded_of_read (read_of_dget ?_)
    rw [(finishRestore_spec e6).2.2.2.2.1, (fetchStep_frame e5).1 _ manifest_not_special.1]
  rw [hend]
  have hrest : ∀ s ∈ srcs.reverse, (WfTree s.tree ∧ s.path ≠ E.base.bagpath) ∧ Sums E.base.algs A s.tree := by
    intro s hs
    rw [List.mem_reverse] at hs
    exact ⟨⟨hA.wf s hs, hA.outside s hs⟩, hsum _ (by
      unfold memberTrees
      exact List.mem_append_left _ (List.mem_map.2 ⟨s, hs, rfl⟩))⟩
  -- bags after this one have nothing at this path
  have hpost : ∀ t' ∈ post, dget t' p = none := by
    intro t' ht'
    have hm : t' ∈ memberTrees H srcs := by rw [hsp]; simp [ht']
    cases hn : dget t' p with
    | none => rfl
    | some n =>
      cases n with
      | file c =>
        have := hlast t' ht'
        rw [isfile_iff.2 ⟨c, hn⟩] at this; cases this
      | dir => exact absurd ⟨ht, isdir_iff.2 (.inr hn)⟩ (hc t htm t' hm p)
  have hrev : (⟨H.path, H.tree⟩ :: srcs.reverse : List RSource).map (fun s => s.tree) = post.reverse ++ t :: pre.reverse := by
    have := congrArg List.reverse hsp
    unfold memberTrees at this
    simpa [List.reverse_append] using this
  rcases hs with ⟨ho, rfl⟩ | ⟨ho, rfl⟩
  · have hl' : restoreList E (pySet deleted) (⟨H.path, H.tree⟩ :: srcs.reverse) d0 = .ok d2 := by
      unfold sourcesOf at hl
      rw [if_neg ho] at hl; exact hl
    have hempty : ∀ q, q ≠ [py!"bag-info.txt"] → dget d0 q = none := fun q hq => i1 q hq
    have hs0 : Sums E.base.algs A d0 := by
      have hno : ∀ kind, (kind = py!"manifest" ∨ kind = py!"tagmanifest") → ∀ a p h, ¬ Recorded kind d0 a p h := by
        intro kind hk a p h hr
        refine isfile_of_recorded hr (hempty _ ?_)
        rcases hk with rfl | rfl <;> (unfold manPath; intro h; simp at h)
      refine ⟨⟨fun a _ p h hr => absurd hr (hno _ (.inl rfl) a p h), fun a _ p h hr => absurd hr (hno _ (.inr rfl) a p h)⟩,
        fun a _ _ p v => hno _ (.inl rfl) a p v, ?_⟩
      intro q hq hqp hf
      obtain ⟨c, hcq⟩ := isfile_iff.1 hf
      rw [hempty q (by
        have := payload_long hq hqp
        rintro rfl; simp at this)] at hcq
      cases hcq
    have hall : ∀ s ∈ (⟨H.path, H.tree⟩ :: srcs.reverse : List RSource), (WfTree s.tree ∧ s.path ≠ E.base.bagpath) ∧ Sums E.base.algs A s.tree := by
      intro s hs
      rcases List.mem_cons.1 hs with rfl | hs
      · exact ⟨⟨hA.head, ho⟩, hsum _ (by simp [memberTrees])⟩
      · exact hrest s hs
    obtain ⟨L1, L2, hL, hL1, hL2⟩ := List.map_eq_append_iff.1 hrev
    obtain ⟨s, L3, rfl, rfl, hL3⟩ := List.map_eq_cons_iff.1 hL2
    refine (restoreList_sums hE hutf hnil hall hs0 hl' p hg hpay a haa v).2 ?_ hx' L1 s L3 hL ?_ ht
    · refine hempty p ?_
      have := payload_long hg hpay
      rintro rfl; simp at this
    · intro x hxm
      refine hpost x.tree ?_
      rw [← List.mem_reverse, ← hL1]
      exact List.mem_map.2 ⟨x, hxm, rfl⟩
  · have hl' : restoreList E (pySet deleted) srcs.reverse d0 = .ok d2 := by
      unfold sourcesOf at hl
      rw [if_pos ho] at hl; exact hl
    have hman : ∀ kind a p h, (kind = py!"manifest" ∨ kind = py!"tagmanifest") →
        (Recorded kind d0 a p h ↔ Recorded kind H.tree a p h) := by
      intro kind a p h hk
      refine recorded_of_read (read_of_dget (i1 _ ?_))
      rcases hk with rfl | rfl <;> (unfold manPath; intro h; simp at h)
    have hH := hsum H.tree (by simp [memberTrees])
    have hfile : ∀ q, GoodPath q → isPayload (joinPath q) = true → dget d0 q = dget H.tree q := by
      intro q hq hqp
      refine i1 q ?_
      have := payload_long hq hqp
      rintro rfl; simp at this
    have hs0 : Sums E.base.algs A d0 := by
      refine ⟨⟨fun a ha p h hr => hH.orderly.payload a ha p h ((hman _ _ _ _ (.inl rfl)).1 hr),
        fun a ha p h hr => hH.orderly.tag a ha p h ((hman _ _ _ _ (.inr rfl)).1 hr)⟩,
        fun a ha hna p v hr => hH.only a ha hna p v ((hman _ _ _ _ (.inl rfl)).1 hr), ?_⟩
      intro q hq hqp hf a ha hAa
      rw [isfile_of_dget (hfile q hq hqp)] at hf
      obtain ⟨v, hv⟩ := hH.listed q hq hqp hf a ha hAa
      exact ⟨v, (hman _ _ _ _ (.inl rfl)).2 hv⟩
    have key := restoreList_sums hE hutf hnil hrest hs0 hl' p hg hpay a haa v
    cases hpr : post.reverse with
    | nil =>
      rw [hpr] at hrev
      simp only [List.map_cons, List.nil_append, List.cons.injEq] at hrev
      obtain ⟨rfl, _⟩ := hrev
      rw [key.1 (by rw [isfile_of_dget (hfile p hg hpay)]; exact ht), hman _ _ _ _ (.inl rfl)]
    | cons t0 post0 =>
      rw [hpr] at hrev
      simp only [List.map_cons, List.cons_append, List.cons.injEq] at hrev
      obtain ⟨rfl, hrev⟩ := hrev
      obtain ⟨L1, L2, hL, hL1, hL2⟩ := List.map_eq_append_iff.1 hrev
      obtain ⟨s, L3, rfl, rfl, hL3⟩ := List.map_eq_cons_iff.1 hL2
      refine key.2 ?_ hx' L1 s L3 hL ?_ ht
      · rw [hfile p hg hpay]
        refine hpost H.tree ?_
        rw [← List.mem_reverse, hpr]; exact List.mem_cons_self
      · intro x hxm
        refine hpost x.tree ?_
        rw [← List.mem_reverse, hpr, ← hL1]
        exact List.mem_cons_of_mem _ (List.mem_map.2 ⟨x, hxm, rfl⟩)

/-! ### A case that meets the hypotheses -/

namespace Sample

theorem renv_utf : ∀ e, renv.base.knownEncoding e = true → startsWith py!"UTF" e = true := by
  intro e he
  have : e = py!"UTF-8" := by simpa [renv, readCfg] using he
  subst this
  rfl

theorem kept_a : ¬ Deleted [py!"data/x"] [py!"data", py!"a"] := by
  rintro ⟨q, h1, h2, h3⟩
  rw [List.prefix_iff_eq_take] at h2
  rcases hq : q.length with _ | _ | n
  · exact h1 (List.length_eq_zero_iff.1 hq)
  · rw [hq] at h2
    subst h2
    revert h3; decide
  · rw [hq, List.take_of_length_le (by simp)] at h2
    subst h2
    revert h3; decide

/-- A line of a sample manifest. -/
theorem plain_line_of_check {h p : Str} {q : Path}
    (hc : (h ≠ [] ∧ (∀ c ∈ h, isSpace c = false) ∧ h.head? ≠ some '#' ∧ h.head? ≠ some bom ∧
      q ≠ [] ∧ (∀ n ∈ q, n ≠ [] ∧ '/' ∉ n ∧ n ≠ py!"." ∧ n ≠ py!"..") ∧ p = joinWith ['/'] q ∧
      (∀ c ∈ p, isSpace c = false) ∧ (∀ c ∈ p, isNl c = false) ∧ p.head? ≠ some '*' ∧ '%' ∉ p)) : PlainLine h p := by
  obtain ⟨h1, h2, h3, h4, h5, h6, h7, h8, h9, h10, h11⟩ := hc
  refine ⟨⟨h1, h2⟩, h3, h4, ⟨⟨q, ⟨h5, fun n hn => ?_⟩, h7⟩, ?_, h9, h10, h11⟩⟩
  · obtain ⟨k1, k2, k3, k4⟩ := h6 n hn
    exact ⟨k1, k2, k3, k4⟩
  · exact ⟨fun c hc => h8 c (List.mem_of_mem_head? hc), fun c hc => h8 c (List.mem_of_getLast? hc)⟩

def m1Lines : List (Str × Str) := [(py!"data/a", py!"d3"), (py!"data/b", py!"d2"), (py!"data/x/d", py!"d4")]
def hbLines : List (Str × Str) := [(py!"data/a", py!"d4")]

/-- A bag with one payload manifest and no tag manifest. -/
theorem sums_of_lines {t : Tree} {es : List (Str × Str)}
    (h1 : t.read (manPath py!"manifest" py!"md5") = some (es.map (fun ph => hashLine ph.2 ph.1)).flatten)
    (h2 : t.read (manPath py!"manifest" py!"sha256") = none)
    (h3 : ∀ a ∈ renv.base.algs, t.read (manPath py!"tagmanifest" a) = none)
    (h4 : ∀ e ∈ es, isPayload e.1 = true ∧ PlainLine e.2 e.1)
    (h5 : ∀ e ∈ t, isPayload (joinPath e.1) = true → e.2 ≠ .dir → ∃ x ∈ es, x.1 = joinPath e.1)
    (ha : ∀ a ∈ renv.base.algs, a = py!"md5" ∨ a = py!"sha256") :
    Sums renv.base.algs (· = py!"md5") t := by
  have hno : ∀ kind a, t.read (manPath kind a) = none → ∀ p h, ¬ Recorded kind t a p h := by
    rintro kind a e p h ⟨text, line, hr, -⟩
    unfold manPath at e
    rw [e] at hr; cases hr
  have hmd := fun p h => recorded_written (p := p) (h := h) h1 (fun e he => (h4 e he).2)
  refine ⟨⟨?_, ?_⟩, ?_, ?_⟩
  · intro a haa p h hr
    rcases ha a haa with rfl | rfl
    · exact h4 _ ((hmd p h).1 hr)
    · exact absurd hr (hno _ _ h2 p h)
  · intro a haa p h hr
    exact absurd hr (hno _ _ (h3 a haa) p h)
  · intro a haa hna p v hr
    rcases ha a haa with rfl | rfl
    · exact hna rfl
    · exact hno _ _ h2 p v hr
  · rintro p hg hpay hf a haa rfl
    obtain ⟨c, hc⟩ := isfile_iff.1 hf
    obtain ⟨⟨k, v⟩, hx, rfl⟩ := h5 _ (mem_of_dget hc) hpay (by simp)
    exact ⟨v, (hmd _ v).2 hx⟩

theorem sums_sample : ∀ t ∈ memberTrees head [⟨py!"/store/m1", m1⟩], Sums renv.base.algs (· = py!"md5") t := by
  intro t ht
  have : t = m1 ∨ t = hb := by simpa [memberTrees, head] using ht
  rcases this with rfl | rfl
  · refine sums_of_lines (es := m1Lines) rfl rfl (by decide) ?_ (by decide) (by decide)
    intro e he
    have : e = (py!"data/a", py!"d3") ∨ e = (py!"data/b", py!"d2") ∨ e = (py!"data/x/d", py!"d4") := by
      simpa [m1Lines] using he
    rcases this with rfl | rfl | rfl
    · exact ⟨rfl, plain_line_of_check (q := [py!"data", py!"a"]) (by decide)⟩
    · exact ⟨rfl, plain_line_of_check (q := [py!"data", py!"b"]) (by decide)⟩
    · exact ⟨rfl, plain_line_of_check (q := [py!"data", py!"x", py!"d"]) (by decide)⟩
  · refine sums_of_lines (es := hbLines) rfl rfl (by decide) ?_ (by decide) (by decide)
    intro e he
    have : e = (py!"data/a", py!"d4") := by simpa [hbLines] using he
    subst this
    exact ⟨rfl, plain_line_of_check (q := [py!"data", py!"a"]) (by decide)⟩

end Sample

/-- The newer version's checksum is in the restored manifest, and the older one is not. -/
example : Recorded py!"manifest" Sample.restored py!"md5" py!"data/a" py!"d4" ∧
    ¬ Recorded py!"manifest" Sample.restored py!"md5" py!"data/a" py!"d3" := by
  have key := C47_checksums_partial Sample.renv_ok Sample.renv_utf Sample.aggregation Sample.clash_sample Sample.sums_sample
    (.inl ⟨by decide, rfl⟩) Sample.restore_sample (deleted := [py!"data/x"]) rfl (p := [py!"data", py!"a"]) rfl
    Sample.kept_a (pre := [Sample.m1]) (t := Sample.hb) (post := []) rfl rfl (by simp) py!"md5" (by decide)
  have hmd := fun v => recorded_written (t := Sample.hb) (kind := py!"manifest") (a := py!"md5") (es := Sample.hbLines)
    (p := py!"data/a") (h := v) rfl (fun e he => by
      have : e = (py!"data/a", py!"d4") := by simpa [Sample.hbLines] using he
      subst this
      exact Sample.plain_line_of_check (q := [py!"data", py!"a"]) (by decide))
  exact ⟨(key _).2 ((hmd _).2 (by decide)), fun h => absurd ((hmd _).1 ((key _).1 h)) (by decide)⟩

/-! ### Where the property fails -/

namespace Sample

/-- A member bag with two kinds of checksums. -/
def mTwo : Tree :=
  [([py!"bagit.txt"], .file bagitText), ([py!"data"], .dir), ([py!"data", py!"b"], .file py!"bb"),
   ([py!"manifest-md5.txt"], .file py!"d2 data/b\n"), ([py!"manifest-sha256.txt"], .file py!"e2 data/b\n")]

/-- A member bag with a file that is yet to be fetched. -/
def mFetch : Tree :=
  [([py!"bagit.txt"], .file bagitText), ([py!"data"], .dir), ([py!"data", py!"b"], .file py!"bb"),
   ([py!"manifest-md5.txt"], .file py!"d2 data/b\nd9 data/far\n"), ([py!"fetch.txt"], .file py!"http://e.x/far 9 data/far\n")]

def envWith (t : Tree) : RestoreEnv := { renv with find := fun n => if n = py!"m1" then some ⟨py!"/store/m1", t⟩ else none }

theorem envWith_ok (t : Tree) : EnvOk (envWith t) := ⟨fun _ h => isWalk_walkOf h, renv_ok.2⟩

theorem aggregation_with {t : Tree} (h : WfTree t) : Aggregation (envWith t) head [⟨py!"/store/m1", t⟩] where
  members := ⟨_, [py!"m1"], rfl, .inl rfl, .cons rfl .nil⟩
  head := wf_hb
  wf := by
    intro s hs
    rw [List.mem_singleton] at hs
    subst hs
    exact h
  outside := by
    intro s hs
    rw [List.mem_singleton] at hs
    subst hs
    show py!"/store/m1" ≠ py!"/out"
    decide

end Sample

/-- C47 is false of the code: where a member bag has a kind of checksum that a later one lacks,
restoring fails. -/
theorem C47_negation : ∃ (E : RestoreEnv) (H : RHead) (srcs : List RSource),
    EnvOk E ∧ Aggregation E H srcs ∧ NoClash (memberTrees H srcs) ∧
    (∀ t ∈ memberTrees H srcs, ∃ b, openBag E.base t = .ok b ∧ b.entries ≠ []) ∧
    ∀ us rm, restore E H us rm [] = .error .keyError := by
  refine ⟨Sample.envWith Sample.mTwo, Sample.head, [⟨py!"/store/m1", Sample.mTwo⟩], Sample.envWith_ok _,
    Sample.aggregation_with (Sample.wf_of_check (by decide)), Sample.clash_of_check (by decide), ?_, ?_⟩
  · intro t ht
    have : t = Sample.mTwo ∨ t = Sample.hb := by simpa [memberTrees, Sample.head] using ht
    rcases this with rfl | rfl
    · exact ⟨_, rfl, by decide⟩
    · exact ⟨_, rfl, by decide⟩
  · intro us rm
    cases us <;> cases rm <;> rfl

/-- C47 is false of the code: the checksum of a file that is listed but not in its bag is lost,
although the restored bag still says from where to fetch this file. -/
theorem C47_fetch_negation : ∃ (E : RestoreEnv) (H : RHead) (srcs : List RSource) (out : Tree),
    EnvOk E ∧ Aggregation E H srcs ∧ NoClash (memberTrees H srcs) ∧ restore E H true true [] = .ok out ∧
    (∃ t ∈ memberTrees H srcs, Recorded py!"manifest" t py!"md5" py!"data/far" py!"d9") ∧
    (∀ v, ¬ Recorded py!"manifest" out py!"md5" py!"data/far" v) ∧
    out.read [py!"fetch.txt"] = some py!"http://e.x/far 9 data/far\n" := by
  have hp2 : PlainLine py!"d2" py!"data/b" := Sample.plain_line_of_check (q := [py!"data", py!"b"]) (by decide)
  have hp4 : PlainLine py!"d4" py!"data/a" := Sample.plain_line_of_check (q := [py!"data", py!"a"]) (by decide)
  have hp9 : PlainLine py!"d9" py!"data/far" := Sample.plain_line_of_check (q := [py!"data", py!"far"]) (by decide)
  obtain ⟨out, h1, h2⟩ := Sample.ok_of_check (r := restore (Sample.envWith Sample.mFetch) Sample.head true true [])
    (f := fun out => decide (out.read (manPath py!"manifest" py!"md5") = some py!"d2 data/b\nd4 data/a\n") &&
      decide (out.read [py!"fetch.txt"] = some py!"http://e.x/far 9 data/far\n")) (by decide +kernel)
  rw [Bool.and_eq_true, decide_eq_true_eq, decide_eq_true_eq] at h2
  refine ⟨_, Sample.head, [⟨py!"/store/m1", Sample.mFetch⟩], out, Sample.envWith_ok Sample.mFetch,
    Sample.aggregation_with (Sample.wf_of_check (by decide)), Sample.clash_of_check (by decide), h1,
    ⟨Sample.mFetch, by simp [memberTrees], ?_⟩, ?_, h2.2⟩
  · refine (recorded_written (es := [(py!"data/b", py!"d2"), (py!"data/far", py!"d9")]) rfl ?_).2 (by decide)
    intro e he
    have : e = (py!"data/b", py!"d2") ∨ e = (py!"data/far", py!"d9") := by simpa using he
    rcases this with rfl | rfl
    · exact hp2
    · exact hp9
  · intro v hv
    refine absurd ((recorded_written (es := [(py!"data/b", py!"d2"), (py!"data/a", py!"d4")]) h2.1 ?_).1 hv) ?_
    · intro e he
      have : e = (py!"data/b", py!"d2") ∨ e = (py!"data/a", py!"d4") := by simpa using he
      rcases this with rfl | rfl
      · exact hp2
      · exact hp4
    · simp

end Verif
