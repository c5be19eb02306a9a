import Verif.Lemmas.RestoreTotal
/-!
# Restoring a bag from its members: C44 to C53
-/

namespace Verif

open Spec

namespace Sample

def bagitText : Str := py!"BagIt-Version: 0.97\nTag-File-Character-Encoding: UTF-8\n"

/-- A member bag. -/
def m1 : Tree :=
  [([py!"bagit.txt"], .file bagitText), ([py!"bag-info.txt"], .file py!"Payload-Oxum: 9.3\n"),
   ([py!"data"], .dir), ([py!"data", py!"a"], .file py!"old"), ([py!"data", py!"b"], .file py!"bb"),
   ([py!"data", py!"x"], .dir), ([py!"data", py!"x", py!"d"], .file py!"gone"),
   ([py!"manifest-md5.txt"], .file py!"d3 data/a\nd2 data/b\nd4 data/x/d\n")]

/-- A head bag: a newer version of one file, and the deletion of a directory. -/
def hb : Tree :=
  [([py!"bagit.txt"], .file bagitText),
   ([py!"bag-info.txt"], .file py!"Multibag-Version: 0.4\nMultibag-Head-Version: 2\n"),
   ([py!"data"], .dir), ([py!"data", py!"a"], .file py!"new!"),
   ([py!"manifest-md5.txt"], .file py!"d4 data/a\n"),
   ([py!"multibag"], .dir), ([py!"multibag", py!"member-bags.tsv"], .file py!"m1\nhb\n"),
   ([py!"multibag", py!"deleted.txt"], .file py!"data/x\n"),
   ([py!"multibag", py!"aggregation-info.txt"], .file py!"Contact-Name: Jo\nMultibag-Version: 0.4\n")]

def hbInfo : Info := [(py!"Multibag-Version", .one py!"0.4"), (py!"Multibag-Head-Version", .one py!"2")]

def head : RHead := { name := py!"hb", path := py!"/store/hb", tree := hb, info := hbInfo, mode := .codecs }

/-- Restoring to `/out` from the bags in `/store`. -/
def renv : RestoreEnv where
  base := { readCfg with bagpath := py!"/out" }
  walk := walkOf
  find n := if n = py!"m1" then some ⟨py!"/store/m1", m1⟩ else none
  sum := Sample.sum
  blen c := c.length
  sizeText _ _ := py!"1 kB"

theorem renv_ok : EnvOk renv := ⟨fun _ h => isWalk_walkOf h, by decide⟩

/-- A run that succeeds with a given property of its result. -/
theorem ok_of_check {α : Type} {r : Except PyErr α} {f : α → Bool}
    (h : (match r with | .ok x => f x | .error _ => false) = true) : ∃ x, r = .ok x ∧ f x = true := by
  cases r with
  | error e => cases h
  | ok x => exact ⟨x, rfl, h⟩

theorem wf_hb : WfTree hb := wf_of_check (by decide)

theorem wf_m1 : WfTree m1 := wf_of_check (by decide)

theorem aggregation : Aggregation renv head [⟨py!"/store/m1", m1⟩] where
  members := ⟨_, [py!"m1"], rfl, .inl rfl, .cons rfl .nil⟩
  head := wf_hb
  wf := by
    intro s hs
    rw [List.mem_singleton] at hs
    subst hs
    exact wf_m1
  outside := by decide

/-- The result of restoring the sample. -/
def restored : Tree :=
  [([py!"bag-info.txt"], .file py!"Bag-Size: 1 kB\nContact-Name: Jo\nPayload-Oxum: 6.2\n"),
   ([py!"bagit.txt"], .file bagitText),
   ([py!"manifest-md5.txt"], .file py!"d2 data/b\nd4 data/a\n"),
   ([py!"data"], .dir), ([py!"data", py!"a"], .file py!"new!"), ([py!"data", py!"b"], .file py!"bb"),
   ([py!"tagmanifest-md5.txt"], .file py!"d50 bag-info.txt\nd55 bagit.txt\nd20 manifest-md5.txt\n")]

theorem restore_sample : restore renv head true true [] = .ok restored := by rfl

theorem clash_of_check {ts : List Tree}
    (h : (ts.all (fun t => ts.all (fun t' => (dkeys t').all (fun p => !(t.isfile p && t'.isdir p)) && !t.isfile []))) = true) :
    NoClash ts := by
  intro t ht t' ht' p ⟨h1, h2⟩
  rw [List.all_eq_true] at h
  have := h t ht
  rw [List.all_eq_true] at this
  have := this t' ht'
  rw [Bool.and_eq_true, List.all_eq_true] at this
  rcases isdir_iff.1 h2 with e | e
  · subst e
    rw [h1] at this
    simp at this
  · have h3 := this.1 p (mem_dkeys_iff.2 ⟨_, e⟩)
    rw [h1, h2] at h3
    simp at h3

theorem clash_sample : NoClash (memberTrees head [⟨py!"/store/m1", m1⟩]) := clash_of_check (by decide)

end Sample

/-! ## C44: the last member providing a file wins -/

theorem aggregation_parts {E : RestoreEnv} {H : RHead} {srcs : List RSource} (hA : Aggregation E H srcs) :
    ∃ ms, iterMembers H.mode H.tree H.info = .ok ms ∧
      Forall₂ (fun n s => E.find n = some s) (otherMembers H (ms.map (fun m => m.name))) srcs.reverse := by
  obtain ⟨ms, names, h1, h2, h3⟩ := hA.members
  refine ⟨ms, h1, ?_⟩
  rcases h2 with h2 | ⟨h2, hlast⟩
  · rw [h2, otherMembers_head]
    exact forall₂_reverse h3
  · rw [h2, otherMembers_all hlast]
    exact forall₂_reverse h3

/-- What is at each path of the restored bag, before saying which bag it is from. -/
theorem restored_dget {E : RestoreEnv} (hE : EnvOk E) {H : RHead} {srcs : List RSource} (hA : Aggregation E H srcs)
    {us rm : Bool} {d out : Tree} (h : restore E H us rm d = .ok out)
    {deleted : List Str} (hd : iterDeleted H.mode H.tree H.info = .ok deleted) {p : Path} (hne : p ≠ []) (hp : ¬ Special p) :
    (dget d p ≠ none → dget out p = dget d p) ∧
    (dget d p = none → Deleted deleted p → dget out p = none) ∧
    (dget d p = none → ¬ Deleted deleted p → dget out p = firstAt (sourcesOf E H srcs.reverse) p) := by
  obtain ⟨ms, h1, h2⟩ := aggregation_parts hA
  exact restore_dget hE h hd h1 h2 hA.head
    (fun s hs => ⟨hA.wf s (List.mem_reverse.1 hs), hA.outside s (List.mem_reverse.1 hs)⟩) hne hp

theorem restored_first {E : RestoreEnv} (hE : EnvOk E) {H : RHead} {srcs : List RSource} (hA : Aggregation E H srcs)
    {us rm : Bool} {d out : Tree} (hs : StartsFrom E H d) (h : restore E H us rm d = .ok out)
    {deleted : List Str} (hd : iterDeleted H.mode H.tree H.info = .ok deleted) {p : Path} (hne : p ≠ []) (hp : ¬ Special p)
    (hx : ¬ Deleted deleted p) : dget out p = firstAt (⟨H.path, H.tree⟩ :: srcs.reverse) p := by
  obtain ⟨k1, k2, k3⟩ := restored_dget hE hA h hd hne hp
  rcases hs with ⟨e, rfl⟩ | ⟨e, rfl⟩
  · have := k3 rfl hx
    unfold sourcesOf at this
    rw [if_neg e] at this
    exact this
  · simp only [firstAt]
    cases hn : dget H.tree p with
    | none =>
      have := k3 hn hx
      unfold sourcesOf at this
      rw [if_pos e] at this
      rw [this, Option.none_or]
    | some n => rw [k1 (by rw [hn]; simp), hn, Option.some_or]

/-- C44: the contents of each file that is not deleted are those in the last member bag that has
it: what copying the member bags one over the other in order gives.  This holds for a new
destination and for restoring in the head bag itself. -/
theorem C44_overlay {E : RestoreEnv} (hE : EnvOk E) {H : RHead} {srcs : List RSource} (hA : Aggregation E H srcs)
    (hc : NoClash (memberTrees H srcs)) {us rm : Bool} {d out : Tree} (hs : StartsFrom E H d)
    (h : restore E H us rm d = .ok out) {deleted : List Str} (hd : iterDeleted H.mode H.tree H.info = .ok deleted)
    {p : Path} (hp : ¬ Special p) (hx : ¬ Deleted deleted p) : out.read p = overlay (memberTrees H srcs) p := by
  by_cases hne : p = []
  · subst hne
    have hw : ∀ t ∈ memberTrees H srcs, WfTree t := by
      intro t ht
      rcases List.mem_append.1 ht with ht | ht
      · obtain ⟨s, hs, rfl⟩ := List.mem_map.1 ht
        exact hA.wf s hs
      · rw [List.mem_singleton] at ht; subst ht; exact hA.head
    rw [overlay_nil_path hw]
    have hwd : WfTree d := by
      rcases hs with ⟨_, rfl⟩ | ⟨_, rfl⟩
      · exact ⟨by simp [dkeys], by simp [dkeys], by simp [dkeys]⟩
      · exact hA.head
    obtain ⟨ms, h1, h2⟩ := aggregation_parts hA
    have hwo := wf_restore hE h h1 h2 hA.head (fun s hs => hA.wf s (List.mem_reverse.1 hs)) hwd
    have := overlay_nil_path (ts := [out]) (by simpa using hwo)
    simpa [overlay] using this
  · have hcl : NoClash ((⟨H.path, H.tree⟩ :: srcs.reverse : List RSource).map (fun s => s.tree)) := by
      have hsub : ∀ t, t ∈ (⟨H.path, H.tree⟩ :: srcs.reverse : List RSource).map (fun s => s.tree) → t ∈ memberTrees H srcs := by
        intro t ht
        unfold memberTrees
        simp only [List.map_cons, List.mem_cons, List.map_reverse, List.mem_reverse] at ht
        rw [List.mem_append, List.mem_singleton]
        exact ht.symm
      exact fun t ht t' ht' q => hc t (hsub t ht) t' (hsub t' ht') q
    have := firstAt_overlay hne hcl
    rw [← restored_first hE hA hs h hd hne hp hx] at this
    rw [List.reverse_cons, List.reverse_reverse, List.map_append] at this
    exact this

/-- C44, for directories: those of the restored bag are those of any member bag, unless deleted. -/
theorem C44_directories {E : RestoreEnv} (hE : EnvOk E) {H : RHead} {srcs : List RSource} (hA : Aggregation E H srcs)
    (hc : NoClash (memberTrees H srcs)) {us rm : Bool} {d out : Tree} (hs : StartsFrom E H d)
    (h : restore E H us rm d = .ok out) {deleted : List Str} (hd : iterDeleted H.mode H.tree H.info = .ok deleted)
    {p : Path} (hp : ¬ Special p) (hx : ¬ Deleted deleted p) :
    out.isdir p = true ↔ ∃ t ∈ memberTrees H srcs, t.isdir p = true := by
  by_cases hne : p = []
  · subst hne
    exact ⟨fun _ => ⟨H.tree, by simp [memberTrees], rfl⟩, fun _ => rfl⟩
  have hf := restored_first hE hA hs h hd hne hp hx
  have key : ∀ l : List RSource, NoClash (l.map (fun s => s.tree)) →
      (firstAt l p = some .dir ↔ ∃ s ∈ l, s.tree.isdir p = true) := by
    intro l hl
    induction l with
    | nil => simp [firstAt]
    | cons s l ih =>
      have ih' := ih (fun t ht t' ht' q => hl t (List.mem_cons_of_mem _ ht) t' (List.mem_cons_of_mem _ ht') q)
      simp only [firstAt]
      cases hn : dget s.tree p with
      | none =>
        rw [Option.none_or, ih']
        constructor
        · rintro ⟨x, hx, h⟩; exact ⟨x, List.mem_cons_of_mem _ hx, h⟩
        · rintro ⟨x, hx, h⟩
          rcases List.mem_cons.1 hx with rfl | hx
          · rcases isdir_iff.1 h with e | e
            · exact absurd e hne
            · rw [hn] at e; cases e
          · exact ⟨x, hx, h⟩
      | some n =>
        rw [Option.some_or]
        cases n with
        | dir => exact ⟨fun _ => ⟨s, List.mem_cons_self, isdir_iff.2 (.inr hn)⟩, fun _ => rfl⟩
        | file c =>
          constructor
          · intro h; cases h
          · rintro ⟨x, hx, h⟩
            exact absurd ⟨isfile_iff.2 ⟨c, hn⟩, h⟩
              (hl s.tree (by simp) x.tree (List.mem_map.2 ⟨x, hx, rfl⟩) p)
  have hcl : NoClash ((⟨H.path, H.tree⟩ :: srcs.reverse : List RSource).map (fun s => s.tree)) := by
    have hsub : ∀ t, t ∈ (⟨H.path, H.tree⟩ :: srcs.reverse : List RSource).map (fun s => s.tree) → t ∈ memberTrees H srcs := by
      intro t ht
      unfold memberTrees
      simp only [List.map_cons, List.mem_cons, List.map_reverse, List.mem_reverse] at ht
      rw [List.mem_append, List.mem_singleton]
      exact ht.symm
    exact fun t ht t' ht' q => hc t (hsub t ht) t' (hsub t' ht') q
  have h2 := key _ hcl
  have h3 : out.isdir p = true ↔ firstAt (⟨H.path, H.tree⟩ :: srcs.reverse) p = some .dir := by
    rw [isdir_iff, hf]; simp [hne]
  rw [h3, h2]
  constructor
  · rintro ⟨s, hs, hd⟩
    rcases List.mem_cons.1 hs with rfl | hs
    · exact ⟨H.tree, by simp [memberTrees], hd⟩
    · exact ⟨s.tree, by
        unfold memberTrees
        exact List.mem_append_left _ (List.mem_map.2 ⟨s, List.mem_reverse.1 hs, rfl⟩), hd⟩
  · rintro ⟨t, ht, hd⟩
    unfold memberTrees at ht
    rcases List.mem_append.1 ht with ht | ht
    · obtain ⟨s, hs, rfl⟩ := List.mem_map.1 ht
      exact ⟨s, List.mem_cons_of_mem _ (List.mem_reverse.2 hs), hd⟩
    · rw [List.mem_singleton] at ht; subst ht
      exact ⟨_, List.mem_cons_self, hd⟩

/-- The hypotheses of `C44_overlay` are met: the newer `data/a` and the only `data/b` are restored. -/
example : restore Sample.renv Sample.head true true [] = .ok Sample.restored ∧
    iterDeleted Sample.head.mode Sample.hb Sample.hbInfo = .ok [py!"data/x"] ∧
    Sample.restored.read [py!"data", py!"a"] = some py!"new!" ∧
    overlay (memberTrees Sample.head [⟨py!"/store/m1", Sample.m1⟩]) [py!"data", py!"a"] = some py!"new!" ∧
    overlay (memberTrees Sample.head [⟨py!"/store/m1", Sample.m1⟩]) [py!"data", py!"b"] = some py!"bb" ∧
    StartsFrom Sample.renv Sample.head [] :=
  ⟨Sample.restore_sample, rfl, rfl, rfl, rfl, .inl ⟨by decide, rfl⟩⟩

namespace Sample

/-- A head bag that is not listed as the last member: a copy of `hb` under another name. -/
def renamed : RHead := { head with name := py!"hb2", path := py!"/store/hb2" }

def renamedEnv : RestoreEnv :=
  { renv with find := fun n => if n = py!"m1" then some ⟨py!"/store/m1", m1⟩
                               else if n = py!"hb" then some ⟨py!"/store/hb", hb⟩ else none }

end Sample

/-- All bags listed are then restored below it. -/
example : Aggregation Sample.renamedEnv Sample.renamed [⟨py!"/store/m1", Sample.m1⟩, ⟨py!"/store/hb", Sample.hb⟩] ∧
    restore Sample.renamedEnv Sample.renamed true true [] = .ok Sample.restored := by
  refine ⟨⟨⟨_, [py!"m1", py!"hb"], rfl, .inr ⟨rfl, by decide⟩, .cons rfl (.cons rfl .nil)⟩, Sample.wf_hb, ?_, ?_⟩, rfl⟩
  · intro s hs
    simp only [List.mem_cons, List.not_mem_nil, or_false] at hs
    rcases hs with rfl | rfl
    · exact Sample.wf_m1
    · exact Sample.wf_hb
  · intro s hs
    simp only [List.mem_cons, List.not_mem_nil, or_false] at hs
    rcases hs with rfl | rfl <;> decide

/-! ## C45: deleted paths -/

/-- C45 for a new destination: no deleted path and nothing below one exists, except for files
that every restored bag has.  Missing: restoring in the head bag itself (`C45_negation`). -/
theorem C45_absent_partial {E : RestoreEnv} (hE : EnvOk E) {H : RHead} {srcs : List RSource} (hA : Aggregation E H srcs)
    {us rm : Bool} {out : Tree} (h : restore E H us rm [] = .ok out)
    {deleted : List Str} (hd : iterDeleted H.mode H.tree H.info = .ok deleted)
    {p : Path} (hp : ¬ Special p) (hx : Deleted deleted p) : out.exists p = false := by
  have hne : p ≠ [] := by
    rintro rfl
    obtain ⟨q, hq, hpre, _⟩ := hx
    exact hq (List.prefix_nil.1 hpre)
  have := (restored_dget hE hA h hd hne hp).2.1 rfl hx
  rw [Bool.eq_false_iff]
  intro h
  exact (exists_iff hne).1 h this

/-- C45 for any destination: a deleted path exists after restoring only if it did before. -/
theorem C45_not_added {E : RestoreEnv} (hE : EnvOk E) {H : RHead} {srcs : List RSource} (hA : Aggregation E H srcs)
    {us rm : Bool} {d out : Tree} (h : restore E H us rm d = .ok out)
    {deleted : List Str} (hd : iterDeleted H.mode H.tree H.info = .ok deleted)
    {p : Path} (hp : ¬ Special p) (hx : Deleted deleted p) : out.exists p = true → d.exists p = true := by
  have hne : p ≠ [] := by
    rintro rfl
    obtain ⟨q, hq, hpre, _⟩ := hx
    exact hq (List.prefix_nil.1 hpre)
  rw [exists_iff hne, exists_iff hne]
  intro h1 h2
  exact h1 ((restored_dget hE hA h hd hne hp).2.1 h2 hx)

/-- The hypotheses of `C45_absent_partial` are met by the sample: `data/x` is deleted and has
a file below it. -/
example : Deleted [py!"data/x"] [py!"data", py!"x", py!"d"] ∧ ¬ Special [py!"data", py!"x", py!"d"] ∧
    Sample.m1.isfile [py!"data", py!"x", py!"d"] = true ∧
    Sample.restored.exists [py!"data", py!"x", py!"d"] = false ∧ Sample.restored.exists [py!"data", py!"x"] = false := by
  refine ⟨⟨[py!"data", py!"x"], by decide, ⟨[py!"d"], rfl⟩, by decide⟩, ?_, rfl, rfl, rfl⟩
  rintro (h | h | h | ⟨a, h | h⟩ | ⟨r, h⟩) <;> simp at h

/-- C45 is false of the code: restoring in the head bag's own directory leaves a deleted file
that the head bag contains. -/
theorem C45_negation : ∃ (E : RestoreEnv) (H : RHead) (srcs : List RSource) (deleted : List Str) (out : Tree) (p : Path),
    EnvOk E ∧ Aggregation E H srcs ∧ StartsFrom E H H.tree ∧ restore E H true true H.tree = .ok out ∧
    iterDeleted H.mode H.tree H.info = .ok deleted ∧ Deleted deleted p ∧ ¬ Special p ∧ out.isfile p = true := by
  let t : Tree := Sample.hb ++ [([py!"data", py!"x"], .file py!"junk")]
  let E : RestoreEnv := { Sample.renv with base := { Sample.readCfg with bagpath := py!"/store/hb" } }
  let H : RHead := { Sample.head with tree := t }
  have hr : ∃ out, restore E H true true H.tree = .ok out ∧ out.isfile [py!"data", py!"x"] = true :=
    Sample.ok_of_check (by decide +kernel)
  obtain ⟨out, h1, h2⟩ := hr
  refine ⟨E, H, [⟨py!"/store/m1", Sample.m1⟩], [py!"data/x"], out, [py!"data", py!"x"],
    ⟨fun _ h => isWalk_walkOf h, by decide⟩, ⟨⟨_, [py!"m1"], rfl, .inl rfl, .cons rfl .nil⟩, Sample.wf_of_check (by decide), ?_, by decide⟩,
    .inr ⟨rfl, rfl⟩, h1, rfl, ⟨[py!"data", py!"x"], by decide, List.prefix_refl _, by decide⟩, ?_, h2⟩
  · intro s hs
    rw [List.mem_singleton] at hs
    subst hs
    exact Sample.wf_m1
  · rintro (h | h | h | ⟨a, h | h⟩ | ⟨r, h⟩) <;> simp at h

/-! ## C46: restoring one member -/

/-- C46: without overwriting, whatever exists in the destination stays as it is; manifests are
updated. -/
theorem C46_keeps {E : RestoreEnv} (hE : EnvOk E) {name : Str} {src : RSource} (hf : E.find name = some src)
    (hs : WfTree src.tree) {skip : List Str} (he : [] ∉ skip) {d d' : Tree} (h : restoreMember E name skip false d = .ok d')
    {p : Path} (hm : ¬ ManifestFile p) (hx : d.exists p = true) : d'.exists p = true ∧ d'.read p = d.read p ∧ d'.isdir p = d.isdir p := by
  unfold restoreMember at h
  rw [hf] at h
  simp only at h
  by_cases hne : p = []
  · subst hne
    refine ⟨rfl, ?_, rfl⟩
    by_cases hp : src.path = E.base.bagpath
    · unfold restoreFrom at h
      rw [if_pos hp] at h; cases h; rfl
    · obtain ⟨sb, s, hb, hr, hu⟩ := restoreFrom_parts h hp
      have ha := actsOf_ok hs (hE.walk _ hs) he
      have h1 : dget s.dest [] = dget d [] := by
        have : ∀ acts (s0 s1 : Copying), (∀ q, .file q ∈ acts → q ≠ []) → (∀ q, .dir q ∈ acts → q ≠ []) →
            runActs false src.tree acts s0 = .ok s1 → dget s1.dest [] = dget s0.dest [] := by
          intro acts
          induction acts with
          | nil => intro s0 s1 _ _ h; cases h; rfl
          | cons a acts ih =>
            intro s0 s1 hf hd h
            simp only [runActs] at h
            cases h2 : doAct false src.tree s0 a with
            | error e => rw [h2] at h; cases h
            | ok s2 =>
              rw [h2] at h
              rw [ih s2 s1 (fun q hq => hf q (List.mem_cons_of_mem _ hq)) (fun q hq => hd q (List.mem_cons_of_mem _ hq)) h]
              cases a with
              | stat q =>
                simp only [doAct] at h2
                split at h2
                · cases h2; rfl
                · cases h2
              | file q =>
                simp only [doAct, Bool.false_and, Bool.false_eq_true, if_false] at h2
                split at h2
                · cases h2; rfl
                · split at h2
                  · cases h2
                  · split at h2
                    · cases h2
                    · rename_i hw
                      cases h2
                      obtain ⟨rfl, _⟩ := Tree.write_ok hw
                      rw [dget_dset, if_neg (hf q List.mem_cons_self)]
              | dir q =>
                simp only [doAct] at h2
                split at h2
                · cases h2; rfl
                · split at h2
                  · cases h2
                  · rename_i hw
                    cases h2
                    obtain ⟨rfl, _⟩ := Tree.mkdir_ok hw
                    rw [dget_dset, if_neg (hd q List.mem_cons_self)]
        exact this _ _ _ (fun q hq => (ha.file q hq).1.1) (fun q hq => (ha.dir q hq).1.1) hr
      rcases hu with ⟨_, rfl⟩ | ⟨_, hu⟩
      · exact read_of_dget h1
      · obtain ⟨_, hl, _⟩ := openBag_parts hb
        exact (read_of_dget (updateManifests_frame hu (fun e he => ((entries_inv hl).2 e he).2) hm)).trans (read_of_dget h1)
  · have key : dget d' p = dget d p := by
      by_cases hp : src.path = E.base.bagpath
      · unfold restoreFrom at h
        rw [if_pos hp] at h; cases h; rfl
      · exact (restoreFrom_read hE hs he h hp hne hm).1 ((exists_iff hne).1 hx)
    exact ⟨by rw [exists_of_dget key]; exact hx, read_of_dget key, isdir_of_dget key⟩

/-- C46: of the paths that do not exist in the destination, exactly those of the member that are
not skipped and not below a skipped directory are added, with the member's contents. -/
theorem C46_adds {E : RestoreEnv} (hE : EnvOk E) {name : Str} {src : RSource} (hf : E.find name = some src)
    (ho : src.path ≠ E.base.bagpath)
    (hs : WfTree src.tree) {skip : List Str} (he : [] ∉ skip) {d d' : Tree} (h : restoreMember E name skip false d = .ok d')
    {p : Path} (hm : ¬ ManifestFile p) (hx : d.exists p = false) :
    (Deleted skip p → d'.exists p = false) ∧
    (¬ Deleted skip p → d'.exists p = src.tree.exists p ∧ d'.read p = src.tree.read p ∧ d'.isdir p = src.tree.isdir p) := by
  unfold restoreMember at h
  rw [hf] at h
  have hne : p ≠ [] := by
    rintro rfl
    simp [Tree.exists] at hx
  have hn : dget d p = none := by
    cases e : dget d p with
    | none => rfl
    | some n => rw [(exists_iff hne).2 (by rw [e]; simp)] at hx; cases hx
  obtain ⟨_, k2, k3⟩ := restoreFrom_read hE hs he h ho hne hm
  constructor
  · intro hd
    rw [Bool.eq_false_iff]
    intro h'
    exact (exists_iff hne).1 h' (k2 hn hd)
  · intro hd
    have := k3 hn hd
    exact ⟨exists_of_dget this, read_of_dget this, isdir_of_dget this⟩

/-- C46: if no path is a file in one and a directory in the other, copying the member's files does
not fail. -/
theorem C46_copies {E : RestoreEnv} (hE : EnvOk E) {src : RSource} (hs : WfTree src.tree) {skip : List Str} (he : [] ∉ skip)
    {d : Tree} (hc : NoClash [src.tree, d]) (overwrite : Bool) :
    ∃ s, runActs overwrite src.tree (actsOf skip (E.walk src.tree)) ⟨d, []⟩ = .ok s :=
  runActs_total (actsOf_ok hs (hE.walk _ hs) he) (allReady_actsOf hs he (hE.walk _ hs)) hc []

/-- With overwriting, every file of the member that is not skipped has the member's contents. -/
theorem C46_overwrites {E : RestoreEnv} (hE : EnvOk E) {name : Str} {src : RSource} (hf : E.find name = some src)
    (ho : src.path ≠ E.base.bagpath)
    (hs : WfTree src.tree) {skip : List Str} (he : [] ∉ skip) {d d' : Tree} (h : restoreMember E name skip true d = .ok d')
    {p : Path} (hm : ¬ ManifestFile p) :
    (src.tree.isfile p = true → ¬ Deleted skip p → d'.read p = src.tree.read p) ∧
    (p ≠ [] → (src.tree.isfile p = false ∨ Deleted skip p) → d.exists p = true → d'.read p = d.read p) := by
  unfold restoreMember at h
  rw [hf] at h
  have key := fun hne => restoreFrom_dget hE hs he h ho (p := p) hne hm
  constructor
  · intro h1 h2
    have := key (file_ne_nil hs h1).1
    unfold actEffect at this
    rw [if_pos ⟨(file_mem_acts hs (hE.walk _ hs) he).2 ⟨h1, h2⟩, .inl rfl⟩] at this
    rw [isfile_read] at h1
    obtain ⟨c, hc⟩ := Option.isSome_iff_exists.1 h1
    rw [hc, Option.map_some] at this
    rw [hc, Tree.read, this]
  · intro hne h1 h2
    have := key hne
    unfold actEffect at this
    rw [if_neg, if_neg] at this
    · exact read_of_dget this
    · rintro ⟨_, hn⟩
      exact (exists_iff hne).1 h2 hn
    · rintro ⟨hx, _⟩
      have := (file_mem_acts hs (hE.walk _ hs) he).1 hx
      rcases h1 with h1 | h1
      · rw [this.1] at h1; cases h1
      · exact this.2 h1

/-- The hypotheses of the C46 theorems are met: `data/b` is added to the head bag's files, `data/a`
is kept without overwriting and replaced with it. -/
example :
    ∃ d1 d2, restoreMember Sample.renv py!"m1" [py!"data/x"] false Sample.hb = .ok d1 ∧
      restoreMember Sample.renv py!"m1" [py!"data/x"] true Sample.hb = .ok d2 ∧
      d1.read [py!"data", py!"a"] = some py!"new!" ∧ d1.read [py!"data", py!"b"] = some py!"bb" ∧
      d2.read [py!"data", py!"a"] = some py!"old" ∧ d1.exists [py!"data", py!"x"] = false :=
  ⟨_, _, rfl, rfl, rfl, rfl, rfl, rfl⟩

/-! ## C52: the name of the tag directory -/

/-- C52 is false of the code for every name but `multibag`: if no bag has a directory `multibag`,
restoring with removal of the multibag metadata never succeeds. -/
theorem C52_negation {E : RestoreEnv} (hE : EnvOk E) {H : RHead} {srcs : List RSource} (hA : Aggregation E H srcs)
    (hn : ∀ t ∈ memberTrees H srcs, t.exists [py!"multibag"] = false) {us : Bool} {d : Tree} (hs : StartsFrom E H d) :
    ∀ out, restore E H us true d ≠ .ok out := by
  intro out h
  obtain ⟨ms, h1, h2⟩ := aggregation_parts hA
  obtain ⟨deleted, ms', d1, d2, d3, e1, e2, e3, e4, e5, e6⟩ := restore_parts h
  rw [h1] at e2
  cases e2
  obtain ⟨d0, i1, i2, hl, _⟩ := restore_list h2 e3 e4
  have hnil : [] ∉ pySet deleted := by
    rw [mem_pySet]; exact nil_notMem_deleted e1
  have hp : ([py!"multibag"] : Path) ≠ [] := by decide
  have hman : ¬ ManifestFile [py!"multibag"] := by
    rintro ⟨a, h | h⟩ <;> simp at h
  have hnone : ∀ t : Tree, t.exists [py!"multibag"] = false → dget t [py!"multibag"] = none := by
    intro t ht
    cases e : dget t [py!"multibag"] with
    | none => rfl
    | some n => rw [(exists_iff hp).2 (by rw [e]; simp)] at ht; cases ht
  have hd0 : dget d0 [py!"multibag"] = none := by
    rw [i1 _ (by decide)]
    rcases hs with ⟨_, rfl⟩ | ⟨_, rfl⟩
    · rfl
    · exact hnone _ (hn _ (by simp [memberTrees]))
  have hsrc : ∀ s ∈ sourcesOf E H srcs.reverse, (WfTree s.tree ∧ s.path ≠ E.base.bagpath) ∧ dget s.tree [py!"multibag"] = none := by
    have hrest : ∀ s ∈ srcs.reverse, (WfTree s.tree ∧ s.path ≠ E.base.bagpath) ∧ dget s.tree [py!"multibag"] = none := by
      intro s hs
      rw [List.mem_reverse] at hs
      exact ⟨⟨hA.wf s hs, hA.outside s hs⟩, hnone _ (hn _ (by
        unfold memberTrees
        exact List.mem_append_left _ (List.mem_map.2 ⟨s, hs, rfl⟩)))⟩
    intro s hx
    unfold sourcesOf at hx
    split at hx
    · exact hrest s hx
    · rename_i hne
      rcases List.mem_cons.1 hx with rfl | hx
      · exact ⟨⟨hA.head, hne⟩, hnone _ (hn _ (by simp [memberTrees]))⟩
      · exact hrest s hx
  obtain ⟨_, k2, k3⟩ := restoreList_read hE hnil (fun s hs => (hsrc s hs).1) hl hp hman
  have hfirst : ∀ l : List RSource, (∀ s ∈ l, dget s.tree [py!"multibag"] = none) → firstAt l [py!"multibag"] = none := by
    intro l
    induction l with
    | nil => intro _; rfl
    | cons s l ih =>
      intro hall
      simp only [firstAt]
      rw [hall s List.mem_cons_self, Option.none_or]
      exact ih (fun x hx => hall x (List.mem_cons_of_mem _ hx))
  have hd2 : dget d2 [py!"multibag"] = none := by
    by_cases hx : Deleted (pySet deleted) [py!"multibag"]
    · exact k2 hd0 hx
    · rw [k3 hd0 hx]
      exact hfirst _ (fun s hs => (hsrc s hs).2)
  have hd3 : dget d3 [py!"multibag"] = none := by
    rw [(fetchStep_frame e5).1 _ (by decide)]; exact hd2
  unfold finishRestore at e6
  cases hb : openBag E.base d3 with
  | error e => rw [hb] at e6; cases e6
  | ok b =>
    rw [hb] at e6
    have hbt := (openBag_parts hb).1
    have : removeTags E b = .error .osError := by
      unfold removeTags Tree.rmtree
      rw [hbt, if_neg]
      rw [isdir_iff, hd3]
      simp
    simp only [if_true, this] at e6
    cases e6

/-- The head bag of the sample with its tag files in `mbag`. -/
def Sample.hbOther : Tree :=
  [([py!"bagit.txt"], .file bagitText),
   ([py!"bag-info.txt"], .file py!"Multibag-Version: 0.4\nMultibag-Head-Version: 2\nMultibag-Tag-Directory: mbag\n"),
   ([py!"data"], .dir), ([py!"data", py!"a"], .file py!"new!"),
   ([py!"manifest-md5.txt"], .file py!"d4 data/a\n"),
   ([py!"mbag"], .dir), ([py!"mbag", py!"member-bags.tsv"], .file py!"m1\nhb\n"),
   ([py!"mbag", py!"aggregation-info.txt"], .file py!"Contact-Name: Jo\n")]

def Sample.headOther : RHead :=
  { Sample.head with tree := hbOther, info := hbInfo ++ [(py!"Multibag-Tag-Directory", .one py!"mbag")] }

/-- The hypotheses of `C52_negation` are met by a head bag with another tag directory; the members
are found all the same, and restoring succeeds if the multibag metadata may stay. -/
example : Aggregation Sample.renv Sample.headOther [⟨py!"/store/m1", Sample.m1⟩] ∧
    (∀ t ∈ memberTrees Sample.headOther [⟨py!"/store/m1", Sample.m1⟩], t.exists [py!"multibag"] = false) ∧
    restore Sample.renv Sample.headOther true true [] = .error .osError ∧
    ∃ out, restore Sample.renv Sample.headOther true false [] = .ok out ∧
      out.isfile [py!"mbag", py!"member-bags.tsv"] = true := by
  refine ⟨⟨⟨_, [py!"m1"], rfl, .inl rfl, .cons rfl .nil⟩, Sample.wf_of_check (by decide), ?_, by decide⟩, by decide,
    rfl, Sample.ok_of_check (by decide +kernel)⟩
  intro s hs
  rw [List.mem_singleton] at hs
  subst hs
  exact Sample.wf_m1

/-! ## C53: interrupted restores -/

theorem foldlM_restoreList {E : RestoreEnv} {skip : List Str} (l : List RSource) (d : Tree) :
    l.foldlM (fun d s => restoreFrom E s skip false d) d = restoreList E skip l d := by
  induction l generalizing d with
  | nil => rfl
  | cons s l ih =>
    rw [List.foldlM_cons]
    simp only [restoreList]
    cases restoreFrom E s skip false d with
    | error e => rfl
    | ok d1 => exact ih d1

theorem firstAt_append (l m : List RSource) (p : Path) : firstAt (l ++ m) p = (firstAt l p).or (firstAt m p) := by
  induction l with
  | nil => simp [firstAt]
  | cons s l ih => simp only [List.cons_append, firstAt, ih, Option.or_assoc]

/-- C53 for files: if a restore to a directory other than the head bag's stops between file
operations, and restoring is then done again, every file and directory is as if it had not stopped.
Missing: manifests, metadata and fetch list (`C53_negation`), and files that were written in part. -/
theorem C53_files_partial {E : RestoreEnv} (hE : EnvOk E) {H : RHead} {srcs : List RSource} (hA : Aggregation E H srcs)
    (ho : H.path ≠ E.base.bagpath) {us rm : Bool} {d out : Tree} (h : restore E H us rm d = .ok out)
    {deleted : List Str} (hd : iterDeleted H.mode H.tree H.info = .ok deleted)
    {d' out' : Tree} (hi : Interrupted E H deleted srcs d d') (h' : restore E H us rm d' = .ok out')
    {p : Path} (hne : p ≠ []) (hp : ¬ Special p) :
    out'.read p = out.read p ∧ out'.exists p = out.exists p ∧ out'.isdir p = out.isdir p := by
  suffices key : dget out' p = dget out p from ⟨read_of_dget key, exists_of_dget key, isdir_of_dget key⟩
  obtain ⟨dest0, pre, src, post, done, later, dm, s, i0, i1, i2, i3, i4, i5⟩ := hi
  rw [foldlM_restoreList] at i2
  have hsrcs : sourcesOf E H srcs.reverse = pre ++ src :: post := by
    unfold sourcesOf; rw [if_neg ho, i1]
  have hall : ∀ x ∈ pre ++ src :: post, WfTree x.tree ∧ x.path ≠ E.base.bagpath := by
    rw [← i1]
    intro x hx
    rcases List.mem_cons.1 hx with rfl | hx
    · exact ⟨hA.head, ho⟩
    · rw [List.mem_reverse] at hx
      exact ⟨hA.wf x hx, hA.outside x hx⟩
  have hman : ¬ ManifestFile p := fun hm => hp (.inr (.inr (.inr (.inl hm))))
  have hnil := nil_notMem_deleted hd
  have r1 := restoreList_read hE hnil (fun x hx => hall x (List.mem_append_left _ hx)) i2 hne hman
  rw [i0 p (fun e => hp (.inl e))] at r1
  have hw : WfTree src.tree := (hall src (by simp)).1
  have ha := actsOf_ok hw (hE.walk _ hw) hnil
  have r2 := runActs_ok (ha.mono (by rw [i3]; intro x hx; simp [hx])) i4 hne
  obtain ⟨o1, o2, o3⟩ := restored_dget hE hA h hd hne hp
  obtain ⟨q1, q2, q3⟩ := restored_dget hE hA h' hd hne hp
  rw [hsrcs] at o3 q3
  rw [i5 p hp, r2] at q1 q2 q3
  have mem_done : ∀ a, a ∈ done → a ∈ actsOf deleted (E.walk src.tree) := by
    rw [i3]; intro a ha; simp [ha]
  have keep : ∀ n, dget dm p = some n → actEffect false src.tree done p (dget dm p) = some n := by
    intro n hn
    unfold actEffect
    rw [hn, if_neg (by simp), if_neg (by simp)]
  cases hdp : dget d p with
  | some n =>
    have e1 := r1.1 (by rw [hdp]; simp)
    rw [hdp] at e1
    rw [q1 (by rw [keep n e1]; simp), keep n e1, o1 (by rw [hdp]; simp), hdp]
  | none =>
    by_cases hx : Deleted deleted p
    · have e1 := r1.2.1 hdp hx
      rw [o2 hdp hx]
      refine q2 ?_ hx
      unfold actEffect
      rw [if_neg, if_neg, e1]
      · rintro ⟨h1, _⟩
        exact ((dir_mem_acts hw (hE.walk _ hw) hnil).1 (mem_done _ h1)).2.2 hx
      · rintro ⟨h1, _⟩
        exact ((file_mem_acts hw (hE.walk _ hw) hnil).1 (mem_done _ h1)).2 hx
    · have e1 := r1.2.2 hdp hx
      rw [o3 hdp hx]
      cases hf : firstAt pre p with
      | some n =>
        rw [hf] at e1
        rw [q1 (by rw [keep n e1]; simp), keep n e1, firstAt_append, hf, Option.some_or]
      | none =>
        rw [hf] at e1
        by_cases hz : actEffect false src.tree done p (dget dm p) = none
        · exact q3 hz hx
        · rw [q1 hz, firstAt_append, hf, Option.none_or]
          simp only [firstAt]
          unfold actEffect at hz ⊢
          by_cases hfile : .file p ∈ done ∧ (false = true ∨ dget dm p = none)
          · rw [if_pos hfile]
            obtain ⟨_, c, hc⟩ := ha.file p (mem_done _ hfile.1)
            rw [hc]
            have : dget src.tree p = some (.file c) := by
              unfold Tree.read at hc
              split at hc
              · rename_i e; cases hc; exact e
              · cases hc
            rw [this]; rfl
          · rw [if_neg hfile] at hz ⊢
            by_cases hdir : .dir p ∈ done ∧ dget dm p = none
            · rw [if_pos hdir]
              rcases isdir_iff.1 (ha.dir p (mem_done _ hdir.1)).2 with e | e
              · exact absurd e hne
              · rw [e]; rfl
            · rw [if_neg hdir] at hz
              exact absurd e1 hz

/-- The destination of the sample after the files of both bags are copied, but before the manifest
is updated for the second. -/
def Sample.stopped : Tree :=
  [([py!"bag-info.txt"], .file py!"Contact-Name: Jo\nMultibag-Version: 0.4\n"),
   ([py!"bagit.txt"], .file bagitText),
   ([py!"manifest-md5.txt"], .file py!"d4 data/a\n"),
   ([py!"data"], .dir), ([py!"multibag"], .dir), ([py!"data", py!"a"], .file py!"new!"),
   ([py!"multibag", py!"member-bags.tsv"], .file py!"m1\nhb\n"),
   ([py!"multibag", py!"deleted.txt"], .file py!"data/x\n"),
   ([py!"multibag", py!"aggregation-info.txt"], .file py!"Contact-Name: Jo\nMultibag-Version: 0.4\n"),
   ([py!"data", py!"b"], .file py!"bb")]

/-- That state is one an interrupted restore can leave. -/
theorem Sample.interrupted : Interrupted renv head [py!"data/x"] [⟨py!"/store/m1", m1⟩] [] stopped := by
  refine ⟨[([py!"bag-info.txt"], .file py!"Contact-Name: Jo\nMultibag-Version: 0.4\n")],
    [⟨py!"/store/hb", hb⟩], ⟨py!"/store/m1", m1⟩, [], _, [], _, ⟨stopped, [py!"data/b"]⟩, ?_, rfl, rfl, (List.append_nil _).symm, ?_, fun _ _ => rfl⟩
  · intro p hp
    simp [dget, Ne.symm hp]
  · rfl

/-- C53 is false of the code: after stopping there and restoring again, the manifest lacks the
checksum of `data/b`. -/
theorem C53_negation : ∃ (E : RestoreEnv) (H : RHead) (srcs : List RSource) (deleted : List Str) (out d' out' : Tree),
    EnvOk E ∧ Aggregation E H srcs ∧ H.path ≠ E.base.bagpath ∧ iterDeleted H.mode H.tree H.info = .ok deleted ∧
    restore E H true true [] = .ok out ∧ Interrupted E H deleted srcs [] d' ∧ restore E H true true d' = .ok out' ∧
    out.read [py!"manifest-md5.txt"] = some py!"d2 data/b\nd4 data/a\n" ∧
    out'.read [py!"manifest-md5.txt"] = some py!"d4 data/a\n" ∧
    out'.read [py!"data", py!"b"] = some py!"bb" := by
  obtain ⟨out', h1, h2⟩ : ∃ out', restore Sample.renv Sample.head true true Sample.stopped = .ok out' ∧
      (decide (out'.read [py!"manifest-md5.txt"] = some py!"d4 data/a\n") &&
       decide (out'.read [py!"data", py!"b"] = some py!"bb")) = true := Sample.ok_of_check (by decide +kernel)
  rw [Bool.and_eq_true, decide_eq_true_eq, decide_eq_true_eq] at h2
  exact ⟨Sample.renv, Sample.head, _, [py!"data/x"], _, _, out', Sample.renv_ok, Sample.aggregation, by decide, rfl,
    Sample.restore_sample, Sample.interrupted, h1, rfl, h2.1, h2.2⟩

end Verif
