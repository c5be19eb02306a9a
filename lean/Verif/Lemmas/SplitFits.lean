import Verif.Props.SplitValid
import Verif.Props.Paths
import Verif.Lemmas.RestoreSucceeds
/-!
# The bags of a split can be put together again
-/

namespace Verif

open Spec

namespace Spec

/-- A name in which nothing is expanded: no `~` at the start and no `$`. -/
def Unexpanded (p : Str) : Prop := p.head? ≠ some '~' ∧ '$' ∉ p

end Spec

/-- A path without `.` and `..` leads inside the bag, wherever the bag is. -/
theorem safe_path (env : Env) {bag : Str} {dir : Path} (h : AbsPath bag dir) {p : Path} (hg : GoodPath p)
    (hu : Unexpanded (joinPath p)) : isDangerous env bag (joinPath p) = false := by
  have hp : (joinPath p).head? ≠ some '/' := fun e => joinPath_head hg _ e rfl
  refine C68_inside_accepted_partial env h hp hu.1 hu.2 ?_
  unfold Inside leadsTo
  rw [if_neg hp, splitOn_joinPath' hg, follow_good _ hg.2]
  exact List.prefix_append _ _

/-- No file is listed twice in one manifest of a split bag. -/
theorem manifestOf_once {hashes : Str → List (Str × Str)} {fs : List Str} (hn : fs.Nodup)
    (hk : ∀ f, (dkeys (hashes f)).Nodup)
    (hh : ∀ f ∈ fs, ∀ alg c, (alg, c) ∈ hashes f → Word c ∧ c.head? ≠ some '#' ∧ PlainPath f) (pay : Bool) (alg : Str) :
    (manifestOf hashes fs pay alg).Pairwise (fun l m => ∀ c c' p, Lists l c p → ¬ Lists m c' p) := by
  have h := pairwise_split (algs := [alg]) (by simp) (v := [1]) hn hk hh
  rw [if_neg (by decide)] at h
  simp only [List.flatMap_cons, List.flatMap_nil, List.append_nil] at h
  rw [List.pairwise_append, List.pairwise_map, List.pairwise_map] at h
  have key : ∀ {l : List Str}, l.Pairwise (fun a b => ∀ c c' p, alg = alg → Lists a c p → Lists b c' p →
      c = c' ∧ tupLt ([1] : List Int) [1] = true) → l.Pairwise (fun l m => ∀ c c' p, Lists l c p → ¬ Lists m c' p) := by
    intro l hl
    refine hl.imp ?_
    intro a b hab c c' p h1 h2
    have := (hab c c' p rfl h1 h2).2
    revert this; decide
  cases pay with
  | true => exact key h.1
  | false => exact key h.2.1

/-- The manifests of one kind of a split bag. -/
theorem split_tidyKind {safe : Str → Prop} {cfg : ReadCfg} {A : Str → Prop} {b : RBag} {fs : List Str} {t' : Tree}
    (hl : TidyLook safe cfg.algs A b.entries)
    (hlook : ∀ f alg c, (alg, c) ∈ (b.source cfg).hashes f ↔ b.entries.look f alg = some c)
    (hk : ∀ f, (dkeys ((b.source cfg).hashes f)).Nodup) (hn : fs.Nodup) (hplain : ∀ f ∈ fs, PlainPath f) {pay : Bool} {kind : Str}
    (nodir : ∀ a ∈ cfg.algs, t'.isdir [kind ++ '-' :: a ++ py!".txt"] = false)
    (hfile : ∀ a ∈ cfg.algs, t'.isfile [kind ++ '-' :: a ++ py!".txt"] = true ↔
      manifestOf (b.source cfg).hashes fs pay a ≠ [] ∨ (pay = true ∧ A a))
    (hread : ∀ a ∈ cfg.algs, ∀ c, t'.read [kind ++ '-' :: a ++ py!".txt"] = some c →
      c = (manifestOf (b.source cfg).hashes fs pay a).flatten) :
    TidyKind safe cfg.algs A kind pay t' := by
  have hline : ∀ f ∈ fs, ∀ alg c, (alg, c) ∈ (b.source cfg).hashes f → PlainLine c f := by
    intro f _ alg c h
    exact (hl.line f alg c ((hlook f alg c).1 h)).2.2.1
  have hmeml : ∀ a, manifestLines py!"UTF-8" (manifestOf (b.source cfg).hashes fs pay a).flatten =
      manifestOf (b.source cfg).hashes fs pay a := fun a =>
    manifestLines_of (fun f hf c hc => ⟨(hline f hf a c hc).word, (hline f hf a c hc).nobom⟩)
      (fun f hf => (hplain f hf).nobreak)
  have hrec : ∀ a ∈ cfg.algs, ∀ p h, Recorded kind t' a p h → p ∈ fs ∧ isPayload p = pay ∧ (a, h) ∈ (b.source cfg).hashes p := by
    rintro a ha p h ⟨text, line, h1, h2, h3⟩
    rw [hread a ha text h1, hmeml] at h2
    obtain ⟨f, hf, hp, c, hc, rfl⟩ := mem_manifestOf.1 h2
    have pl := hline f hf a c hc
    obtain ⟨rfl, rfl⟩ := (C70_plain_line pl.word pl.nocomment pl.path h p).1 h3
    exact ⟨hf, hp, hc⟩
  have hne : ∀ a, manifestOf (b.source cfg).hashes fs pay a ≠ [] →
      ∃ f ∈ fs, isPayload f = pay ∧ ∃ c, (a, c) ∈ (b.source cfg).hashes f := by
    intro a h
    obtain ⟨l, hl⟩ := List.exists_mem_of_ne_nil _ h
    obtain ⟨f, hf, hp, c, hc, _⟩ := mem_manifestOf.1 hl
    exact ⟨f, hf, hp, c, hc⟩
  refine ⟨nodir, ?_, ?_, ?_, ?_, ?_⟩
  · intro a ha h
    rcases (hfile a ha).1 h with h | ⟨_, h⟩
    · obtain ⟨f, _, _, c, hc⟩ := hne a h
      exact (hl.line f a c ((hlook f a c).1 hc)).2.1
    · exact h
  · intro a ha a' ha' h hA
    refine (hfile a' ha').2 ?_
    rcases (hfile a ha).1 h with h | ⟨h, _⟩
    · left
      obtain ⟨f, hf, hp, c, hc⟩ := hne a h
      obtain ⟨c', hc'⟩ := hl.same f a c ((hlook f a c).1 hc) a' ha' hA
      exact List.ne_nil_of_mem (mem_manifestOf.2 ⟨f, hf, hp, c', (hlook f a' c').2 hc', rfl⟩)
    · exact .inr ⟨h, hA⟩
  · intro a ha p h hr
    obtain ⟨_, h2, h3⟩ := hrec a ha p h hr
    exact ⟨h2, (hl.line p a h ((hlook p a h).1 h3)).2.2⟩
  · intro a ha text h
    rw [hread a ha text h, hmeml]
    exact manifestOf_once hn hk (fun f hf alg c hc => ⟨(hline f hf alg c hc).word, (hline f hf alg c hc).nocomment,
      (hline f hf alg c hc).path⟩) pay a
  · intro a ha a' ha' hA p h hr
    obtain ⟨h1, h2, h3⟩ := hrec a ha p h hr
    obtain ⟨c', hc'⟩ := hl.same p a h ((hlook p a h).1 h3) a' ha' hA
    have hc'' := (hlook p a' c').2 hc'
    have hmem : c' ++ ' ' :: p ++ ['\n'] ∈ manifestOf (b.source cfg).hashes fs pay a' := mem_manifestOf.2 ⟨p, h1, h2, c', hc'', rfl⟩
    have hf := (hfile a' ha').2 (.inl (List.ne_nil_of_mem hmem))
    rw [isfile_read] at hf
    obtain ⟨text, ht⟩ := Option.isSome_iff_exists.1 hf
    have pl := hline p h1 a' c' hc''
    refine ⟨c', text, _, ht, ?_, (C70_plain_line pl.word pl.nocomment pl.path c' p).2 ⟨rfl, rfl⟩⟩
    rw [hread a' ha' text ht, hmeml]
    exact hmem

theorem goodPath_single {n : Str} (h : GoodName n) : GoodPath [n] :=
  ⟨by simp, fun c hc => by rw [List.mem_singleton.1 hc]; exact h⟩

/-- The name of a tag manifest, when that of the payload manifest can be written into a manifest. -/
theorem plain_tagmanifest {a : Str} (ha : '/' ∉ a) (h : PlainPath (py!"manifest-" ++ a ++ py!".txt")) :
    GoodPath [py!"tagmanifest-" ++ a ++ py!".txt"] ∧ PlainPath (py!"tagmanifest-" ++ a ++ py!".txt") := by
  have hg : GoodPath [py!"tagmanifest-" ++ a ++ py!".txt"] := by
    refine goodPath_single ⟨by simp, ?_, by simp, by simp⟩
    intro hm
    rw [List.mem_append, List.mem_append] at hm
    rcases hm with (hm | hm) | hm
    · revert hm; decide
    · exact ha hm
    · revert hm; decide
  refine ⟨hg, ⟨_, hg, by simp [joinWith]⟩, ⟨?_, ?_⟩, ?_, ?_, ?_⟩
  · intro c hc
    have : c = 't' := by simpa using hc.symm
    subst this; decide
  · intro c hc
    rw [List.getLast?_append] at hc
    have : c = 't' := by simpa using hc.symm
    subst this; decide
  · intro c hc
    rw [List.mem_append, List.mem_append] at hc
    rcases hc with (hc | hc) | hc
    · revert c; decide
    · exact h.nobreak c (by simp [hc])
    · revert c; decide
  · simp
  · intro hc
    rw [List.mem_append, List.mem_append] at hc
    rcases hc with (hc | hc) | hc
    · revert hc; decide
    · exact h.nopercent (by simp [hc])
    · revert hc; decide

/-- The names of BagIt's and multibag's own files can be written into a manifest. -/
theorem plain_own {n : Path} (h : n = [py!"bagit.txt"] ∨ n = [py!"bag-info.txt"] ∨ HeadFile n) :
    GoodPath n ∧ Unexpanded (joinPath n) ∧ PlainPath (joinPath n) := by
  have key : ∀ n : Path, n ≠ [] → (∀ c ∈ n, c ≠ [] ∧ '/' ∉ c ∧ c ≠ ['.'] ∧ c ≠ ['.', '.']) →
      (∀ c ∈ joinPath n, isSpace c = false ∧ isNl c = false ∧ c ≠ '*' ∧ c ≠ '%' ∧ c ≠ '~' ∧ c ≠ '$') →
      GoodPath n ∧ Unexpanded (joinPath n) ∧ PlainPath (joinPath n) := by
    intro n h1 h2 h3
    have hg : GoodPath n := ⟨h1, fun c hc => ⟨(h2 c hc).1, (h2 c hc).2.1, (h2 c hc).2.2.1, (h2 c hc).2.2.2⟩⟩
    refine ⟨hg, ⟨?_, fun h => (h3 _ h).2.2.2.2.2 rfl⟩, ⟨n, hg, rfl⟩, ⟨?_, ?_⟩, fun c hc => (h3 c hc).2.1, ?_,
      fun h => (h3 _ h).2.2.2.1 rfl⟩
    · exact fun h => (h3 _ (List.mem_of_mem_head? h)).2.2.2.2.1 rfl
    · exact fun c h => (h3 _ (List.mem_of_mem_head? h)).1
    · exact fun c h => (h3 _ (List.mem_of_mem_getLast? h)).1
    · exact fun h => (h3 _ (List.mem_of_mem_head? h)).2.2.1 rfl
  rcases h with rfl | rfl | rfl | rfl | rfl <;> exact key _ (by decide) (by decide) (by decide)

/-- The files of a split bag. -/
theorem split_file_names {E : RestoreEnv} (hE : EnvOk E) (hF : EnvFits E) (hdol : ∀ a ∈ E.base.algs, '$' ∉ a)
    {t : Tree} {contents : List Str} {ishead : Bool} {t' : Tree}
    (hf : ∀ f ∈ contents, PlanEntry f ∧ PlainPath f ∧ Unexpanded f)
    (sb : SplitBag t contents ishead t')
    (hman : ∀ a, (t'.isfile [py!"manifest-" ++ a ++ py!".txt"] = true ∨ t'.isfile [py!"tagmanifest-" ++ a ++ py!".txt"] = true) →
      a ∈ E.base.algs) {p : Path} (hp : t'.isfile p = true) :
    GoodPath p ∧ Unexpanded (joinPath p) ∧ PlainPath (joinPath p) := by
  have hjoin : ∀ n : Str, joinPath [n] = n := fun n => by simp [joinPath, joinWith]
  rcases sb.only p hp with ⟨_, f, hfc, rfl⟩ | h | ⟨_, h⟩
  · obtain ⟨⟨q, hq, rfl, _⟩, h2, h3⟩ := hf f hfc
    rw [comps_joinPath hq]
    exact ⟨hq, h3, h2⟩
  · rcases h with h | h | ⟨a, rfl | rfl⟩
    · exact plain_own (.inl h)
    · exact plain_own (.inr (.inl h))
    · have ha := hman a (.inl hp)
      refine ⟨isfile_good sb.wf hp, ?_, ?_⟩
      · rw [hjoin]
        refine ⟨by simp, ?_⟩
        intro hm
        rw [List.mem_append, List.mem_append] at hm
        rcases hm with (hm | hm) | hm
        · revert hm; decide
        · exact hdol a ha hm
        · revert hm; decide
      · rw [hjoin]; exact (hF.manifests a ha).1
    · have ha := hman a (.inr hp)
      have := plain_tagmanifest (hE.algs a ha) (hF.manifests a ha).1
      refine ⟨this.1, ?_, ?_⟩
      · rw [hjoin]
        refine ⟨by simp, ?_⟩
        intro hm
        rw [List.mem_append, List.mem_append] at hm
        rcases hm with (hm | hm) | hm
        · revert hm; decide
        · exact hdol a ha hm
        · revert hm; decide
      · rw [hjoin]; exact this.2
  · exact plain_own (.inr (.inr h))

/-- The bags of a split fit together. -/
theorem split_fits {E : RestoreEnv} (hE : EnvOk E) (hF : EnvFits E) (hdol : ∀ a ∈ E.base.algs, '$' ∉ a)
    {dest : Path} (hdest : AbsPath E.base.bagpath dest) {A : Str → Prop} {src : Str} {t : Tree} {b : RBag}
    (ho : openBag { E.base with bagpath := src } t = .ok b) (ord : Ordinary (b.source { E.base with bagpath := src }))
    {hostOk : Str → Bool} (hv : ValidBag hostOk E.sum E.blen { E.base with bagpath := src } b)
    (htidy : Tidy (AtDest E) E.base.algs A t)
    {contents : List Str} {ishead : Bool} {t' : Tree}
    (hf : ∀ f ∈ contents, PlanEntry f ∧ PlainPath f ∧ Unexpanded f) (hnd : contents.Nodup)
    (sb : SplitBag t contents ishead t')
    (hman : ∀ p, ManifestFile p →
        (t'.isfile p = true ↔ recorded (b.source { E.base with bagpath := src }).hashes (copied t contents) p ≠ [] ∨
          ∃ a ∈ (b.source { E.base with bagpath := src }).algs, p = [py!"manifest-" ++ a ++ py!".txt"]) ∧
        ∀ c, t'.read p = some c → c = (recorded (b.source { E.base with bagpath := src }).hashes (copied t contents) p).flatten)
    {path : Str} {dir : Path} (hpath : AbsPath path dir)
    (hopen : (∀ p, t'.isfile p = true → isDangerous E.base.env path (joinPath p) = false) →
      ∃ b', openBag { E.base with bagpath := path } t' = .ok b' ∧ b'.tagFile = py!"bag-info.txt") :
    (∀ p, t'.isfile p = true → isDangerous E.base.env path (joinPath p) = false) ∧ Fits E A ⟨path, t'⟩ := by
  generalize hcfg : ({ E.base with bagpath := src } : ReadCfg) = cfg at *
  have halgs : cfg.algs = E.base.algs := by rw [← hcfg]
  have hu : startsWith py!"UTF" b.encoding = true := by
    obtain ⟨_, _, _, _, _, _, _, _, _, _, henc⟩ := openBag_parts ho
    exact hF.utf _ (by rw [← hcfg] at henc; exact henc)
  have htb : b.tree = t := (openBag_parts ho).1
  have hl := Spec.Tidy.look (cfg := cfg) (halgs ▸ htidy) ho hu
  have hlook := fun f alg c => hashes_look (f := f) (alg := alg) (c := c) ho
  have hAlg : ∀ a, a ∈ (b.source cfg).algs ↔ a ∈ E.base.algs ∧ A a := by
    intro a
    have e : a ∈ (b.source cfg).algs ↔ a ∈ cfg.algs ∧ t.isfile [py!"manifest" ++ '-' :: a ++ py!".txt"] = true := by
      unfold RBag.source manifestFiles
      simp only [List.mem_map, List.mem_filter, Prod.exists, htb]
      constructor
      · rintro ⟨a', p, ⟨⟨x, h1, h2⟩, h3⟩, rfl⟩
        cases h2
        exact ⟨h1, h3⟩
      · rintro ⟨h1, h2⟩
        exact ⟨a, _, ⟨⟨a, h1, rfl⟩, h2⟩, rfl⟩
    rw [e, halgs]
    constructor
    · rintro ⟨h1, h2⟩
      exact ⟨h1, htidy.payload.only a h1 h2⟩
    · rintro ⟨h1, h2⟩
      obtain ⟨a0, h3, h4⟩ := hv.manifest
      rw [halgs] at h3
      rw [htb] at h4
      exact ⟨h1, htidy.payload.all a0 h3 a h1 h4 h2⟩
  have hrec : ∀ (pay : Bool) (a : Str), recorded (b.source cfg).hashes (copied t contents)
      [(if pay then py!"manifest-" else py!"tagmanifest-") ++ a ++ py!".txt"] =
      manifestOf (b.source cfg).hashes (copied t contents) pay a := recorded_eq _ _
  have hmem : ∀ (pay : Bool) (a : Str), manifestOf (b.source cfg).hashes (copied t contents) pay a ≠ [] → a ∈ E.base.algs := by
    intro pay a h
    obtain ⟨l, hm⟩ := List.exists_mem_of_ne_nil _ h
    obtain ⟨f, _, _, c, hc, _⟩ := mem_manifestOf.1 hm
    rw [← halgs]
    exact (hl.line f a c ((hlook f a c).1 hc)).1
  have hm1 : ∀ a, t'.isfile [py!"manifest-" ++ a ++ py!".txt"] = true ↔
      manifestOf (b.source cfg).hashes (copied t contents) true a ≠ [] ∨ (a ∈ E.base.algs ∧ A a) := by
    intro a
    rw [(hman _ ⟨a, .inl rfl⟩).1, ← hrec true a]
    refine or_congr Iff.rfl ⟨?_, fun h => ⟨a, (hAlg a).2 h, rfl⟩⟩
    rintro ⟨a', ha', e⟩
    have : a = a' := by simpa using e
    exact this ▸ (hAlg a').1 ha'
  have hm2 : ∀ a, t'.isfile [py!"tagmanifest-" ++ a ++ py!".txt"] = true ↔
      manifestOf (b.source cfg).hashes (copied t contents) false a ≠ [] := by
    intro a
    rw [(hman _ ⟨a, .inr rfl⟩).1, ← hrec false a]
    constructor
    · rintro (h | ⟨a', _, e⟩)
      · exact h
      · simp at e
    · exact .inl
  have hnames : ∀ p, t'.isfile p = true → GoodPath p ∧ Unexpanded (joinPath p) ∧ PlainPath (joinPath p) := by
    intro p hp
    refine split_file_names hE hF hdol hf sb ?_ hp
    rintro a (h | h)
    · rcases (hm1 a).1 h with h | h
      · exact hmem true a h
      · exact h.1
    · exact hmem false a ((hm2 a).1 h)
  have hsafe : ∀ p, t'.isfile p = true → isDangerous E.base.env path (joinPath p) = false := fun p hp =>
    safe_path _ hpath (hnames p hp).1 (hnames p hp).2.1
  have nodir : ∀ a, ∀ kind, kind = py!"manifest" ∨ kind = py!"tagmanifest" → t'.isdir [kind ++ '-' :: a ++ py!".txt"] = false := by
    intro a kind hk
    cases hd : t'.isdir [kind ++ '-' :: a ++ py!".txt"] with
    | false => rfl
    | true =>
      exfalso
      have hst : Standard [kind ++ '-' :: a ++ py!".txt"] := by
        rcases hk with rfl | rfl
        · exact .inr (.inr ⟨a, .inl rfl⟩)
        · exact .inr (.inr ⟨a, .inr rfl⟩)
      have hno := ord.standard _ hst
      have hwf : WfTree (b.source cfg).tree := ord.wf
      rw [show (b.source cfg).tree = t from htb] at hno hwf
      rcases (sb.dirs _).1 hd with h | h | ⟨_, h⟩ | ⟨f, _, ⟨h1, h2⟩ | ⟨h1, h2⟩⟩
      · cases h
      · rcases hk with rfl | rfl <;> simp at h
      · rcases hk with rfl | rfl <;> simp at h
      · rw [prefix_dir hwf h1 h2] at hno; cases hno
      · obtain ⟨c, hc⟩ := isfile_iff.1 h1
        have := hwf.parent _ (mem_dkeys_iff.2 ⟨_, hc⟩)
        rw [prefix_dir hwf this h2] at hno; cases hno
  have hcn : (copied t contents).Nodup := List.Nodup.sublist List.filter_sublist hnd
  have hcp : ∀ f ∈ copied t contents, PlainPath f := fun f h => (hf f (copied_mem.1 h).1).2.1
  refine ⟨hsafe, hopen hsafe, ⟨?_, ?_⟩, fun p hp _ => ⟨(hnames p hp).2.2, safe_path _ hdest (hnames p hp).1 (hnames p hp).2.1⟩⟩
  · rw [← halgs]
    refine split_tidyKind hl hlook (hashes_nodup ho) hcn hcp (fun a _ => nodir a _ (.inl rfl)) ?_ ?_
    · intro a ha
      rw [halgs] at ha
      refine (hm1 a).trans (or_congr Iff.rfl ⟨fun h => ⟨rfl, h.2⟩, fun h => ⟨ha, h.2⟩⟩)
    · intro a _ c hc
      rw [← hrec true a]
      exact (hman _ ⟨a, .inl rfl⟩).2 c hc
  · rw [← halgs]
    refine split_tidyKind hl hlook (hashes_nodup ho) hcn hcp (fun a _ => nodir a _ (.inr rfl)) ?_ ?_
    · intro a ha
      exact (hm2 a).trans ⟨.inl, fun h => h.elim id (fun h => absurd h.1 (by decide))⟩
    · intro a _ c hc
      rw [← hrec false a]
      exact (hman _ ⟨a, .inr rfl⟩).2 c hc

end Verif
