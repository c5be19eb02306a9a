import Verif.Lemmas.RestoreWhole
/-!
# The payload manifests of a restored bag
-/

namespace Verif

open Spec

theorem slashPath_long {q : Path} (h : 2 ≤ q.length) : slashPath q = joinPath q := by
  obtain ⟨r, x, rfl⟩ := exists_concat (l := q) (by rintro rfl; simp at h)
  have hr : r ≠ [] := by rintro rfl; simp at h
  unfold slashPath
  rw [List.dropLast_concat, List.getLast?_append]
  simp only [List.getLast?_singleton, Option.some_or, Option.getD_some]
  exact (joinPath_snoc hr x).symm

theorem payload_long {p : Path} (hp : GoodPath p) (h : isPayload (joinPath p) = true) : 2 ≤ p.length := by
  match p, hp, h with
  | [], hp, _ => exact absurd rfl hp.1
  | [x], hp, h =>
    exfalso
    have hx : '/' ∉ x := (hp.2 x (by simp)).noslash
    apply hx
    unfold isPayload at h
    rw [startsWith_iff] at h
    obtain ⟨r, hr⟩ := h
    have : joinPath [x] = x := rfl
    rw [this] at hr
    rw [← hr]
    simp
  | _ :: _ :: _, _, _ => simp

theorem slashPath_payload {p q : Path} (hp : GoodPath p) (hq : GoodPath q) (h : isPayload (joinPath p) = true) :
    joinPath p = slashPath q ↔ q = p := by
  constructor
  · intro e
    match q, hq, e with
    | [], hq, _ => exact absurd rfl hq.1
    | [x], hq, e =>
      exfalso
      have : slashPath [x] = '/' :: x := rfl
      rw [e, this] at h
      unfold isPayload at h
      rw [startsWith_iff] at h
      obtain ⟨r, hr⟩ := h
      simp at hr
    | a :: b :: r, hq, e =>
      rw [slashPath_long (by simp)] at e
      exact (joinPath_inj hp hq e).symm
  · rintro rfl
    exact (slashPath_long (payload_long hp h)).symm

theorem isfile_of_recorded {kind : Str} {t : Tree} {a p h : Str} (e : Recorded kind t a p h) : dget t (manPath kind a) ≠ none := by
  obtain ⟨text, line, hr, _⟩ := e
  intro hn
  unfold manPath at hn
  rw [Tree.read, hn] at hr; cases hr

/-- Copying one source: the checksums of the payload. -/
theorem restoreFrom_sums {E : RestoreEnv} (hE : EnvOk E)
    (hutf : ∀ e, E.base.knownEncoding e = true → startsWith py!"UTF" e = true)
    {src : RSource} (hs : WfTree src.tree) (hp : src.path ≠ E.base.bagpath) {skip : List Str} (he : [] ∉ skip)
    {A : Str → Prop} (hsrc : Sums E.base.algs A src.tree) {d d' : Tree} (hd : Sums E.base.algs A d)
    (h : restoreFrom E src skip false d = .ok d') :
    Sums E.base.algs A d' ∧
    ∀ p, GoodPath p → isPayload (joinPath p) = true → ∀ a ∈ E.base.algs, ∀ v,
      (d.isfile p = true → (Recorded py!"manifest" d' a (joinPath p) v ↔ Recorded py!"manifest" d a (joinPath p) v)) ∧
      (dget d p = none → ¬ Deleted skip p → src.tree.isfile p = true →
        (Recorded py!"manifest" d' a (joinPath p) v ↔ Recorded py!"manifest" src.tree a (joinPath p) v)) := by
  obtain ⟨sb, s, hb, hr, hu⟩ := restoreFrom_parts h hp
  have hw := hE.walk _ hs
  have ha := actsOf_ok hs hw he
  -- the manifests after copying the files
  have hman : ∀ kind a, (kind = py!"manifest" ∨ kind = py!"tagmanifest") →
      s.dest.read (manPath kind a) = d.read (manPath kind a) ∨
        (dget d (manPath kind a) = none ∧ s.dest.read (manPath kind a) = src.tree.read (manPath kind a)) := by
    intro kind a _
    have h1 := runActs_ok ha hr (p := manPath kind a) (by simp [manPath])
    unfold actEffect at h1
    split at h1
    · rename_i hx
      right
      have hn : dget d (manPath kind a) = none := hx.2.resolve_left (by simp)
      refine ⟨hn, ?_⟩
      obtain ⟨_, c, hc⟩ := ha.file _ hx.1
      rw [hc, Option.map_some] at h1
      rw [hc, Tree.read, h1]
    · split at h1
      · rename_i hx
        left
        have hn : dget d (manPath kind a) = none := hx.2
        rw [Tree.read, h1, Tree.read, hn]
      · left; exact read_of_dget h1
  have hmid : Orderly E.base.algs s.dest := by
    constructor
    · intro a haa p h' hrec
      rcases hman _ a (.inl rfl) with e | ⟨_, e⟩
      · exact hd.orderly.payload a haa p h' ((recorded_of_read e).1 hrec)
      · exact hsrc.orderly.payload a haa p h' ((recorded_of_read e).1 hrec)
    · intro a haa p h' hrec
      rcases hman _ a (.inr rfl) with e | ⟨_, e⟩
      · exact hd.orderly.tag a haa p h' ((recorded_of_read e).1 hrec)
      · exact hsrc.orderly.tag a haa p h' ((recorded_of_read e).1 hrec)
  have honly : ∀ a ∈ E.base.algs, ¬ A a → ∀ p v, ¬ Recorded py!"manifest" s.dest a p v := by
    intro a haa hna p v hrec
    rcases hman _ a (.inl rfl) with e | ⟨_, e⟩
    · exact hd.only a haa hna p v ((recorded_of_read e).1 hrec)
    · exact hsrc.only a haa hna p v ((recorded_of_read e).1 hrec)
  -- files that were there
  have hkeep : ∀ p, GoodPath p → isPayload (joinPath p) = true → d.isfile p = true → ∀ a ∈ E.base.algs, ∀ v,
      (Recorded py!"manifest" s.dest a (joinPath p) v ↔ Recorded py!"manifest" d a (joinPath p) v) := by
    intro p hg hpay hf a haa v
    rcases hman _ a (.inl rfl) with e | ⟨hn, e⟩
    · exact recorded_of_read e
    · by_cases hA : A a
      · obtain ⟨v', hv'⟩ := hd.listed p hg hpay hf a haa hA
        exact absurd hn (isfile_of_recorded hv')
      · exact ⟨fun h => absurd h (honly a haa hA _ _), fun h => absurd h (hd.only a haa hA _ _)⟩
  -- which files were copied
  have hupd : ∀ p, GoodPath p → isPayload (joinPath p) = true →
      (joinPath p ∈ s.updated ↔ src.tree.isfile p = true ∧ ¬ Deleted skip p ∧ dget d p = none) := by
    intro p hg hpay
    rw [runActs_updated ha hr]
    simp only [List.not_mem_nil, false_or]
    constructor
    · rintro ⟨q, hq, hn, hpq⟩
      have hqa := (file_mem_acts hs hw he).1 hq
      have : q = p := (slashPath_payload hg (file_ne_nil hs hqa.1) hpay).1 hpq
      subst this
      exact ⟨hqa.1, hqa.2, hn.resolve_left (by simp)⟩
    · rintro ⟨h1, h2, h3⟩
      exact ⟨p, (file_mem_acts hs hw he).2 ⟨h1, h2⟩, .inr h3, (slashPath_payload hg hg hpay).2 rfl⟩
  have hdfile : ∀ p, GoodPath p → s.dest.isfile p = true → d.isfile p = true ∨ (src.tree.isfile p = true ∧ ¬ Deleted skip p ∧ dget d p = none) := by
    intro p hg hf
    have h1 := runActs_ok ha hr hg.1
    unfold actEffect at h1
    split at h1
    · rename_i hx
      have := (file_mem_acts hs hw he).1 hx.1
      exact .inr ⟨this.1, this.2, hx.2.resolve_left (by simp)⟩
    · split at h1
      · obtain ⟨c, hc⟩ := isfile_iff.1 hf
        rw [h1] at hc; cases hc
      · left; rw [← isfile_of_dget h1]; exact hf
  rcases hu with ⟨hu0, rfl⟩ | ⟨hu0, hu⟩
  · -- nothing copied
    have hno : ∀ p, GoodPath p → isPayload (joinPath p) = true → ¬ (src.tree.isfile p = true ∧ ¬ Deleted skip p ∧ dget d p = none) := by
      intro p hg hpay hx
      have := (hupd p hg hpay).2 hx
      rw [hu0] at this; cases this
    refine ⟨⟨hmid, honly, ?_⟩, ?_⟩
    · intro p hg hpay hf a haa hA
      rcases hdfile p hg hf with h1 | h1
      · obtain ⟨v, hv⟩ := hd.listed p hg hpay h1 a haa hA
        exact ⟨v, (hkeep p hg hpay h1 a haa v).2 hv⟩
      · exact absurd h1 (hno p hg hpay)
    · intro p hg hpay a haa v
      exact ⟨fun hf => hkeep p hg hpay hf a haa v, fun h1 h2 h3 => absurd ⟨h3, h2, h1⟩ (hno p hg hpay)⟩
  · -- the manifests are updated
    obtain ⟨_, hl, _, _, _, _, _, _, _, _, henc⟩ := openBag_parts hb
    have henc : startsWith py!"UTF" sb.encoding = true := hutf _ henc
    have hsl : ∀ {p a c}, isPayload p = true → (sb.entries.look p a = some c ↔ a ∈ E.base.algs ∧ Recorded py!"manifest" src.tree a p c) :=
      fun {p a c} hpay => Orderly.look (cfg := { E.base with bagpath := src.path }) hsrc.orderly hb henc hpay
    cases hbd : openBag E.base s.dest with
    | error e => unfold updateManifests at hu; rw [hbd] at hu; cases hu
    | ok b =>
      obtain ⟨_, _, _, _, _, _, _, _, _, _, henc2⟩ := openBag_parts hbd
      have henc2 : startsWith py!"UTF" b.encoding = true := hutf _ henc2
      have hes : ∀ e ∈ sb.entries, (dkeys e.2).Nodup := fun e he => ((entries_inv hl).2 e he).2
      obtain ⟨r1, r2⟩ := updateManifests_recorded hbd henc2 hmid hu hes
        (fun p a v hlk => Orderly.plain (cfg := { E.base with bagpath := src.path }) hsrc.orderly hb henc hlk)
      have hnew : ∀ p, GoodPath p → isPayload (joinPath p) = true → ∀ a ∈ E.base.algs, ∀ v,
          (src.tree.isfile p = true ∧ ¬ Deleted skip p ∧ dget d p = none) →
          (Recorded py!"manifest" d' a (joinPath p) v ↔ Recorded py!"manifest" src.tree a (joinPath p) v) := by
        intro p hg hpay a haa v hx
        rw [r2 a haa _ hpay]
        by_cases hA : A a
        · obtain ⟨v', hv'⟩ := hsrc.listed p hg hpay hx.1 a haa hA
          have hlk := (hsl hpay).2 ⟨haa, hv'⟩
          rw [if_pos ⟨(hupd p hg hpay).2 hx, by rw [hlk]; rfl⟩, hsl hpay]
          exact ⟨fun h => h.2, fun h => ⟨haa, h⟩⟩
        · have hnl : sb.entries.look (joinPath p) a = none := by
            cases hlk : sb.entries.look (joinPath p) a with
            | none => rfl
            | some c => exact absurd ((hsl hpay).1 hlk).2 (hsrc.only a haa hA _ _)
          rw [if_neg (by rw [hnl]; simp)]
          exact ⟨fun h => absurd h (honly a haa hA _ _), fun h => absurd h (hsrc.only a haa hA _ _)⟩
      have hold : ∀ p, GoodPath p → isPayload (joinPath p) = true → d.isfile p = true → ∀ a ∈ E.base.algs, ∀ v,
          (Recorded py!"manifest" d' a (joinPath p) v ↔ Recorded py!"manifest" d a (joinPath p) v) := by
        intro p hg hpay hf a haa v
        rw [r2 a haa _ hpay, if_neg]
        · exact hkeep p hg hpay hf a haa v
        · rintro ⟨hx, _⟩
          have := ((hupd p hg hpay).1 hx).2.2
          obtain ⟨c, hc⟩ := isfile_iff.1 hf
          rw [this] at hc; cases hc
      have hfile' : ∀ p, GoodPath p → isPayload (joinPath p) = true → d'.isfile p = s.dest.isfile p := by
        intro p hg hpay
        refine isfile_of_dget (updateManifests_frame hu hes ?_)
        have := payload_long hg hpay
        rintro ⟨a, rfl | rfl⟩ <;> simp at this
      refine ⟨⟨r1, ?_, ?_⟩, fun p hg hpay a haa v => ⟨fun hf => hold p hg hpay hf a haa v, fun h1 h2 h3 => hnew p hg hpay a haa v ⟨h3, h2, h1⟩⟩⟩
      · intro a haa hA p v hrec
        have hpay := (r1.payload a haa p v hrec).1
        rw [r2 a haa p hpay] at hrec
        split at hrec
        · exact hsrc.only a haa hA _ _ ((hsl hpay).1 hrec).2
        · exact honly a haa hA _ _ hrec
      · intro p hg hpay hf a haa hA
        rw [hfile' p hg hpay] at hf
        rcases hdfile p hg hf with h1 | h1
        · obtain ⟨v, hv⟩ := hd.listed p hg hpay h1 a haa hA
          exact ⟨v, (hold p hg hpay h1 a haa v).2 hv⟩
        · obtain ⟨v, hv⟩ := hsrc.listed p hg hpay h1.1 a haa hA
          exact ⟨v, (hnew p hg hpay a haa v h1).2 hv⟩

/-- Copying several sources. -/
theorem restoreList_sums {E : RestoreEnv} (hE : EnvOk E)
    (hutf : ∀ e, E.base.knownEncoding e = true → startsWith py!"UTF" e = true)
    {skip : List Str} (he : [] ∉ skip) {A : Str → Prop} {srcs : List RSource}
    (hs : ∀ s ∈ srcs, (WfTree s.tree ∧ s.path ≠ E.base.bagpath) ∧ Sums E.base.algs A s.tree)
    {d d' : Tree} (hd : Sums E.base.algs A d) (h : restoreList E skip srcs d = .ok d') :
    ∀ p, GoodPath p → isPayload (joinPath p) = true → ∀ a ∈ E.base.algs, ∀ v,
      (d.isfile p = true → (Recorded py!"manifest" d' a (joinPath p) v ↔ Recorded py!"manifest" d a (joinPath p) v)) ∧
      (dget d p = none → ¬ Deleted skip p → ∀ pre s post, srcs = pre ++ s :: post → (∀ x ∈ pre, dget x.tree p = none) →
        s.tree.isfile p = true →
        (Recorded py!"manifest" d' a (joinPath p) v ↔ Recorded py!"manifest" s.tree a (joinPath p) v)) := by
  induction srcs generalizing d with
  | nil =>
    cases h
    intro p _ _ a _ v
    exact ⟨fun _ => Iff.rfl, fun _ _ pre s post e => by simp at e⟩
  | cons x srcs ih =>
    simp only [restoreList] at h
    cases h1 : restoreFrom E x skip false d with
    | error e => rw [h1] at h; cases h
    | ok d1 =>
      rw [h1] at h
      simp only at h
      obtain ⟨⟨hxw, hxp⟩, hxs⟩ := hs x List.mem_cons_self
      obtain ⟨s1, s2⟩ := restoreFrom_sums hE hutf hxw hxp he hxs hd h1
      have ih := ih (fun s hx => hs s (List.mem_cons_of_mem _ hx)) s1 h
      intro p hg hpay a haa v
      have hman : ¬ ManifestFile p := by
        have := payload_long hg hpay
        rintro ⟨a, rfl | rfl⟩ <;> simp at this
      obtain ⟨k1, k2, k3⟩ := restoreFrom_read hE hxw he h1 hxp hg.1 hman
      obtain ⟨i1, i2⟩ := ih p hg hpay a haa v
      obtain ⟨j1, j2⟩ := s2 p hg hpay a haa v
      constructor
      · intro hf
        have hf1 : d1.isfile p = true := by
          obtain ⟨c, hc⟩ := isfile_iff.1 hf
          rw [isfile_of_dget (k1 (by rw [hc]; simp))]; exact hf
        rw [i1 hf1, j1 hf]
      · intro hn hx pre s post hsp hpre hsf
        cases pre with
        | nil =>
          simp only [List.nil_append, List.cons.injEq] at hsp
          obtain ⟨rfl, rfl⟩ := hsp
          have hf1 : d1.isfile p = true := by
            rw [isfile_of_dget (k3 hn hx)]; exact hsf
          rw [i1 hf1, j2 hn hx hsf]
        | cons y pre =>
          simp only [List.cons_append, List.cons.injEq] at hsp
          obtain ⟨rfl, rfl⟩ := hsp
          have hd1 : dget d1 p = none := by rw [k3 hn hx]; exact hpre _ List.mem_cons_self
          exact i2 hd1 hx pre s post rfl (fun z hz => hpre z (List.mem_cons_of_mem _ hz)) hsf

end Verif
