import Verif.Spec.Editions
import Verif.Props.ReadBag
/-!
# C110: editions published one after another
-/

namespace Verif

open Spec

/-! ## One edition -/

/-- Metadata that an amendment can take over. -/
structure Able (info : Info) : Prop where
  profile : verLt (profileVersion info) py!"0.3" = false
  once : fields info py!"Multibag-Version" = [] ∨ ∃ v, fields info py!"Multibag-Version" = [v]
  texts : ∀ v ∈ profileVersion info :: oldVersion info :: fields info py!"Multibag-Head-Deprecates", OneLine v

theorem oldVersion_of {info : Info} {v : Str} (h : VersionIs info v) : oldVersion info = v := by
  unfold oldVersion
  rcases h with h | ⟨h, rfl⟩
  · rw [h]
  · rw [dget_eq_none_iff.2 h]

theorem able_of_startable {info : Info} (h : Startable info) : Able info := by
  refine ⟨h.profile, h.once, ?_⟩
  intro v hv
  rcases List.mem_cons.1 hv with rfl | hv
  · exact h.texts _ List.mem_cons_self
  rcases List.mem_cons.1 hv with rfl | hv
  · obtain ⟨w, h1, h2⟩ := h.version
    rw [oldVersion_of h1]; exact h2
  · exact h.texts _ (List.mem_cons_of_mem _ hv)

theorem dget_one_of_fields {info : Info} (hl : Loaded info) {k v : Str} (h : fields info k = [v]) :
    dget info k = some (.one v) := by
  unfold fields at h
  cases hg : dget info k with
  | none => rw [hg] at h; cases h
  | some w =>
    rw [hg] at h
    have := hl k w hg
    cases w with
    | one s => simp only [InfoVal.values, List.cons.injEq, and_true] at h; rw [h]
    | many l => simp only [InfoVal.values] at h; rw [h] at this; simp at this

/-- What one edition leaves. -/
structure Step (E : SaveEnv) (old : Amendee) (e : Edition) (oms : List MemberInfo) (oes : List (Str × Str)) (u : Tree)
    (s' : HeadBag) : Prop where
  amended : Amended E e.keep old e.me e.version e.bags e.tree e.info oms oes u s'
  tree : e.after.tree = s'.tree
  dir : tagDir e.after.info = tagDir e.info
  ok : InfoOk e.after.info
  version : dget e.after.info py!"Multibag-Head-Version" = some (.one e.version)
  deprecates : fields e.after.info py!"Multibag-Head-Deprecates" =
    fields old.info py!"Multibag-Head-Deprecates" ++ [oldVersion old.info]
  able : Able e.after.info

theorem published_step {E : SaveEnv} {cfg : ReadCfg} {old : Amendee} {e : Edition} (hp : Published E cfg old e)
    (ha : Able old.info) (hl : e.Lettered) (hsz : ∀ t, OneLine (E.size t)) :
    ∃ oms oes u s', Step E old e oms oes u s' := by
  obtain ⟨s', hs, ht⟩ := hp.done
  obtain ⟨b, hb, htag, hi⟩ := hp.again
  rw [ht] at hb
  obtain ⟨oms, oes, u, a⟩ := amended hp.opened (fun _ => ha.profile) hs
  obtain ⟨hf, hpv, hdir, hok⟩ := amended_reopened a hp.opened hl.keys hl.clean ha.texts hl.version hsz (fun _ => ha.once) hb htag
  rw [← hi] at hf hpv hdir hok
  have hlo : Loaded e.after.info := by rw [hi]; exact loaded_openBag hb
  obtain ⟨t0, en⟩ := a.newInfo
  obtain ⟨f1, _, _, f4, _⟩ := C20_sets_fields (fun _ => E.size t0) (some e.version)
    (if e.keep then profileVersion old.info else CURRENT_VERSION) (initInfo e.keep old.info e.info)
  rw [← en] at f1 f4
  have hver : dget e.after.info py!"Multibag-Head-Version" = some (.one e.version) := by
    refine dget_one_of_fields hlo ?_
    rw [hf, f4]
    cases hx : e.version with
    | nil => exact absurd hx hl.given
    | cons x xs => rfl
  have hdep : fields e.after.info py!"Multibag-Head-Deprecates" =
      fields old.info py!"Multibag-Head-Deprecates" ++ [oldVersion old.info] := by
    rw [hf, en, C20_preserves _ _ _ _ _ (by decide), fields_initInfo, if_pos rfl]
  have hprof : profileVersion e.after.info = if e.keep then profileVersion old.info else CURRENT_VERSION := by
    unfold profileVersion infoItem
    rw [dget_one_of_fields hlo ((hf _).trans f1)]
    rfl
  refine ⟨oms, oes, u, s', a, ht, ?_, hok, hver, hdep, hok.ver, .inr ⟨_, (hf _).trans f1⟩, ?_⟩
  · rw [hdir, en, tagDir_updateInfo, tagDir_initInfo]
  · intro v hv
    rcases List.mem_cons.1 hv with rfl | hv
    · rw [hprof]
      cases e.keep with
      | true => exact ha.texts _ List.mem_cons_self
      | false => show OneLine CURRENT_VERSION; exact oneLine_of_check (by decide +kernel)
    rcases List.mem_cons.1 hv with rfl | hv
    · rw [oldVersion_of (.inl hver)]; exact hl.version
    · rw [hdep] at hv
      rcases List.mem_append.1 hv with hv | hv
      · exact ha.texts _ (List.mem_cons_of_mem _ (List.mem_cons_of_mem _ hv))
      · rw [List.mem_singleton] at hv
        subst hv
        exact ha.texts _ (List.mem_cons_of_mem _ List.mem_cons_self)

/-! ## Any number of editions -/

theorem latest_snoc (first : Amendee) (es : List Edition) (e : Edition) : latest first (es ++ [e]) = e.after := by
  simp [latest]

theorem editions_snoc {E : SaveEnv} {cfg : ReadCfg} {first : Amendee} {es : List Edition} {e : Edition}
    (h : Editions E cfg first (es ++ [e])) : Editions E cfg first es ∧ Published E cfg (latest first es) e := by
  generalize hl : es ++ [e] = l at h
  cases h with
  | none => simp at hl
  | next before now =>
    have := List.append_inj' hl rfl
    obtain ⟨rfl, he⟩ := this
    cases he
    exact ⟨before, now⟩

theorem editions_prefix {E : SaveEnv} {cfg : ReadCfg} {first : Amendee} {es later : List Edition}
    (h : Editions E cfg first (es ++ later)) : Editions E cfg first es := by
  induction later generalizing es with
  | nil => simpa using h
  | cons e later ih =>
    refine (editions_snoc (ih (es := es ++ [e]) ?_)).1
    rwa [List.append_assoc]

theorem able_latest {E : SaveEnv} {cfg : ReadCfg} {first : Amendee} {es : List Edition} (h : Editions E cfg first es)
    (h0 : Startable first.info) (hl : ∀ e ∈ es, e.Lettered) (hsz : ∀ t, OneLine (E.size t)) : Able (latest first es).info := by
  induction h with
  | none => exact able_of_startable h0
  | next before now ih =>
    rw [latest_snoc]
    obtain ⟨_, _, _, _, s⟩ := published_step now (ih (fun x hx => hl x (by simp [hx]))) (hl _ (by simp)) hsz
    exact s.able

/-- The step for the last edition. -/
theorem last_step {E : SaveEnv} {cfg : ReadCfg} {first : Amendee} {es : List Edition} {e : Edition}
    (h : Editions E cfg first (es ++ [e])) (h0 : Startable first.info) (hl : ∀ x ∈ es ++ [e], x.Lettered)
    (hsz : ∀ t, OneLine (E.size t)) : ∃ oms oes u s', Step E (latest first es) e oms oes u s' := by
  obtain ⟨h1, h2⟩ := editions_snoc h
  exact published_step h2 (able_latest h1 h0 (fun x hx => hl x (by simp [hx])) hsz) (hl e (by simp)) hsz

/-! ## Versions -/

theorem versions_latest {E : SaveEnv} {cfg : ReadCfg} {first : Amendee} {es : List Edition} (h : Editions E cfg first es)
    (h0 : Startable first.info) (hl : ∀ e ∈ es, e.Lettered) (hsz : ∀ t, OneLine (E.size t)) :
    fields (latest first es).info py!"Multibag-Head-Deprecates" ++ [oldVersion (latest first es).info] =
      fields first.info py!"Multibag-Head-Deprecates" ++ [oldVersion first.info] ++ es.map (·.version) := by
  induction h with
  | none => simp [latest]
  | next before now ih =>
    have hl' := fun x hx => hl x (List.mem_append_left _ hx)
    obtain ⟨_, _, _, _, s⟩ := published_step now (able_latest before h0 hl' hsz) (hl _ (by simp)) hsz
    rw [latest_snoc, s.deprecates, ih hl', oldVersion_of (.inl s.version)]
    simp

/-- C110, versions: the head bag of every edition says which version it is, and that it deprecates what the first bag
deprecated, the version of the first bag and those of all editions before it, in the order in which they were published,
whatever is published later. -/
theorem C110_versions (E : SaveEnv) (cfg : ReadCfg) (first : Amendee) (es : List Edition) (e : Edition) (later : List Edition)
    (h : Editions E cfg first (es ++ e :: later)) (h0 : Startable first.info)
    (hl : ∀ x ∈ es ++ [e], x.Lettered) (hsz : ∀ t, OneLine (E.size t)) (v : Str) (hv : VersionIs first.info v) :
    VersionIs e.after.info e.version ∧
    fields e.after.info py!"Multibag-Head-Deprecates" =
      fields first.info py!"Multibag-Head-Deprecates" ++ v :: es.map (·.version) := by
  have h1 : Editions E cfg first (es ++ [e]) := editions_prefix (later := later) (by rwa [List.append_assoc])
  obtain ⟨_, _, _, _, s⟩ := last_step h1 h0 hl hsz
  refine ⟨.inl s.version, ?_⟩
  rw [s.deprecates, versions_latest (editions_snoc h1).1 h0 (fun x hx => hl x (by simp [hx])) hsz, oldVersion_of hv]
  simp

/-! ## Members -/

theorem keepLast_append (a b : List MemberInfo) :
    keepLast (a ++ b) = (keepLast a).filter (fun m => decide (m.name ∉ b.map (·.name))) ++ keepLast b := by
  induction a with
  | nil => rfl
  | cons m a ih =>
    simp only [List.cons_append, keepLast, List.map_append, List.mem_append]
    by_cases h1 : m.name ∈ a.map (·.name)
    · rw [if_pos (.inl h1), if_pos h1, ih]
    · by_cases h2 : m.name ∈ b.map (·.name)
      · rw [if_pos (.inr h2), if_neg h1, ih, List.filter_cons_of_neg (by simpa using h2)]
      · rw [if_neg (by simp [h1, h2]), if_neg h1, ih, List.filter_cons_of_pos (by simpa using h2)]
        rfl

theorem members_latest {E : SaveEnv} {cfg : ReadCfg} {first : Amendee} {es : List Edition} (h : Editions E cfg first es)
    (h0 : Startable first.info) (hl : ∀ e ∈ es, e.Lettered) (hsz : ∀ t, OneLine (E.size t))
    {oms : List MemberInfo} {bags : List (Str × Tree)} (hb : Beginning first oms bags)
    (hw : Spec.Writable (oms ++ es.flatMap Edition.records)) :
    (es ≠ [] → ∀ mode, iterMembers mode (latest first es).tree (latest first es).info =
      .ok (keepLast (oms ++ es.flatMap Edition.records))) ∧
    ∃ ms, (latest first es).members = .ok ms ∧ keepLast ms = keepLast (oms ++ es.flatMap Edition.records) ∧
      ∀ m ∈ ms, m ∈ oms ++ es.flatMap Edition.records := by
  induction h with
  | none =>
    refine ⟨fun h => absurd rfl h, oms, ?_, by simp, by simp⟩
    show Amendee.members first = _
    unfold Amendee.members isHeadInfo
    cases hb with
    | head h ho _ => rw [if_pos (dmem_iff.2 h), ho]
    | single h => rw [if_neg (fun hc => h (dmem_iff.1 hc))]
  | @next es e before now ih =>
    have hl' := fun x hx => hl x (List.mem_append_left _ hx)
    have hw' : Spec.Writable (oms ++ es.flatMap Edition.records) := by
      intro m hm
      refine hw m ?_
      rw [List.flatMap_append, ← List.append_assoc]
      exact List.mem_append_left _ hm
    obtain ⟨_, ms, hms, hk, hin⟩ := ih hl' hw'
    obtain ⟨oms', oes, u, s', s⟩ := published_step now (able_latest before h0 hl' hsz) (hl _ (by simp)) hsz
    have e1 := s.amended.oldMembers
    rw [hms] at e1
    cases e1
    have hkl : keepLast (ms ++ e.bags.map record ++ [headRecord e.me]) = keepLast (oms ++ (es ++ [e]).flatMap Edition.records) := by
      rw [List.append_assoc, keepLast_append, hk, ← keepLast_append, List.flatMap_append]
      simp [Edition.records]
    obtain ⟨text, t1, t2⟩ := s.amended.memberText
    rw [hkl] at t1
    have hread : ∀ mode, iterMembers mode e.after.tree e.after.info =
        .ok (keepLast (oms ++ (es ++ [e]).flatMap Edition.records)) := by
      intro mode
      obtain ⟨text', r1, r2⟩ := C06_members_roundtrip mode (keepLast (oms ++ (es ++ [e]).flatMap Edition.records))
        (fun m hm => (hw m (mem_keepLast hm)).1) (fun m hm => (hw m (mem_keepLast (List.mem_of_mem_head? hm))).2)
      rw [t1] at r1
      cases r1
      rw [iterMembers_03 s.ok, s.dir, s.tree, t2]
      exact r2
    rw [latest_snoc]
    refine ⟨fun _ => hread, _, ?_, ?_, fun m hm => mem_keepLast hm⟩
    · unfold Amendee.members isHeadInfo
      rw [if_pos (dmem_iff.2 (mem_dkeys_iff.2 ⟨_, s.version⟩))]
      exact hread _
    · exact keepLast_of_nodup (nodup_keepLast _)

/-- C110, members: the member list of every edition is that of the aggregation it began with, then the bags of the
editions in the order in which they were published, its own head bag last; a bag that was named more than once stands
where it was named last.  This is what the head bag's own list says and what reading the file gives. -/
theorem C110_members (E : SaveEnv) (cfg : ReadCfg) (first : Amendee) (es : List Edition) (e : Edition) (later : List Edition)
    (h : Editions E cfg first (es ++ e :: later)) (h0 : Startable first.info)
    (hl : ∀ x ∈ es ++ [e], x.Lettered) (hsz : ∀ t, OneLine (E.size t))
    (oms : List MemberInfo) (bags : List (Str × Tree)) (hb : Beginning first oms bags)
    (hw : Spec.Writable (oms ++ (es ++ [e]).flatMap Edition.records)) :
    (∀ mode, iterMembers mode e.after.tree e.after.info = .ok (keepLast (oms ++ (es ++ [e]).flatMap Edition.records))) ∧
    ((HeadBag.open e.after.tree e.after.info).memberBags).1 = .ok (keepLast (oms ++ (es ++ [e]).flatMap Edition.records)) := by
  have h1 : Editions E cfg first (es ++ [e]) := editions_prefix (later := later) (by rwa [List.append_assoc])
  have := (members_latest h1 h0 hl hsz hb hw).1 (by simp)
  rw [latest_snoc] at this
  refine ⟨this, ?_⟩
  rw [memberBags_fst]
  simp only [membersView, HeadBag.open, this]

/-! ## Lookup -/

theorem lastOwner_append {a b : List (Str × Tree)} {q n : Str} (h : LastOwner (a ++ b) q n) :
    LastOwner b q n ∨ (LastOwner a q n ∧ ∀ x ∈ b, ¬ Payload x.2 q) := by
  obtain ⟨pre, t, post, e, hp, hn⟩ := h
  rcases List.append_eq_append_iff.1 e with ⟨c, e1, e2⟩ | ⟨c, e1, e2⟩
  · cases c with
    | nil =>
      rw [List.nil_append] at e2
      exact .inl ⟨[], t, post, by rw [e2]; rfl, hp, hn⟩
    | cons x c =>
      exact .inl ⟨x :: c, t, post, e2, hp, hn⟩
  · cases c with
    | nil =>
      rw [List.nil_append] at e2
      exact .inl ⟨[], t, post, by rw [← e2]; rfl, hp, hn⟩
    | cons x c =>
      simp only [List.cons_append, List.cons.injEq] at e2
      obtain ⟨rfl, rfl⟩ := e2
      exact .inr ⟨⟨pre, t, c, e1, hp, fun y hy => hn y (List.mem_append_left _ hy)⟩,
        fun y hy => hn y (List.mem_append_right _ hy)⟩

theorem lastFor_table {d : List (Str × Str)} (h : TableOk d) (q : Str) : lastFor d q = dget d q := by
  cases hg : dget d q with
  | none =>
    cases hx : lastFor d q with
    | none => rfl
    | some n =>
      have := (dget_iff_mem h.nodup).2 (mem_of_lastFor hx)
      rw [hg] at this; cases this
  | some n =>
    have hm := (dget_iff_mem h.nodup).1 hg
    cases hx : lastFor d q with
    | none =>
      exfalso
      unfold lastFor at hx
      rw [Option.map_eq_none_iff, List.find?_eq_none] at hx
      exact hx _ (List.mem_reverse.2 hm) (by simp)
    | some m =>
      have := (dget_iff_mem h.nodup).2 (mem_of_lastFor hx)
      rw [hg] at this
      exact this.symm

/-- What the lookup entries of the last head bag say. -/
def Says (first : Amendee) (parts : List (Str × Tree)) (f : Str → Option Str) : Prop :=
  ∀ q, (∀ n, LastOwner parts q n → f q = some n) ∧ ((∀ b ∈ parts, ¬ Payload b.2 q) → LookedUp first q (f q))

theorem says_mem {first : Amendee} {parts : List (Str × Tree)} {f : Str → Option Str} (h : Says first parts f) {q n : Str}
    (hq : f q = some n) : (∃ b ∈ parts, b.1 = n ∧ Payload b.2 q) ∨ LookedUp first q (some n) := by
  by_cases hex : ∃ b ∈ parts, Payload b.2 q
  · left
    have : ∀ l : List (Str × Tree), (∃ b ∈ l, Payload b.2 q) → ∃ m, LastOwner l q m := by
      intro l
      induction l with
      | nil => rintro ⟨b, hb, _⟩; cases hb
      | cons x l ih =>
        rintro ⟨b, hb, hp⟩
        by_cases hl : ∃ b ∈ l, Payload b.2 q
        · obtain ⟨m, pre, t, post, e, h1, h2⟩ := ih hl
          exact ⟨m, x :: pre, t, post, by rw [e]; rfl, h1, h2⟩
        · rcases List.mem_cons.1 hb with rfl | hb
          · exact ⟨b.1, [], b.2, l, rfl, hp, fun y hy hc => hl ⟨y, hy, hc⟩⟩
          · exact absurd ⟨b, hb, hp⟩ hl
    obtain ⟨m, ho⟩ := this parts hex
    have hm := (h q).1 m ho
    rw [hq] at hm
    cases hm
    obtain ⟨pre, t, post, e, h1, _⟩ := ho
    exact ⟨(n, t), by rw [e]; simp, rfl, h1⟩
  · right
    have := (h q).2 (fun b hb hc => hex ⟨b, hb, hc⟩)
    rwa [hq] at this

theorem says_step {E : SaveEnv} {first old : Amendee} {e : Edition} {oms : List MemberInfo} {oes : List (Str × Str)} {u : Tree}
    {s' : HeadBag} (s : Step E old e oms oes u s') {parts : List (Str × Tree)} (hs : Says first parts (lastFor oes))
    (hO : Amendable e.bags e.me e.tree e.info) (hn : ((parts ++ e.parts).map Prod.fst).Nodup)
    (hnew : ∀ q n, LookedUp first q (some n) → n ∉ (parts ++ e.parts).map Prod.fst)
    (hpl : ∀ q n, LookedUp first q (some n) → Plain q ∧ Plain n)
    (hpp : ∀ b ∈ parts, Plain b.1 ∧ ∀ q, Payload b.2 q → Plain q) :
    ∃ d, TableOk d ∧ lookupView (HeadBag.open e.after.tree e.after.info) = .ok d ∧
      (∀ mode x, iterLookup mode e.after.tree e.after.info = .ok x → x = d) ∧ Says first (parts ++ e.parts) (dget d) := by
  obtain ⟨d, hok, hpd, hview, hfile, hd⟩ := amended_table s.amended hO (by
    intro q n hq
    rcases says_mem hs hq with ⟨b, hb, rfl, hp⟩ | h
    · exact ⟨(hpp b hb).2 q hp, (hpp b hb).1⟩
    · exact hpl q n h)
  obtain ⟨t0, ei⟩ := s.amended.newInfo
  have hdir : tagDir s'.info = tagDir e.info := by
    rw [ei, tagDir_updateInfo, tagDir_initInfo]
  refine ⟨d, hok, ?_, ?_, ?_⟩
  · rw [← hview]
    simp only [lookupView, HeadBag.open, iterLookup_03 s.ok, iterLookup_03 s.amended.infoOk, s.dir, s.tree, hdir]
  · intro mode x hx
    rw [iterLookup_03 s.ok, s.dir, s.tree] at hx
    rcases hfile with ⟨_, hr⟩ | hr
    · rw [hr] at hx; cases hx
    · rw [hr] at hx
      simp only at hx
      rw [C07_lookup_roundtrip mode d (fun y hy => ⟨(hpd y hy).1.clean, (hpd y hy).2.clean⟩)
        (fun y hy => (hpd y (List.mem_of_mem_head? hy)).1.nobom)] at hx
      exact (Except.ok.inj hx).symm
  · rw [List.map_append] at hn hnew
    have hn' := List.nodup_append.1 hn
    intro q
    constructor
    · intro n ho
      rcases lastOwner_append ho with ho | ⟨ho, hno⟩
      · exact (hd q).1 n hn'.2.1 ho
      · rw [(hd q).2 hno, (hs q).1 n ho]
        simp only
        rw [if_neg]
        intro hmem
        obtain ⟨pre, t, post, e1, _, _⟩ := ho
        exact hn'.2.2 n (by rw [e1]; simp) n hmem rfl
    · intro hno
      have h1 := (hs q).2 (fun b hb => hno b (List.mem_append_left _ hb))
      rw [(hd q).2 (fun b hb => hno b (List.mem_append_right _ hb))]
      cases hl : lastFor oes q with
      | none => rwa [hl] at h1
      | some n =>
        rw [hl] at h1
        simp only
        rw [if_neg]
        · exact h1
        · exact fun hmem => hnew q n h1 (List.mem_append_right _ hmem)

theorem says_first {first : Amendee} (hw : py!"Multibag-Head-Version" ∉ dkeys first.info → WfTree first.tree)
    {oes : List (Str × Str)} (h : first.lookup = .ok oes) :
    Says first [] (lastFor oes) := by
  intro q
  constructor
  · rintro n ⟨pre, t, post, e, _⟩
    simp at e
  · intro _
    unfold Amendee.lookup isHeadInfo at h
    by_cases hh : py!"Multibag-Head-Version" ∈ dkeys first.info
    · rw [if_pos (dmem_iff.2 hh)] at h
      exact .head hh h
    · rw [if_neg (fun hc => hh (dmem_iff.1 hc))] at h
      cases h
      rw [lastFor_map]
      by_cases hp : Payload first.tree q
      · rw [if_pos ((mem_amendPayload (hw hh) _ q).2 hp)]
        exact .own hh hp
      · rw [if_neg (fun hc => hp ((mem_amendPayload (hw hh) _ q).1 hc))]
        exact .nowhere hh hp

theorem says_latest {E : SaveEnv} {cfg : ReadCfg} {first : Amendee} {es : List Edition} (h : Editions E cfg first es)
    (h0 : Startable first.info) (hl : ∀ e ∈ es, e.Lettered) (hsz : ∀ t, OneLine (E.size t))
    (hw : py!"Multibag-Head-Version" ∉ dkeys first.info → WfTree first.tree)
    (hO : ∀ e ∈ es, Amendable e.bags e.me e.tree e.info)
    (hn : ((es.flatMap Edition.parts).map Prod.fst).Nodup)
    (hnew : ∀ q n, LookedUp first q (some n) → n ∉ (es.flatMap Edition.parts).map Prod.fst)
    (hpl : ∀ q n, LookedUp first q (some n) → Plain q ∧ Plain n) :
    (∀ x, (latest first es).lookup = .ok x → Says first (es.flatMap Edition.parts) (lastFor x)) ∧
    (es ≠ [] → ∃ d, lookupView (HeadBag.open (latest first es).tree (latest first es).info) = .ok d ∧
      Says first (es.flatMap Edition.parts) (dget d)) := by
  induction h with
  | none => exact ⟨fun x hx => says_first hw hx, fun h => absurd rfl h⟩
  | @next es e before now ih =>
    have hl' := fun x hx => hl x (List.mem_append_left _ hx)
    have hfl : (es ++ [e]).flatMap Edition.parts = es.flatMap Edition.parts ++ e.parts := by
      rw [List.flatMap_append]; simp
    rw [hfl] at hn hnew
    have hn1 := hn
    rw [List.map_append] at hn1
    have ih' := (ih hl' (fun x hx => hO x (List.mem_append_left _ hx)) (List.nodup_append.1 hn1).1 (fun q n hq hc =>
      hnew q n hq (by rw [List.map_append]; exact List.mem_append_left _ hc))).1
    obtain ⟨oms', oes, u, s', s⟩ := published_step now (able_latest before h0 hl' hsz) (hl _ (by simp)) hsz
    obtain ⟨d, hok, hview, hread, hsays⟩ := says_step s (ih' _ s.amended.oldLookup) (hO e (by simp)) hn hnew hpl (by
      intro b hb
      obtain ⟨x, hx, hb⟩ := List.mem_flatMap.1 hb
      have := hO x (List.mem_append_left _ hx)
      exact ⟨this.names b hb, this.files b hb⟩)
    rw [latest_snoc, hfl]
    refine ⟨?_, fun _ => ⟨d, hview, hsays⟩⟩
    intro x hx
    unfold Amendee.lookup isHeadInfo at hx
    rw [if_pos (dmem_iff.2 (mem_dkeys_iff.2 ⟨_, s.version⟩))] at hx
    have := hread _ x hx
    subst this
    have : lastFor x = dget x := funext (lastFor_table hok)
    rw [this]
    exact hsays

/-- C110, lookup: in every edition a payload file is looked up to the bag that provided it last, counting the bags of all
editions up to then in order; and if none of them has it, to where it was in the aggregation it all began with. -/
theorem C110_lookup (E : SaveEnv) (cfg : ReadCfg) (first : Amendee) (es : List Edition) (e : Edition) (later : List Edition)
    (h : Editions E cfg first (es ++ e :: later)) (h0 : Startable first.info)
    (hl : ∀ x ∈ es ++ [e], x.Lettered) (hsz : ∀ t, OneLine (E.size t))
    (hw : py!"Multibag-Head-Version" ∉ dkeys first.info → WfTree first.tree)
    (hO : ∀ x ∈ es ++ [e], Amendable x.bags x.me x.tree x.info)
    (hn : (((es ++ [e]).flatMap Edition.parts).map Prod.fst).Nodup)
    (hnew : ∀ q n, LookedUp first q (some n) → n ∉ ((es ++ [e]).flatMap Edition.parts).map Prod.fst)
    (hpl : ∀ q n, LookedUp first q (some n) → Plain q ∧ Plain n) (q : Str) :
    (∀ n, LastOwner ((es ++ [e]).flatMap Edition.parts) q n →
      ((HeadBag.open e.after.tree e.after.info).lookupFile q).1 = .ok (some n)) ∧
    ((∀ b ∈ (es ++ [e]).flatMap Edition.parts, ¬ Payload b.2 q) →
      ∃ r, LookedUp first q r ∧ ((HeadBag.open e.after.tree e.after.info).lookupFile q).1 = .ok r) := by
  have h1 : Editions E cfg first (es ++ [e]) := editions_prefix (later := later) (by rwa [List.append_assoc])
  obtain ⟨d, hv, hs⟩ := (says_latest h1 h0 hl hsz hw hO hn hnew hpl).2 (by simp)
  rw [latest_snoc] at hv
  have hlook : ((HeadBag.open e.after.tree e.after.info).lookupFile q).1 = .ok (dget d q) := by
    rw [(lookupFile_spec _ _).1, hv]; rfl
  rw [hlook]
  exact ⟨fun n hn => by rw [(hs q).1 n hn], fun hno => ⟨_, (hs q).2 hno, rfl⟩⟩

/-! ## Restoring -/

theorem every_step {E : SaveEnv} {cfg : ReadCfg} {first : Amendee} {es : List Edition} (h : Editions E cfg first es)
    (h0 : Startable first.info) (hl : ∀ e ∈ es, e.Lettered) (hsz : ∀ t, OneLine (E.size t)) :
    ∀ e ∈ es, ∃ old oms oes u s', Step E old e oms oes u s' := by
  induction h with
  | none => intro e he; cases he
  | @next es e before now ih =>
    have hl' := fun x hx => hl x (List.mem_append_left _ hx)
    intro x hx
    rcases List.mem_append.1 hx with hx | hx
    · exact ih hl' x hx
    · rw [List.mem_singleton] at hx
      subst hx
      exact ⟨_, published_step now (able_latest before h0 hl' hsz) (hl _ (by simp)) hsz⟩

theorem overlay_stored {E : SaveEnv} {es : List Edition} {p : Path} (hp : ¬ Special p)
    (h : ∀ e ∈ es, ∃ old oms oes u s', Step E old e oms oes u s') (ht : ∀ e ∈ es, ¬ comps (tagDir e.info) <+: p) :
    overlay (es.flatMap (fun e => e.stored.map Prod.snd)) p = overlay (es.flatMap (fun e => e.parts.map Prod.snd)) p := by
  induction es with
  | nil => rfl
  | cons e es ih =>
    rw [List.flatMap_cons, List.flatMap_cons, overlay_append, overlay_append,
      ih (fun x hx => h x (List.mem_cons_of_mem _ hx)) (fun x hx => ht x (List.mem_cons_of_mem _ hx))]
    obtain ⟨_, _, _, _, _, s⟩ := h e List.mem_cons_self
    have : overlay (e.stored.map Prod.snd) p = overlay (e.parts.map Prod.snd) p := by
      unfold Edition.stored Edition.parts withTrees
      rw [List.map_append, List.map_append]
      refine overlay_last ?_
      rw [s.tree]
      exact amended_read s.amended hp (ht e List.mem_cons_self)
    rw [this]

/-- C110, contents: restoring any edition, also after later ones were published, gives for every file that the edition
does not list as deleted what the bags hold of which it was made, up to this edition, a later bag before an earlier one.
Not among these files are the tag files that are made anew and those below the editions' multibag tag directories. -/
theorem C110_restored (E : SaveEnv) (cfg : ReadCfg) (first : Amendee) (es : List Edition) (e : Edition) (later : List Edition)
    (h : Editions E cfg first (es ++ e :: later)) (h0 : Startable first.info)
    (hl : ∀ x ∈ es ++ [e], x.Lettered) (hsz : ∀ t, OneLine (E.size t)) (ha : ∀ a ∈ E.algs, '/' ∉ a)
    (oms : List MemberInfo) (base : List (Str × Tree)) (hb : Beginning first oms base)
    (hw : Spec.Writable (oms ++ (es ++ [e]).flatMap Edition.records))
    (hn : ((oms ++ (es ++ [e]).flatMap Edition.records).map (·.name)).Nodup)
    (hwf : WfTree e.tree) (hg : GoodPath (comps (tagDir e.info)))
    (R : RestoreEnv) (hR : EnvOk R)
    (hav : Available R (base ++ es.flatMap Edition.stored ++ e.bags.map (fun b => (b.name, b.tree))))
    (hc : NoClash (base.map Prod.snd ++ (es ++ [e]).flatMap (fun x => x.stored.map Prod.snd)))
    (path : Str) (hpath : path ≠ R.base.bagpath) (us rm : Bool) (out : Tree)
    (hr : restore R (Amendee.restoreFrom e.after path) us rm [] = .ok out)
    (gone : List Str) (hgone : iterDeleted e.after.mode e.after.tree e.after.info = .ok gone)
    (p : Path) (hp : ¬ Special p) (ht : ∀ x ∈ es ++ [e], ¬ comps (tagDir x.info) <+: p) (hx : ¬ Deleted gone p) :
    out.read p = overlay (base.map Prod.snd ++ (es ++ [e]).flatMap (fun x => x.parts.map Prod.snd)) p := by
  have h1 : Editions E cfg first (es ++ [e]) := editions_prefix (later := later) (by rwa [List.append_assoc])
  have hm := (members_latest h1 h0 hl hsz hb hw).1 (by simp)
  rw [latest_snoc, keepLast_of_nodup hn] at hm
  have hsteps := every_step h1 h0 hl hsz
  obtain ⟨old, oms', oes, u, s', s⟩ := hsteps e (by simp)
  have hws : WfTree e.after.tree := by
    obtain ⟨s2, hup, _, hwf', _⟩ := s.amended.last
    rw [s.tree]
    exact (updateInfo_ok hup).2.2.2.1 ha (hwf' hg hwf)
  have hbase : oms.map (·.name) = base.map Prod.fst := by
    cases hb with
    | head _ _ h => exact h
    | single _ => rfl
  have hname : e.after.name = e.me.name := (editions_snoc h1).2.name
  have hst : (es ++ [e]).flatMap (fun x => x.stored.map Prod.snd) =
      (es.flatMap Edition.stored ++ e.bags.map (fun b => (b.name, b.tree))).map Prod.snd ++ [e.after.tree] := by
    rw [List.flatMap_append, List.map_append, List.append_assoc, List.map_flatMap]
    simp [Edition.stored]
  have hrec : ∀ x : Edition, x.records.map (·.name) = x.stored.map Prod.fst := by
    intro x
    simp [Edition.records, Edition.stored, record, headRecord, Function.comp_def]
  have r := restored_overlay hR (H := Amendee.restoreFrom e.after path) hws hpath hav (hm _) (by
    show _ = _ ++ [e.after.name]
    rw [List.map_append, hbase, List.map_flatMap, List.map_append, List.map_append, List.map_flatMap, hname,
      List.flatMap_append]
    simp only [hrec]
    simp [Edition.stored]) (by
    show NoClash (_ ++ [e.after.tree])
    rw [List.append_assoc, List.map_append, List.append_assoc, ← hst]
    exact hc) hr hgone hp hx
  rw [r]
  show overlay (_ ++ [e.after.tree]) p = _
  rw [List.append_assoc, List.map_append, List.append_assoc, ← hst, overlay_append, overlay_append,
    overlay_stored hp hsteps ht]

/-! ## A concrete case -/

namespace Sample

/-- The metadata that opening a bag finds. -/
def infoIn (t : Tree) : Info := match openBag readCfg t with | .ok b => b.info | .error _ => []

/-- The first edition: the sample bag with a changed and an added file. -/
def edition1 : Edition :=
  { me := newHead, version := py!"2", bags := [bagMore], tree := treeMore, info := newInfo,
    after := ⟨py!"n0", singleAfter.tree, infoIn singleAfter.tree, .codecs, false⟩ }

/-- The bag that becomes the head of the second edition: it changes one file again and another for the first time. -/
def treeThird : Tree :=
  [([py!"bagit.txt"], .file bagitText), ([py!"bag-info.txt"], .file py!"Contact: me\n"), ([py!"data"], .dir),
   ([py!"data", py!"a"], .file py!"a3"), ([py!"data", py!"b"], .file py!"b3"),
   ([py!"manifest-md5.txt"], .file py!"d2 data/a\nd2 data/b\n")]

def thirdHead : NewHead := { name := py!"n1", uri := some py!"ark:/1" }

def thirdAfter : HeadBag :=
  (amend saveEnv false edition1.after thirdHead py!"3" [] (HeadBag.open treeThird newInfo)).2

/-- The second edition, opened as if from an archive. -/
def edition2 : Edition :=
  { me := thirdHead, version := py!"3", bags := [], tree := treeThird, info := newInfo,
    after := ⟨py!"n1", thirdAfter.tree, infoIn thirdAfter.tree, .universal, true⟩ }

theorem again_of_check {t : Tree} (h : (match openBag readCfg t with
    | .ok b => decide (b.tagFile = py!"bag-info.txt") | .error _ => false) = true) :
    ∃ b, openBag readCfg t = .ok b ∧ b.tagFile = py!"bag-info.txt" ∧ infoIn t = b.info := by
  unfold infoIn
  cases hb : openBag readCfg t with
  | error e => rw [hb] at h; cases h
  | ok b => rw [hb] at h; exact ⟨b, rfl, of_decide_eq_true h, rfl⟩

theorem again1 : ∃ b, openBag readCfg singleAfter.tree = .ok b ∧ b.tagFile = py!"bag-info.txt" ∧ infoIn singleAfter.tree = b.info :=
  again_of_check (by decide +kernel)

theorem again2 : ∃ b, openBag readCfg thirdAfter.tree = .ok b ∧ b.tagFile = py!"bag-info.txt" ∧ infoIn thirdAfter.tree = b.info :=
  again_of_check (by decide +kernel)

attribute [local irreducible] singleAfter infoIn

theorem third_runs : amend saveEnv false edition1.after thirdHead py!"3" [] (HeadBag.open treeThird newInfo) = (.ok (), thirdAfter) :=
  Prod.ext (show (amend saveEnv false edition1.after thirdHead py!"3" []
    (HeadBag.open treeThird newInfo)).1 = .ok () by decide +kernel) rfl

attribute [local irreducible] thirdAfter

theorem published1 : Published saveEnv readCfg m1Old edition1 where
  opened := openedMore
  done := ⟨singleAfter, amendM1_runs, by rw [edition1]⟩
  name := by rw [edition1, newHead]
  again := again1

theorem openedThird : Opened treeThird newInfo where
  tag := by intro l; simp [dget, newInfo]
  ver := by decide
  members := ⟨[], by decide⟩
  lookup := ⟨none, by decide⟩
  deleted := ⟨[], by decide⟩

theorem published2 : Published saveEnv readCfg edition1.after edition2 where
  opened := openedThird
  done := ⟨thirdAfter, third_runs, by rw [edition2]⟩
  name := by rw [edition2, thirdHead]
  again := again2

theorem editions : Editions saveEnv readCfg m1Old ([edition1] ++ [edition2]) :=
  .next (es := [edition1]) (.next (es := []) .none published1) published2

theorem startable : Startable m1Old.info where
  profile := by decide
  once := .inl rfl
  texts := by
    intro v hv
    have : v = CURRENT_VERSION := by simpa [m1Old, profileVersion, infoItem, fields, dget] using hv
    subst this
    exact oneLine_of_check (by decide +kernel)
  version := ⟨py!"1", .inr ⟨by decide, rfl⟩, oneLine_of_check (by decide +kernel)⟩

theorem lettered : ∀ x ∈ [edition1] ++ [edition2], x.Lettered := by
  intro x hx
  simp only [List.cons_append, List.nil_append, List.mem_cons, List.not_mem_nil, or_false] at hx
  rcases hx with rfl | rfl
  · exact ⟨by decide, cleanInfo_of_check (by decide +kernel), oneLine_of_check (by decide +kernel), by decide⟩
  · exact ⟨by decide, cleanInfo_of_check (by decide +kernel), oneLine_of_check (by decide +kernel), by decide⟩

theorem saveEnv_size (t : Tree) : OneLine (saveEnv.size t) := oneLine_of_check (v := py!"1 kB") (by decide)

end Sample

/-- The second edition is version 3 and deprecates versions 1 and 2. -/
example : VersionIs Sample.edition2.after.info py!"3" ∧
    fields Sample.edition2.after.info py!"Multibag-Head-Deprecates" = [py!"1", py!"2"] :=
  C110_versions Sample.saveEnv Sample.readCfg Sample.m1Old [Sample.edition1] Sample.edition2 [] Sample.editions
    Sample.startable Sample.lettered Sample.saveEnv_size py!"1" (.inr ⟨by decide, rfl⟩)

/-- The first edition, after the second was published. -/
example : VersionIs Sample.edition1.after.info py!"2" ∧
    fields Sample.edition1.after.info py!"Multibag-Head-Deprecates" = [py!"1"] :=
  C110_versions Sample.saveEnv Sample.readCfg Sample.m1Old [] Sample.edition1 [Sample.edition2] Sample.editions
    Sample.startable (fun x hx => Sample.lettered x (by simp at hx; simp [hx])) Sample.saveEnv_size py!"1"
    (.inr ⟨by decide, rfl⟩)

example : ((HeadBag.open Sample.edition2.after.tree Sample.edition2.after.info).memberBags).1 =
    .ok [⟨py!"m1", none, none, []⟩, ⟨py!"x1", none, none, []⟩, ⟨py!"n0", none, none, []⟩, ⟨py!"n1", some py!"ark:/1", none, []⟩] := by
  rw [(C110_members Sample.saveEnv Sample.readCfg Sample.m1Old [Sample.edition1] Sample.edition2 [] Sample.editions
    Sample.startable Sample.lettered Sample.saveEnv_size _ _ (.single (by decide))
    (Sample.writable_of_check (by decide +kernel))).2]
  decide +kernel

namespace Sample

theorem amendable1 : Amendable edition1.bags edition1.me edition1.tree edition1.info where
  wf := wf_of_check (by decide)
  wfBags := by
    intro b hb
    simp only [edition1, List.mem_singleton] at hb
    subst hb
    exact wf_of_check (by decide +kernel)
  dir := ⟨by show GoodPath (comps (tagDir newInfo)); rw [dirMore]; exact good_multibag, by decide +kernel⟩
  defaults := ⟨by
    intro b hb
    simp only [edition1, List.mem_singleton] at hb
    subst hb
    exact ⟨rfl, rfl⟩, rfl, rfl⟩
  names := by
    intro b hb
    have : b = (py!"x1", bagMore.tree) ∨ b = (py!"n0", treeMore) := by
      simpa [withTrees, edition1, bagMore, newHead] using hb
    rcases this with rfl | rfl <;> exact plain_of_check (by decide +kernel)
  files := by
    intro b hb q hq
    have : b = (py!"x1", bagMore.tree) ∨ b = (py!"n0", treeMore) := by
      simpa [withTrees, edition1, bagMore, newHead] using hb
    rcases this with rfl | rfl <;> exact payload_plain (by decide +kernel) hq

theorem amendable2 : Amendable edition2.bags edition2.me edition2.tree edition2.info where
  wf := wf_of_check (by decide)
  wfBags := by intro b hb; simp [edition2] at hb
  dir := ⟨by show GoodPath (comps (tagDir newInfo)); rw [dirMore]; exact good_multibag, by decide +kernel⟩
  defaults := ⟨by intro b hb; simp [edition2] at hb, rfl, rfl⟩
  names := by
    intro b hb
    have : b = (py!"n1", treeThird) := by simpa [withTrees, edition2, thirdHead] using hb
    rw [this]; exact plain_of_check (by decide +kernel)
  files := by
    intro b hb q hq
    have : b = (py!"n1", treeThird) := by simpa [withTrees, edition2, thirdHead] using hb
    rw [this] at hq
    exact payload_plain (by decide +kernel) hq

theorem lookedUp_m1 {q n : Str} (h : LookedUp m1Old q (some n)) : n = py!"m1" ∧ Payload m1 q := by
  generalize hr : some n = r at h
  cases h with
  | head h => exact absurd h (by decide)
  | own _ hp => cases hr; exact ⟨rfl, hp⟩
  | nowhere => cases hr

theorem parts_all : ([edition1] ++ [edition2]).flatMap Edition.parts =
    [(py!"x1", bagMore.tree), (py!"n0", treeMore), (py!"n1", treeThird)] := rfl

/-- Whether a bag has a payload file. -/
theorem payload_iff {t : Tree} (h : WfTree t) (q : Str) : Payload t q ↔ q ∈ filesFor false t [py!"data"] (fun _ => false) :=
  (mem_amendPayload h false q).symm

theorem look (q : Str) :
    (∀ n, LastOwner (([edition1] ++ [edition2]).flatMap Edition.parts) q n →
      ((HeadBag.open edition2.after.tree edition2.after.info).lookupFile q).1 = .ok (some n)) ∧
    ((∀ b ∈ ([edition1] ++ [edition2]).flatMap Edition.parts, ¬ Payload b.2 q) →
      ∃ r, LookedUp m1Old q r ∧ ((HeadBag.open edition2.after.tree edition2.after.info).lookupFile q).1 = .ok r) :=
  C110_lookup saveEnv readCfg m1Old [edition1] edition2 [] editions startable lettered saveEnv_size
  (fun _ => wf_m1) (by
    intro x hx
    simp only [List.cons_append, List.nil_append, List.mem_cons, List.not_mem_nil, or_false] at hx
    rcases hx with rfl | rfl
    · exact amendable1
    · exact amendable2) (by rw [parts_all]; decide) (by
    intro q n h
    rw [(lookedUp_m1 h).1, parts_all]; decide) (by
    intro q n h
    obtain ⟨rfl, hp⟩ := lookedUp_m1 h
    exact ⟨payload_plain (by decide +kernel) hp, plain_of_check (by decide +kernel)⟩) q

end Sample

/-- A file of both editions, one of the first edition and one of the bag it began with. -/
example :
    ((HeadBag.open Sample.edition2.after.tree Sample.edition2.after.info).lookupFile py!"data/b").1 = .ok (some py!"n1") ∧
    ((HeadBag.open Sample.edition2.after.tree Sample.edition2.after.info).lookupFile py!"data/d").1 = .ok (some py!"n0") ∧
    ((HeadBag.open Sample.edition2.after.tree Sample.edition2.after.info).lookupFile py!"data/x/d").1 = .ok (some py!"m1") := by
  have w1 : WfTree Sample.treeThird := Sample.wf_of_check (by decide)
  have w2 : WfTree Sample.treeMore := Sample.wf_of_check (by decide)
  have w3 : WfTree Sample.bagMore.tree := Sample.wf_of_check (by decide)
  refine ⟨(Sample.look _).1 _ ⟨[(py!"x1", Sample.bagMore.tree), (py!"n0", Sample.treeMore)], Sample.treeThird, [], rfl,
      (Sample.payload_iff w1 _).2 (by decide +kernel), by simp⟩,
    (Sample.look _).1 _ ⟨[(py!"x1", Sample.bagMore.tree)], Sample.treeMore, [(py!"n1", Sample.treeThird)], rfl,
      (Sample.payload_iff w2 _).2 (by decide +kernel), ?_⟩, ?_⟩
  · intro b hb
    rw [List.mem_singleton] at hb
    rw [hb, Sample.payload_iff w1]
    decide +kernel
  · obtain ⟨r, h1, h2⟩ := (Sample.look py!"data/x/d").2 (by
      intro b hb
      rw [Sample.parts_all] at hb
      simp only [List.mem_cons, List.not_mem_nil, or_false] at hb
      rcases hb with rfl | rfl | rfl
      · rw [Sample.payload_iff w3]; decide +kernel
      · rw [Sample.payload_iff w2]; decide +kernel
      · rw [Sample.payload_iff w1]; decide +kernel)
    rw [h2]
    cases h1 with
    | head h => exact absurd h (by decide)
    | own => rfl
    | nowhere _ hp => exact absurd ((Sample.payload_iff Sample.wf_m1 _).2 (by decide +kernel)) hp

namespace Sample

/-- Where the bags of both editions are found. -/
def renvThird : RestoreEnv :=
  { renv with
    find := fun n =>
      if n = py!"m1" then some ⟨py!"/store/m1", m1⟩
      else if n = py!"x1" then some ⟨py!"/store/x1", bagMore.tree⟩
      else if n = py!"n0" then some ⟨py!"/store/n0", edition1.after.tree⟩ else none }

theorem renvThird_ok : EnvOk renvThird := ⟨fun _ h => isWalk_walkOf h, by decide⟩

theorem wf_after1 : WfTree edition1.after.tree := wf_of_check (by decide +kernel)

theorem availableThird : Available renvThird [(py!"m1", m1), (py!"x1", bagMore.tree), (py!"n0", edition1.after.tree)] := by
  intro nt h
  rcases List.mem_cons.1 h with rfl | h
  · exact ⟨wf_m1, _, rfl, rfl, by decide⟩
  rcases List.mem_cons.1 h with rfl | h
  · exact ⟨wf_of_check (by decide), _, rfl, rfl, by decide⟩
  rw [List.mem_singleton] at h
  subst h
  exact ⟨wf_after1, _, rfl, rfl, by decide⟩

theorem restoreThird : ∃ out, restore renvThird (Amendee.restoreFrom edition2.after py!"/store/n1") true true [] = .ok out ∧
    true = true := ok_of_check (by decide +kernel)

theorem restoreSecond : ∃ out, restore renvThird (Amendee.restoreFrom edition1.after py!"/store/n0") true true [] = .ok out ∧
    true = true := ok_of_check (by decide +kernel)

theorem not_below_multibag (n : Str) : ¬ comps (tagDir newInfo) <+: [py!"data", n] := by
  rw [dirMore]; rintro ⟨r, h⟩; simp at h

end Sample

/-- The second edition restored. -/
example : ∃ out, restore Sample.renvThird (Amendee.restoreFrom Sample.edition2.after py!"/store/n1") true true [] = .ok out ∧
      out.read [py!"data", py!"a"] = some py!"a3" ∧ out.read [py!"data", py!"b"] = some py!"b3" ∧
      out.read [py!"data", py!"d"] = some py!"D" := by
  obtain ⟨out, hr, _⟩ := Sample.restoreThird
  have key : ∀ n : Str, out.read [py!"data", n] = _ := fun n => C110_restored Sample.saveEnv Sample.readCfg Sample.m1Old
    [Sample.edition1] Sample.edition2 [] Sample.editions Sample.startable Sample.lettered Sample.saveEnv_size (by decide)
    _ _ (.single (by decide)) (Sample.writable_of_check (by decide +kernel)) (by decide +kernel)
    (Sample.wf_of_check (by decide)) (by show GoodPath (comps (tagDir Sample.newInfo)); rw [Sample.dirMore]; exact good_multibag)
    Sample.renvThird Sample.renvThird_ok Sample.availableThird (Sample.clash_of_check (by decide +kernel)) py!"/store/n1"
    (by decide) true true out hr [] (by decide +kernel) [py!"data", n] (Sample.not_special_data _) (by
      intro x hx
      simp only [List.cons_append, List.nil_append, List.mem_cons, List.not_mem_nil, or_false] at hx
      rcases hx with rfl | rfl
      · exact Sample.not_below_multibag n
      · exact Sample.not_below_multibag n) (by rintro ⟨q, _, _, h3⟩; simp at h3)
  refine ⟨out, hr, ?_, ?_, ?_⟩
  · rw [key]; decide +kernel
  · rw [key]; decide +kernel
  · rw [key]; decide +kernel

/-- The first edition restored, after the second was published. -/
example : ∃ out, restore Sample.renvThird (Amendee.restoreFrom Sample.edition1.after py!"/store/n0") true true [] = .ok out ∧
      out.read [py!"data", py!"a"] = some py!"old" ∧ out.read [py!"data", py!"b"] = some py!"b2" := by
  obtain ⟨out, hr, _⟩ := Sample.restoreSecond
  have key : ∀ n : Str, out.read [py!"data", n] = _ := fun n => C110_restored Sample.saveEnv Sample.readCfg Sample.m1Old
    [] Sample.edition1 [Sample.edition2] Sample.editions Sample.startable
    (fun x hx => Sample.lettered x (by simp at hx; simp [hx])) Sample.saveEnv_size (by decide)
    _ _ (.single (by decide)) (Sample.writable_of_check (by decide +kernel)) (by decide +kernel)
    (Sample.wf_of_check (by decide)) (by show GoodPath (comps (tagDir Sample.newInfo)); rw [Sample.dirMore]; exact good_multibag)
    Sample.renvThird Sample.renvThird_ok (fun nt h => Sample.availableThird nt (by
      have : nt ∈ [(py!"m1", Sample.m1), (py!"x1", Sample.bagMore.tree)] := h
      simp only [List.mem_cons, List.not_mem_nil, or_false] at this ⊢
      rcases this with h | h
      · exact .inl h
      · exact .inr (.inl h))) (Sample.clash_of_check (by decide +kernel)) py!"/store/n0"
    (by decide) true true out hr [] (by decide +kernel) [py!"data", n] (Sample.not_special_data _) (by
      intro x hx
      simp only [List.nil_append, List.mem_singleton] at hx
      subst hx
      exact Sample.not_below_multibag n) (by rintro ⟨q, _, _, h3⟩; simp at h3)
  refine ⟨out, hr, ?_, ?_⟩
  · rw [key]; decide +kernel
  · rw [key]; decide +kernel

end Verif
