import Verif.Lemmas.SplitInfoText
import Verif.Props.BagValidate
/-!
# Opening an output bag of a split
-/

namespace Verif

open Spec

/-- Opening a bag whose parts are known. -/
theorem openBag_of_parts {cfg : ReadCfg} {t : Tree} {tags : Info} {v enc tagFile : Str} {version : List Int}
    {info : Info} {algs : List Str} {es : Entries}
    (h1 : t.isfile [py!"bagit.txt"] = true) (h2 : loadTagFile true t [py!"bagit.txt"] = .ok tags)
    (h3 : dget tags py!"BagIt-Version" = some (.one v)) (h4 : versionInfo v = some version)
    (h5 : tagFileName version = some tagFile) (h6 : dget tags py!"Tag-File-Character-Encoding" = some (.one enc))
    (h7 : cfg.knownEncoding enc = true)
    (h8 : (if t.exists [tagFile] then loadTagFile false t [tagFile] else .ok []) = .ok info)
    (h9 : loadManifests cfg version enc t = .ok (algs, es)) :
    openBag cfg t = .ok { tree := t, version, encoding := enc, tagFile, info, algorithms := algs, entries := es } := by
  unfold openBag
  rw [if_neg (by simp [h1]), h2]
  simp only
  rw [if_neg (by simp [dmem, h3, h6]), h3]
  simp only [oneValue]
  rw [h4]
  simp only
  rw [h5, h6]
  simp only
  rw [if_neg (by simp [h7]), h8]
  simp only
  rw [h9]

theorem hashes_look {cfg : ReadCfg} {t : Tree} {b : RBag} (h : openBag cfg t = .ok b) {f alg c : Str} :
    (alg, c) ∈ (b.source cfg).hashes f ↔ b.entries.look f alg = some c := by
  obtain ⟨_, hm, _⟩ := openBag_parts h
  obtain ⟨hn, hi⟩ := entries_inv hm
  rw [← mem_entries_look hn hi]
  unfold Source.hashes RBag.source
  simp only
  constructor
  · intro hx
    cases hg : dget b.entries f with
    | none => rw [hg] at hx; cases hx
    | some hs => rw [hg] at hx; exact ⟨hs, mem_of_dget hg, hx⟩
  · rintro ⟨hs, h1, h2⟩
    rw [dget_of_mem hn h1]; exact h2

theorem hashes_nodup {cfg : ReadCfg} {t : Tree} {b : RBag} (h : openBag cfg t = .ok b) (f : Str) :
    (dkeys ((b.source cfg).hashes f)).Nodup := by
  obtain ⟨_, hm, _⟩ := openBag_parts h
  obtain ⟨hn, hi⟩ := entries_inv hm
  unfold Source.hashes RBag.source
  simp only
  cases hg : dget b.entries f with
  | none => simp [dkeys]
  | some hs => exact (hi _ (mem_of_dget hg)).2

theorem manifestText_alg {cfg : ReadCfg} {v : List Int} {enc : Str} {t : Tree} {alg line : Str}
    (h : (alg, line) ∈ manifestText cfg v enc t) : alg ∈ cfg.algs := by
  unfold manifestText at h
  have key : ∀ kind : Str, (alg, line) ∈ cfg.algs.flatMap (fun alg =>
      match t.read [kind ++ alg ++ py!".txt"] with
      | some text => (manifestLines enc text).map (fun l => (alg, l))
      | none => []) → alg ∈ cfg.algs := by
    intro kind h
    obtain ⟨a, ha, hm⟩ := List.mem_flatMap.1 h
    split at hm
    · obtain ⟨l, _, e⟩ := List.mem_map.1 hm
      cases e; exact ha
    · cases hm
  rcases List.mem_append.1 h with h | h
  · exact key py!"manifest-" h
  · split at h
    · cases h
    · exact key py!"tagmanifest-" h

/-- The checksums of the listed files of a valid bag are what they are recorded as. -/
theorem hashes_valid {hostOk : Str → Bool} {sum : Str → Str → Str} {blen : Str → Nat} {cfg : ReadCfg} {t : Tree}
    {b : RBag} (h : openBag cfg t = .ok b) (hv : ValidBag hostOk sum blen cfg b) {f alg c : Str}
    (hh : (alg, c) ∈ (b.source cfg).hashes f) :
    alg ∈ cfg.algs ∧ ∃ content, b.tree.read (comps f) = some content ∧ lower c = sum alg content ∧
      Word c ∧ c.head? ≠ some '#' := by
  obtain ⟨ht, hm, _⟩ := openBag_parts h
  obtain ⟨line, h1, h2⟩ := (C70_loads hm f alg c).1 ((hashes_look h).1 hh)
  rw [← ht] at h1
  obtain ⟨content, h3, h4⟩ := hv.sums alg line c f h1 h2
  obtain ⟨_, _, _, _, _, _, _, h5, h6, _⟩ := h2
  exact ⟨manifestText_alg h1, content, h3, h4, h5, h6⟩

theorem head_not_bom {sum : Str → Str → Str} (hs : HexSum sum) {alg c content : Str} (h : lower c = sum alg content) :
    c.head? ≠ some bom := by
  intro hb
  cases c with
  | nil => cases hb
  | cons x xs =>
    cases Option.some.inj hb
    have := hs alg content (Char.toLower bom) (by rw [← h]; simp [lower])
    revert this; decide

/-- The lines of one manifest that a split has written. -/
def manifestOf (hashes : Str → List (Str × Str)) (fs : List Str) (pay : Bool) (alg : Str) : List Str :=
  fs.flatMap (fun f => if isPayload f = pay then
    (hashes f).filterMap (fun ah => if ah.1 = alg then some (ah.2 ++ ' ' :: f ++ ['\n']) else none) else [])

theorem recorded_eq (hashes : Str → List (Str × Str)) (fs : List Str) (pay : Bool) (alg : Str) :
    recorded hashes fs [(if pay then py!"manifest-" else py!"tagmanifest-") ++ alg ++ py!".txt"] =
      manifestOf hashes fs pay alg := by
  unfold recorded manifestOf
  congr 1
  funext f
  have inj : ∀ a : Str, ([(if pay then py!"manifest-" else py!"tagmanifest-") ++ alg ++ py!".txt"] : Path) =
      [(if isPayload f then py!"manifest-" else py!"tagmanifest-") ++ a ++ py!".txt"] ↔ isPayload f = pay ∧ a = alg := by
    intro a
    cases hp : isPayload f <;> cases pay <;> simp
    · exact eq_comm
    · exact eq_comm
  by_cases hp : isPayload f = pay
  · rw [if_pos hp]
    congr 1
    funext ah
    by_cases ha : ah.1 = alg
    · rw [if_pos ((inj _).2 ⟨hp, ha⟩), if_pos ha]
    · rw [if_neg (fun e => ha ((inj _).1 e).2), if_neg ha]
  · rw [if_neg hp, List.filterMap_eq_nil_iff]
    intro ah _
    rw [if_neg (fun e => hp ((inj _).1 e).1)]

theorem mem_manifestOf {hashes : Str → List (Str × Str)} {fs : List Str} {pay : Bool} {alg line : Str} :
    line ∈ manifestOf hashes fs pay alg ↔
      ∃ f ∈ fs, isPayload f = pay ∧ ∃ c, (alg, c) ∈ hashes f ∧ line = c ++ ' ' :: f ++ ['\n'] := by
  unfold manifestOf
  rw [List.mem_flatMap]
  constructor
  · rintro ⟨f, hf, h⟩
    split at h
    · next hp =>
      obtain ⟨⟨a, c⟩, h1, h2⟩ := List.mem_filterMap.1 h
      simp only at h2
      split at h2
      · next e => cases h2; exact ⟨f, hf, hp, c, e ▸ h1, rfl⟩
      · cases h2
    · cases h
  · rintro ⟨f, hf, hp, c, h1, rfl⟩
    refine ⟨f, hf, ?_⟩
    rw [if_pos hp]
    exact List.mem_filterMap.2 ⟨(alg, c), h1, by simp⟩

/-- Reading such a manifest gives its lines. -/
theorem manifestLines_of {enc : Str} {hashes : Str → List (Str × Str)} {fs : List Str} {pay : Bool} {alg : Str}
    (hh : ∀ f ∈ fs, ∀ c, (alg, c) ∈ hashes f → Word c ∧ c.head? ≠ some bom)
    (hp : ∀ f ∈ fs, ∀ c ∈ f, isNl c = false) :
    manifestLines enc (manifestOf hashes fs pay alg).flatten = manifestOf hashes fs pay alg := by
  have hb : dropBom (manifestOf hashes fs pay alg).flatten = (manifestOf hashes fs pay alg).flatten := by
    cases hm : manifestOf hashes fs pay alg with
    | nil => rfl
    | cons l ls =>
      have : l ∈ manifestOf hashes fs pay alg := by rw [hm]; exact List.mem_cons_self
      obtain ⟨f, hf, _, c, h1, rfl⟩ := mem_manifestOf.1 this
      obtain ⟨h2, h3⟩ := hh f hf c h1
      cases c with
      | nil => exact absurd rfl h2.1
      | cons x xs =>
        have : x ≠ bom := fun e => h3 (by rw [e]; rfl)
        simp [dropBom, this]
  unfold manifestLines
  have : (if startsWith py!"UTF" enc then dropBom (manifestOf hashes fs pay alg).flatten
      else (manifestOf hashes fs pay alg).flatten) = (manifestOf hashes fs pay alg).flatten := by
    split
    · exact hb
    · rfl
  rw [this]
  have e : manifestOf hashes fs pay alg = ((manifestOf hashes fs pay alg).map List.dropLast).map (· ++ ['\n']) := by
    rw [List.map_map]
    symm
    refine Eq.trans (List.map_congr_left (g := id) ?_) (List.map_id _)
    intro l hl
    obtain ⟨f, hf, _, c, h1, rfl⟩ := mem_manifestOf.1 hl
    simp only [Function.comp_apply, id_eq]
    rw [show c ++ ' ' :: f ++ ['\n'] = (c ++ ' ' :: f) ++ ['\n'] by simp, List.dropLast_concat]
  rw [e, textLines_universal]
  intro l hl c hc
  obtain ⟨l', hl', rfl⟩ := List.mem_map.1 hl
  obtain ⟨f, hf, _, s, h1, rfl⟩ := mem_manifestOf.1 hl'
  rw [show s ++ ' ' :: f ++ ['\n'] = (s ++ ' ' :: f) ++ ['\n'] by simp, List.dropLast_concat] at hc
  rcases List.mem_append.1 hc with hc | hc
  · have := (hh f hf s h1).1.2 c hc
    cases hn : isNl c with
    | false => rfl
    | true => rw [isBreak_isSpace (isNl_isBreak hn)] at this; cases this
  · rcases List.mem_cons.1 hc with rfl | hc
    · decide
    · exact hp f hf c hc

/-- The manifests of an output bag as read back. -/
theorem manifestText_split {cfg : ReadCfg} {v : List Int} {enc : Str} {t : Tree} {hashes : Str → List (Str × Str)}
    {fs : List Str} {sa : List Str}
    (hman : ∀ pay : Bool, ∀ alg, let p := [(if pay then py!"manifest-" else py!"tagmanifest-") ++ alg ++ py!".txt"]
      (t.isfile p = true ↔ recorded hashes fs p ≠ [] ∨ (pay = true ∧ alg ∈ sa)) ∧
      ∀ c, t.read p = some c → c = (recorded hashes fs p).flatten)
    (hh : ∀ f ∈ fs, ∀ alg c, (alg, c) ∈ hashes f → Word c ∧ c.head? ≠ some bom)
    (hp : ∀ f ∈ fs, ∀ c ∈ f, isNl c = false) :
    manifestText cfg v enc t =
      cfg.algs.flatMap (fun alg => (manifestOf hashes fs true alg).map (fun l => (alg, l))) ++
      (if tupLt v [0, 97] then []
       else cfg.algs.flatMap (fun alg => (manifestOf hashes fs false alg).map (fun l => (alg, l)))) := by
  have key : ∀ (pay : Bool) (alg : Str),
      (match t.read [(if pay then py!"manifest-" else py!"tagmanifest-") ++ alg ++ py!".txt"] with
        | some text => (manifestLines enc text).map (fun l => (alg, l))
        | none => []) = (manifestOf hashes fs pay alg).map (fun l => (alg, l)) := by
    intro pay alg
    have h := hman pay alg
    simp only at h
    rw [recorded_eq] at h
    split
    · next text ht =>
      rw [h.2 text ht, manifestLines_of (fun f hf c hc => hh f hf alg c hc) hp]
    · next hn =>
      have : ¬ (manifestOf hashes fs pay alg ≠ []) := by
        intro hne
        have := h.1.2 (.inl hne)
        rw [isfile_read, hn] at this; cases this
      rw [Classical.not_not.1 this]; rfl
  unfold manifestText
  have k1 := fun alg => key true alg
  have k2 := fun alg => key false alg
  simp only [if_true, if_false, Bool.false_eq_true] at k1 k2
  congr 1
  · congr 1
    funext alg
    exact k1 alg
  · split
    · rfl
    · congr 1
      funext alg
      exact k2 alg

/-- Each line of the manifests of an output bag is for one of its files. -/
theorem mem_manifestText_split {cfg : ReadCfg} {v : List Int} {hashes : Str → List (Str × Str)} {fs : List Str}
    {alg line : Str} :
    (alg, line) ∈ cfg.algs.flatMap (fun alg => (manifestOf hashes fs true alg).map (fun l => (alg, l))) ++
      (if tupLt v [0, 97] then []
       else cfg.algs.flatMap (fun alg => (manifestOf hashes fs false alg).map (fun l => (alg, l)))) ↔
    alg ∈ cfg.algs ∧ ∃ f ∈ fs, (isPayload f = true ∨ tupLt v [0, 97] = false) ∧
      ∃ c, (alg, c) ∈ hashes f ∧ line = c ++ ' ' :: f ++ ['\n'] := by
  have key : ∀ pay, (alg, line) ∈ cfg.algs.flatMap (fun alg => (manifestOf hashes fs pay alg).map (fun l => (alg, l))) ↔
      alg ∈ cfg.algs ∧ line ∈ manifestOf hashes fs pay alg := by
    intro pay
    rw [List.mem_flatMap]
    constructor
    · rintro ⟨a, ha, h⟩
      obtain ⟨l, hl, e⟩ := List.mem_map.1 h
      cases e; exact ⟨ha, hl⟩
    · rintro ⟨ha, hl⟩
      exact ⟨alg, ha, List.mem_map.2 ⟨line, hl, rfl⟩⟩
  rw [List.mem_append, key]
  constructor
  · rintro (⟨ha, hl⟩ | hl)
    · obtain ⟨f, hf, hp, h⟩ := mem_manifestOf.1 hl
      exact ⟨ha, f, hf, .inl hp, h⟩
    · split at hl
      · cases hl
      · next hv =>
        obtain ⟨ha, hl⟩ := (key false).1 hl
        obtain ⟨f, hf, hp, h⟩ := mem_manifestOf.1 hl
        exact ⟨ha, f, hf, .inr (by simpa using hv), h⟩
  · rintro ⟨ha, f, hf, hp, h⟩
    by_cases hpay : isPayload f = true
    · exact .inl ⟨ha, mem_manifestOf.2 ⟨f, hf, hpay, h⟩⟩
    · rcases hp with hp | hp
      · exact absurd hp hpay
      · right
        rw [if_neg (by simp [hp])]
        exact (key false).2 ⟨ha, mem_manifestOf.2 ⟨f, hf, by simpa using hpay, h⟩⟩

/-- No file is listed twice in the manifests of one algorithm. -/
theorem pairwise_split {algs : List Str} (ha : algs.Nodup) {v : List Int} {hashes : Str → List (Str × Str)}
    {fs : List Str} (hn : fs.Nodup) (hk : ∀ f, (dkeys (hashes f)).Nodup)
    (hh : ∀ f ∈ fs, ∀ alg c, (alg, c) ∈ hashes f → Word c ∧ c.head? ≠ some '#' ∧ PlainPath f) :
    (algs.flatMap (fun alg => (manifestOf hashes fs true alg).map (fun l => (alg, l))) ++
      (if tupLt v [0, 97] then []
       else algs.flatMap (fun alg => (manifestOf hashes fs false alg).map (fun l => (alg, l))))).Pairwise
      (fun a b => ∀ c c' p, a.1 = b.1 → Lists a.2 c p → Lists b.2 c' p → c = c' ∧ tupLt v [1] = true) := by
  have lists : ∀ {pay : Bool} {alg line c p : Str}, line ∈ manifestOf hashes fs pay alg → Lists line c p →
      p ∈ fs ∧ isPayload p = pay ∧ (alg, c) ∈ hashes p := by
    intro pay alg line c p hm hl
    obtain ⟨f, hf, hp, c', h1, rfl⟩ := mem_manifestOf.1 hm
    obtain ⟨h2, h3, h4⟩ := hh f hf alg c' h1
    obtain ⟨rfl, rfl⟩ := (C70_plain_line h2 h3 h4 c p).1 hl
    exact ⟨hf, hp, h1⟩
  -- the lines of one manifest
  have one : ∀ (pay : Bool) (alg : Str), ((manifestOf hashes fs pay alg).map (fun l => (alg, l))).Pairwise
      (fun a b => ∀ c c' p, a.1 = b.1 → Lists a.2 c p → Lists b.2 c' p → c = c' ∧ tupLt v [1] = true) := by
    intro pay alg
    rw [List.pairwise_map]
    unfold manifestOf
    rw [List.pairwise_flatMap]
    constructor
    · intro f hf
      split
      · next hp =>
        rw [List.pairwise_filterMap]
        have hkn := hk f
        unfold dkeys at hkn
        rw [List.Nodup, List.pairwise_map] at hkn
        refine hkn.imp ?_
        intro x y hxy l hl l' hl'
        split at hl
        · split at hl'
          · next h1 h2 => exact absurd (h1.trans h2.symm) hxy
          · cases hl'
        · cases hl
      · exact List.Pairwise.nil
    · refine List.Pairwise.imp_of_mem ?_ hn
      intro f g hf hg hne l hl l' hl' c c' p _ h1 h2
      have m1 : l ∈ manifestOf hashes [f] pay alg := by unfold manifestOf; simpa using hl
      have m2 : l' ∈ manifestOf hashes [g] pay alg := by unfold manifestOf; simpa using hl'
      obtain ⟨f', hf', _, c1, hc1, rfl⟩ := mem_manifestOf.1 m1
      obtain ⟨g', hg', _, c2, hc2, rfl⟩ := mem_manifestOf.1 m2
      cases List.mem_singleton.1 hf'
      cases List.mem_singleton.1 hg'
      obtain ⟨a1, a2, a3⟩ := hh _ hf alg c1 hc1
      obtain ⟨b1, b2, b3⟩ := hh _ hg alg c2 hc2
      have e1 := ((C70_plain_line a1 a2 a3 c p).1 h1).2
      have e2 := ((C70_plain_line b1 b2 b3 c' p).1 h2).2
      exact absurd (e1.symm.trans e2) hne
  have all : ∀ (pay : Bool), (algs.flatMap (fun alg => (manifestOf hashes fs pay alg).map (fun l => (alg, l)))).Pairwise
      (fun a b => ∀ c c' p, a.1 = b.1 → Lists a.2 c p → Lists b.2 c' p → c = c' ∧ tupLt v [1] = true) := by
    intro pay
    rw [List.pairwise_flatMap]
    refine ⟨fun alg _ => one pay alg, ?_⟩
    refine List.Pairwise.imp ?_ ha
    intro a b hab x hx y hy c c' p e _ _
    obtain ⟨_, _, rfl⟩ := List.mem_map.1 hx
    obtain ⟨_, _, rfl⟩ := List.mem_map.1 hy
    exact absurd e hab
  rw [List.pairwise_append]
  refine ⟨all true, ?_, ?_⟩
  · split
    · exact List.Pairwise.nil
    · exact all false
  · intro x hx y hy c c' p e h1 h2
    split at hy
    · cases hy
    · obtain ⟨a, _, hx⟩ := List.mem_flatMap.1 hx
      obtain ⟨b, _, hy⟩ := List.mem_flatMap.1 hy
      obtain ⟨l, hl, rfl⟩ := List.mem_map.1 hx
      obtain ⟨l', hl', rfl⟩ := List.mem_map.1 hy
      have e1 := (lists hl h1).2.1
      have e2 := (lists hl' h2).2.1
      rw [e1] at e2; cases e2

end Verif
