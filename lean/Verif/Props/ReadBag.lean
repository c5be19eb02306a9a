import Verif.Lemmas.ReadBag
import Verif.Lemmas.Apply
import Verif.Model.ReadOnly
import Verif.Spec.Apply
import Verif.Props.Paths
import Verif.Props.UpdateMember
/-!
# Properties of reading and validating bags (C70 to C75)
-/

namespace Verif
open Spec

/-! ## C70: manifests -/

/-- **C70**: after loading, the checksum of a path for an algorithm is the one a line of the
manifests of that algorithm lists for it; there is none if no line does. -/
theorem C70_loads {cfg : ReadCfg} {v : List Int} {enc : Str} {t : Tree} {algs : List Str} {es : Entries}
    (h : loadManifests cfg v enc t = .ok (algs, es)) (p alg c : Str) :
    es.look p alg = some c ↔ ∃ line, (alg, line) ∈ manifestText cfg v enc t ∧ Lists line c p := by
  have e := loadManifests_eq cfg v enc t
  rw [h] at e
  rw [addAll_look e.symm, mem_records]
  simp [Entries.look, dget]

/-- **C70**: manifests are accepted exactly if no listed path is dangerous and whenever two
lines of the manifests of one algorithm list the same path, the checksums are equal and the
BagIt version is below 1.0. -/
theorem C70_accepts (cfg : ReadCfg) (v : List Int) (enc : Str) (t : Tree) :
    (∃ r, loadManifests cfg v enc t = .ok r) ↔
      (∀ alg line, (alg, line) ∈ manifestText cfg v enc t → ∀ c p, Lists line c p →
        isDangerous cfg.env cfg.bagpath p = false) ∧
      (manifestText cfg v enc t).Pairwise (fun a b => ∀ c c' p, a.1 = b.1 →
        Lists a.2 c p → Lists b.2 c' p → c = c' ∧ tupLt v [1] = true) := by
  have e := loadManifests_eq cfg v enc t
  have h1 : (∃ r, loadManifests cfg v enc t = .ok r) ↔
      ∃ es, addAll (isDangerous cfg.env cfg.bagpath) (tupLe [1] v) (records (manifestText cfg v enc t)) [] = .ok es := by
    rw [← e]
    cases loadManifests cfg v enc t with
    | error x => simp [Except.map]
    | ok r => simp [Except.map]
  rw [h1, addAll_ok]
  have h3 : (∀ r ∈ records (manifestText cfg v enc t), ∀ h, Entries.look [] r.2.2 r.1 = some h →
      h = r.2.1 ∧ tupLe [1] v = false) := by
    intro r _ h e; simp [Entries.look, dget] at e
  have hv : tupLe [1] v = false ↔ tupLt v [1] = true := by unfold tupLe; simp
  rw [pairwise_records, hv]
  constructor
  · rintro ⟨a, b, _⟩
    refine ⟨?_, ?_⟩
    · intro alg line hm c p hl
      exact a (alg, c, p) (mem_records.2 ⟨line, hm, hl⟩)
    · refine b.imp ?_
      intro x y hxy c c' p he hx hy
      exact hxy c p c' p hx hy he rfl
  · rintro ⟨a, b⟩
    refine ⟨?_, ?_, by simpa [hv] using h3⟩
    · rintro ⟨alg, c, p⟩ hm
      obtain ⟨line, hm, hl⟩ := mem_records.1 hm
      exact a alg line hm c p hl
    · refine b.imp ?_
      intro x y hxy h p h' p' hx hy he hp
      simp only at he hp
      subst hp
      exact hxy h h' p he hx hy

/-- **C70**: the rejection is a `BagError`. -/
theorem C70_error {cfg : ReadCfg} {v : List Int} {enc : Str} {t : Tree} {x : PyErr}
    (h : loadManifests cfg v enc t = .error x) : x = .bagError := by
  have e := loadManifests_eq cfg v enc t
  rw [h] at e
  have key : ∀ (rs : List (Str × Str × Str)) (es : Entries) (d : Str → Bool) (b : Bool) (x : PyErr),
      addAll d b rs es = .error x → x = .bagError := by
    intro rs
    induction rs with
    | nil => intro es d b x h; cases h
    | cons r rs ih =>
      intro es d b x h
      obtain ⟨alg, hh, p⟩ := r
      simp only [addAll] at h
      cases ha : addEntry d b alg es (hh, p) with
      | ok es' => rw [ha] at h; exact ih _ _ _ _ h
      | error y =>
        rw [ha] at h
        cases h
        unfold addEntry at ha
        simp only at ha
        split at ha
        · cases ha; rfl
        · split at ha
          · cases ha
          · split at ha
            · split at ha
              · cases ha; rfl
              · cases ha
            · cases ha; rfl
  exact key _ _ _ _ _ e.symm

theorem decodeOne_of_not_mem (x r : Char) (n : Nat) {s : Str} (h : '%' ∉ s) : decodeOne x r n s = s := by
  induction s generalizing n with
  | nil => cases n <;> rfl
  | cons c s ih =>
    have hc : c ≠ '%' := fun e => h (by simp [e])
    have : decodeOne x r n (c :: s) = c :: decodeOne x r n s := by
      rw [decodeOne.eq_2]
      intro n' y rest _ h2 _
      exact absurd h2 hc
    rw [this, ih n (fun e => h (by simp [e]))]

theorem normpath_good {q : Path} (h : GoodPath q) : normpath (joinPath q) = joinPath q := by
  have hne := joinPath_ne_nil h
  have hh := joinPath_head h
  have hk : initialSlashes (joinPath q) = 0 := by
    unfold initialSlashes
    split
    · next e => exact absurd rfl (hh '/' (by rw [e]; rfl))
    · next e => exact absurd rfl (hh '/' (by rw [e]; rfl))
    · next e => exact absurd rfl (hh '/' (by rw [e]; rfl))
    · rfl
  have key : ∀ (a acc : List Str), (∀ c ∈ a, GoodName c) → a.foldl (normStep false) acc = acc ++ a := by
    intro a
    induction a with
    | nil => simp
    | cons c a ih =>
      intro acc hg
      have hc := hg c (by simp)
      have e : normStep false acc c = acc ++ [c] := by
        simp [normStep, hc.nonempty, hc.nodot, hc.nodotdot]
      rw [List.foldl_cons, e, ih _ (fun d hd => hg d (by simp [hd]))]
      simp
  unfold normpath
  rw [if_neg hne]
  simp only [hk]
  rw [show ((0 : Nat) != 0) = false from rfl, splitOn_joinPath' h, key _ _ h.2]
  simp only [List.replicate_zero, List.nil_append]
  rw [if_neg hne]

/-- **C70**: the line `checksum path` lists just this path with this checksum, for every plain
path, which may contain spaces. -/
theorem C70_plain_line {c p : Str} (hc : Word c) (hh : c.head? ≠ some '#') (hp : PlainPath p) (c' p' : Str) :
    Lists (c ++ ' ' :: p ++ ['\n']) c' p' ↔ c' = c ∧ p' = p := by
  have hl : Lists (c ++ ' ' :: p ++ ['\n']) c p := by
    obtain ⟨⟨q, hq, rfl⟩, ht, hb, hs, hn⟩ := hp
    refine ⟨[], [' '], joinWith ['/'] q, ['\n'], by simp, by simp [Blank], by unfold Blank; decide, hc, hh,
      ⟨by simp, by unfold Blank; decide⟩, ⟨joinPath_ne_nil hq, ht⟩, ?_⟩
    have e1 : (joinWith ['/'] q).dropWhile (· = '*') = joinWith ['/'] q := by
      refine dropWhile_eq_self_of_head ?_
      intro x hx
      simp only [decide_eq_false_iff_not]
      rintro rfl
      exact hs hx
    rw [e1]
    change joinPath q = decodeFilename (normpath (joinPath q))
    rw [normpath_good hq]
    unfold decodeFilename
    change '%' ∉ joinPath q at hn
    rw [decodeOne_of_not_mem 'D' '\r' 2 hn, decodeOne_of_not_mem 'A' '\n' 2 hn]
  constructor
  · intro h
    obtain ⟨e1, e2⟩ := lists_unique h hl
    exact ⟨e1, e2⟩
  · rintro ⟨rfl, rfl⟩; exact hl

/-- A bag with two payload files, one of them with a space in its name. -/
def Sample.readTree : Tree :=
  [([py!"bagit.txt"], .file py!"BagIt-Version: 0.97\nTag-File-Character-Encoding: UTF-8\n"),
   ([py!"bag-info.txt"], .file py!"Payload-Oxum: 5.2\n"),
   ([py!"data"], .dir), ([py!"data", py!"a b"], .file py!"xyz"), ([py!"data", py!"c"], .file py!"uv"),
   ([py!"manifest-md5.txt"], .file py!"# two files\nD3 data/a b\nd2  *data/./c\n"),
   ([py!"fetch.txt"], .file py!"http://x 5 data/d e\n")]

/-- The algorithms and location used in the examples. -/
def Sample.readCfg : ReadCfg where
  env := Sample.env
  bagpath := py!"/bag"
  algs := [py!"sha256", py!"md5"]
  knownEncoding e := e = py!"UTF-8"

/-- A stand-in for a checksum: `d` and the length. -/
def Sample.sum (_ c : Str) : Str := 'd' :: natStr c.length

/-- The hypothesis of `C70_loads` is met, and the entries are as expected. -/
example : loadManifests Sample.readCfg [0, 97] py!"UTF-8" Sample.readTree =
    .ok ([py!"md5"], [(py!"data/a b", [(py!"md5", py!"D3")]), (py!"data/c", [(py!"md5", py!"d2")])]) := by
  rfl

/-- Two identical lines are accepted below version 1.0 only; conflicting ones never are. -/
example :
    let t := dset Sample.readTree [py!"manifest-md5.txt"] (.file py!"d2 data/c\nd2 data/c\n")
    let t' := dset Sample.readTree [py!"manifest-md5.txt"] (.file py!"d2 data/c\nd3 data/c\n")
    loadManifests Sample.readCfg [0, 97] py!"UTF-8" t = .ok ([py!"md5"], [(py!"data/c", [(py!"md5", py!"d2")])]) ∧
    loadManifests Sample.readCfg [1, 0] py!"UTF-8" t = .error .bagError ∧
    loadManifests Sample.readCfg [0, 97] py!"UTF-8" t' = .error .bagError :=
  ⟨rfl, rfl, rfl⟩

/-! ## C71: checksums -/

/-- What opening a bag establishes. -/
theorem openBag_parts {cfg : ReadCfg} {t : Tree} {b : RBag} (h : openBag cfg t = .ok b) :
    b.tree = t ∧ loadManifests cfg b.version b.encoding t = .ok (b.algorithms, b.entries) ∧
    tagFileName b.version = some b.tagFile ∧
    (if t.exists [b.tagFile] then loadTagFile false t [b.tagFile] else .ok []) = .ok b.info ∧
    ∃ tags v, loadTagFile true t [py!"bagit.txt"] = .ok tags ∧
      dget tags py!"BagIt-Version" = some (.one v) ∧ versionInfo v = some b.version ∧
      dget tags py!"Tag-File-Character-Encoding" = some (.one b.encoding) ∧
      cfg.knownEncoding b.encoding = true := by
  have one : ∀ {o : Option InfoVal} {v : Str}, oneValue o = some v → o = some (.one v) := by
    intro o v h
    cases o with
    | none => cases h
    | some x => cases x with
      | one y => cases h; rfl
      | many l => cases h
  unfold openBag at h
  split at h
  · cases h
  · split at h
    · cases h
    · next tags ht =>
      split at h
      · cases h
      · split at h
        · cases h
        · next v hv =>
          split at h
          · cases h
          · next version hver =>
            split at h
            · cases h
            · next tagFile htf =>
              split at h
              · cases h
              · next encoding he =>
                split at h
                · cases h
                · next hk =>
                  split at h
                  · cases h
                  · next info hi =>
                    split at h
                    · cases h
                    · next algorithms entries hm =>
                      cases h
                      exact ⟨rfl, hm, htf, hi, tags, v, ht, one hv, hver, one he, by simpa using hk⟩

/-- Every entry has checksums, entries and algorithms are listed once. -/
theorem addAll_inv {d : Str → Bool} {b : Bool} {rs : List (Str × Str × Str)} {es es' : Entries}
    (h : addAll d b rs es = .ok es') (hn : (dkeys es).Nodup)
    (hi : ∀ e ∈ es, e.2 ≠ [] ∧ (dkeys e.2).Nodup) :
    (dkeys es').Nodup ∧ ∀ e ∈ es', e.2 ≠ [] ∧ (dkeys e.2).Nodup := by
  induction rs generalizing es with
  | nil => cases h; exact ⟨hn, hi⟩
  | cons r rs ih =>
    obtain ⟨alg, c, p⟩ := r
    simp only [addAll] at h
    cases ha : addEntry d b alg es (c, p) with
    | error x => rw [ha] at h; cases h
    | ok es1 =>
      rw [ha] at h
      have key : es1 = dset es p (dset ((dget es p).getD []) alg c) := by
        unfold addEntry at ha
        simp only at ha
        split at ha
        · cases ha
        · split at ha
          · cases ha; rfl
          · split at ha
            · split at ha
              · cases ha
              · cases ha; rfl
            · cases ha
      have hd : (dkeys ((dget es p).getD [])).Nodup := by
        cases hg : dget es p with
        | none => exact List.nodup_nil
        | some hs => exact (hi _ (mem_of_dget hg)).2
      refine ih h (by rw [key]; exact nodup_dset hn _ _) ?_
      rintro ⟨q, hs⟩ hm
      have hg := dget_of_mem (by rw [key]; exact nodup_dset hn _ _) hm
      rw [key, dget_dset] at hg
      split at hg
      · cases hg
        refine ⟨?_, nodup_dset hd _ _⟩
        intro e
        simp only at e
        have h2 := dget_dset ((dget es p).getD []) alg alg c
        rw [e, if_pos rfl] at h2
        simp [dget] at h2
      · exact hi _ (mem_of_dget hg)

theorem entries_inv {cfg : ReadCfg} {v : List Int} {enc : Str} {t : Tree} {algs : List Str} {es : Entries}
    (h : loadManifests cfg v enc t = .ok (algs, es)) :
    (dkeys es).Nodup ∧ ∀ e ∈ es, e.2 ≠ [] ∧ (dkeys e.2).Nodup := by
  have e := loadManifests_eq cfg v enc t
  rw [h] at e
  exact addAll_inv e.symm List.nodup_nil (by simp)

theorem mem_entries_look {es : Entries} (hn : (dkeys es).Nodup) (hi : ∀ e ∈ es, e.2 ≠ [] ∧ (dkeys e.2).Nodup)
    {p alg c : Str} : (∃ hs, (p, hs) ∈ es ∧ (alg, c) ∈ hs) ↔ es.look p alg = some c := by
  unfold Entries.look
  constructor
  · rintro ⟨hs, h1, h2⟩
    rw [dget_of_mem hn h1]
    exact dget_of_mem (hi _ h1).2 h2
  · intro h
    cases hg : dget es p with
    | none => rw [hg] at h; simp [dget] at h
    | some hs => rw [hg] at h; exact ⟨hs, mem_of_dget hg, mem_of_dget h⟩

theorem calcHashes_ok {sum : Str → Str → Str} {t : Tree} {algs : List Str} {es : Entries}
    {l : List (List (Str × Str × Str))} (h : calcHashes sum t algs es = .ok l) :
    (∀ e ∈ es, ∃ c, t.read (comps e.1) = some c) ∧
    ∀ r, r ∈ l.flatten ↔ ∃ p hs c alg v, (p, hs) ∈ es ∧ t.read (comps p) = some c ∧ (alg, v) ∈ hs ∧ alg ∈ algs ∧
      r = (alg, v, sum alg c) := by
  induction es generalizing l with
  | nil => cases h; simp
  | cons e es ih =>
    obtain ⟨p, hs⟩ := e
    unfold calcHashes at h
    split at h
    · cases h
    · next c hc =>
      split at h
      · cases h
      · next l' hl =>
        cases h
        obtain ⟨i1, i2⟩ := ih hl
        refine ⟨by
          rintro e he
          rcases List.mem_cons.1 he with rfl | he
          · exact ⟨c, hc⟩
          · exact i1 e he, ?_⟩
        intro r
        rw [List.flatten_cons, List.mem_append, i2, List.mem_map]
        constructor
        · rintro (⟨⟨a, v⟩, hm, rfl⟩ | ⟨q, hs', c', a, v, h1, h2, h3, h4, h5⟩)
          · rw [List.mem_filter] at hm
            exact ⟨p, hs, c, a, v, by simp, hc, hm.1, by simpa using hm.2, rfl⟩
          · exact ⟨q, hs', c', a, v, by simp [h1], h2, h3, h4, h5⟩
        · rintro ⟨q, hs', c', a, v, h1, h2, h3, h4, rfl⟩
          rcases List.mem_cons.1 h1 with e | h1
          · cases e
            rw [hc] at h2; cases h2
            exact .inl ⟨(a, v), List.mem_filter.2 ⟨h3, by simpa using h4⟩, rfl⟩
          · exact .inr ⟨q, hs', c', a, v, h1, h2, h3, h4, rfl⟩

theorem calcHashes_total {sum : Str → Str → Str} {t : Tree} {algs : List Str} {es : Entries}
    (h : ∀ e ∈ es, ∃ c, t.read (comps e.1) = some c) : ∃ l, calcHashes sum t algs es = .ok l := by
  induction es with
  | nil => exact ⟨[], rfl⟩
  | cons e es ih =>
    obtain ⟨p, hs⟩ := e
    obtain ⟨c, hc⟩ := h _ List.mem_cons_self
    obtain ⟨l, hl⟩ := ih (fun e he => h e (List.mem_cons_of_mem _ he))
    unfold calcHashes
    simp only at hc
    rw [hc, hl]
    exact ⟨_, rfl⟩

theorem algorithms_mem {cfg : ReadCfg} {v : List Int} {enc : Str} {t : Tree} {algs : List Str} {es : Entries}
    (h : loadManifests cfg v enc t = .ok (algs, es)) {alg line : Str}
    (hm : (alg, line) ∈ manifestText cfg v enc t) : alg ∈ algs := by
  unfold loadManifests at h
  simp only at h
  split at h
  · cases h
  · cases h
    have key : ∀ kind, (alg, line) ∈ (cfg.algs.flatMap (fun alg =>
        match t.read [kind ++ '-' :: alg ++ py!".txt"] with
        | some text => (manifestLines enc text).map (fun l => (alg, l))
        | none => [])) → alg ∈ (manifestFiles cfg kind t).map Prod.fst := by
      intro kind hm
      obtain ⟨a, ha, hm⟩ := List.mem_flatMap.1 hm
      cases hr : t.read [kind ++ '-' :: a ++ py!".txt"] with
      | none => rw [hr] at hm; simp at hm
      | some text =>
        rw [hr] at hm
        obtain ⟨l, _, e⟩ := List.mem_map.1 hm
        cases e
        refine List.mem_map.2 ⟨(alg, [kind ++ '-' :: alg ++ py!".txt"]), ?_, rfl⟩
        unfold manifestFiles
        exact List.mem_filter.2 ⟨List.mem_map.2 ⟨alg, ha, rfl⟩, by rw [isfile_eq_isSome, hr]; rfl⟩
    unfold manifestText at hm
    rw [List.map_append, List.mem_append]
    rcases List.mem_append.1 hm with hm | hm
    · exact .inl (key py!"manifest" hm)
    · right
      cases hv : tupLt v [0, 97] with
      | true => rw [hv] at hm; simp at hm
      | false =>
        rw [hv] at hm
        rw [show tupLe [0, 97] v = true by unfold tupLe; rw [hv]; rfl]
        exact key py!"tagmanifest" hm

/-- **C71**: the validation of checksums passes exactly if every path listed in the bag's
manifests is a file whose checksum for that manifest's algorithm is the listed one, apart from
upper and lower case. -/
theorem C71_checksums {cfg : ReadCfg} {t : Tree} {b : RBag} (h : openBag cfg t = .ok b) (sum : Str → Str → Str) :
    validateEntries sum b = .ok () ↔
      ∀ alg line c p, (alg, line) ∈ manifestText cfg b.version b.encoding t → Lists line c p →
        ∃ content, t.read (comps p) = some content ∧ lower c = sum alg content := by
  obtain ⟨ht, hm, _⟩ := openBag_parts h
  obtain ⟨hn, hi⟩ := entries_inv hm
  have hl := C70_loads hm
  unfold validateEntries
  rw [ht]
  constructor
  · intro hv alg line c p hmem hlist
    split at hv
    · cases hv
    · next l hc =>
      split at hv
      · next hall =>
        obtain ⟨h1, h2⟩ := calcHashes_ok hc
        obtain ⟨hs, hp, hac⟩ := (mem_entries_look hn hi).2 ((hl p alg c).2 ⟨line, hmem, hlist⟩)
        obtain ⟨content, hr⟩ := h1 _ hp
        refine ⟨content, hr, ?_⟩
        have := List.all_eq_true.1 hall _ ((h2 (alg, c, sum alg content)).2
          ⟨p, hs, content, alg, c, hp, hr, hac, algorithms_mem hm hmem, rfl⟩)
        simpa using this
      · cases hv
  · intro hall
    have hr : ∀ e ∈ b.entries, ∃ c, t.read (comps e.1) = some c := by
      rintro ⟨p, hs⟩ he
      cases hs0 : hs with
      | nil => exact absurd hs0 (hi _ he).1
      | cons a hs' =>
        obtain ⟨alg, c⟩ := a
        obtain ⟨line, hmem, hlist⟩ := (hl p alg c).1 ((mem_entries_look hn hi).1 ⟨hs, he, by rw [hs0]; simp⟩)
        obtain ⟨content, hc, _⟩ := hall alg line c p hmem hlist
        exact ⟨content, hc⟩
    obtain ⟨l, hc⟩ := calcHashes_total (sum := sum) (algs := b.algorithms) hr
    rw [hc]
    simp only
    rw [if_pos]
    rw [List.all_eq_true]
    intro r hr'
    obtain ⟨p, hs, content, alg, c, hp, hrd, hac, _, rfl⟩ := ((calcHashes_ok hc).2 r).1 hr'
    obtain ⟨line, hmem, hlist⟩ := (hl p alg c).1 ((mem_entries_look hn hi).1 ⟨hs, hp, hac⟩)
    obtain ⟨content', hc', e⟩ := hall alg line c p hmem hlist
    rw [hrd] at hc'; cases hc'
    simpa using e

/-- The hypothesis is met, with a bag that passes and one that does not. -/
example :
    (∃ b, openBag Sample.readCfg Sample.readTree = .ok b ∧ validateEntries Sample.sum b = .ok ()) ∧
    (∃ b, openBag Sample.readCfg (dset Sample.readTree [py!"data", py!"c"] (.file py!"uvw")) = .ok b ∧
      validateEntries Sample.sum b = .error .bagValidationError) := by
  have key : ∀ (r : Except PyErr RBag) (f : RBag → Bool), (match r with | .ok b => f b | .error _ => false) = true →
      ∃ b, r = .ok b ∧ f b = true := by
    intro r f h
    cases r with
    | error e => simp at h
    | ok b => exact ⟨b, rfl, h⟩
  refine ⟨?_, ?_⟩
  · obtain ⟨b, h1, h2⟩ := key (openBag Sample.readCfg Sample.readTree)
      (fun b => decide (validateEntries Sample.sum b = .ok ())) (by decide +kernel)
    exact ⟨b, h1, by simpa using h2⟩
  · obtain ⟨b, h1, h2⟩ := key (openBag Sample.readCfg (dset Sample.readTree [py!"data", py!"c"] (.file py!"uvw")))
      (fun b => decide (validateEntries Sample.sum b = .error .bagValidationError)) (by decide +kernel)
    exact ⟨b, h1, by simpa using h2⟩

/-! ## C72: Payload-Oxum -/

theorem splitDot_two {s a b : Str} : splitDot s = [a, b] ↔ s = a ++ '.' :: b ∧ '.' ∉ a := by
  unfold splitDot
  constructor
  · intro h
    split at h
    · next hm =>
      cases h
      have hd : s.dropWhile (· ≠ '.') ≠ [] := by
        intro e
        have h' : ∀ x ∈ s, x ≠ '.' := by
          intro x hx
          rintro rfl
          have hall : s.takeWhile (· ≠ '.') = s := by
            have := List.takeWhile_append_dropWhile (p := (· ≠ '.')) (l := s)
            rwa [e, List.append_nil] at this
          rw [← hall] at hx
          have := mem_takeWhile hx
          simp at this
        exact h' _ hm rfl
      refine ⟨?_, ?_⟩
      · cases hd' : s.dropWhile (· ≠ '.') with
        | nil => exact absurd hd' hd
        | cons x r =>
          have hx : x = '.' := by
            have := dropWhile_head_not (p := (· ≠ '.')) (s := s) x (by rw [hd']; rfl)
            simpa using this
          have := List.takeWhile_append_dropWhile (p := (· ≠ '.')) (l := s)
          rw [hd', hx] at this
          exact this.symm
      · intro hm'
        have := mem_takeWhile hm'
        simp at this
    · cases h
  · rintro ⟨rfl, hn⟩
    have hp : ∀ x ∈ a, (decide (x ≠ '.')) = true := by
      intro x hx
      simp only [decide_eq_true_eq]
      rintro rfl
      exact hn hx
    rw [if_pos (by simp), List.takeWhile_append_of_pos hp, List.dropWhile_append_of_pos hp]
    simp

theorem walkPayload_eq {t : Tree} (hw : WfTree t) (hd : t.isdir [py!"data"] = true) (blen : Str → Nat) :
    walkPayload blen t = (payload t).map (fun e => blen e.2) := by
  have hdata : ∀ c, ([py!"data"], Node.file c) ∉ t := by
    intro c hm
    have := dget_of_mem hw.nodup hm
    rcases isdir_iff.1 hd with e | e
    · simp at e
    · rw [this] at e; cases e
  unfold walkPayload payload
  rw [List.map_filterMap]
  suffices key : ∀ l : Tree, (∀ e ∈ l, e ∈ t) → l.filterMap (fun e => match e.2 with
      | .file c => if e.1.head? = some py!"data" && e.1.length ≠ 1 then some (blen c) else none
      | .dir => none) = l.filterMap (fun e => (match e.2 with
      | .file c => if e.1.head? = some py!"data" then some (e.1, c) else none
      | .dir => none).map (fun (e : Path × Str) => blen e.2)) from key t (fun _ h => h)
  intro l hl
  induction l with
  | nil => rfl
  | cons e l ih =>
  rw [List.filterMap_cons, List.filterMap_cons, ih (fun e he => hl e (List.mem_cons_of_mem _ he))]
  have hm := hl e List.mem_cons_self
  obtain ⟨p, n⟩ := e
  cases n with
  | dir => rfl
  | file c =>
    simp only
    by_cases h1 : p.head? = some py!"data"
    · have h2 : p.length ≠ 1 := by
        intro e
        obtain ⟨x, rfl⟩ := List.length_eq_one_iff.1 e
        simp only [List.head?_cons, Option.some.injEq] at h1
        subst h1
        exact hdata c hm
      simp [h1, h2]
    · simp [h1]

/-- **C72**: the Oxum validation passes exactly if the bag has no Payload-Oxum, or the first
one is two decimal numbers with a dot between, the first of which is the total size of the
payload files in bytes and the second their number. -/
theorem C72_oxum {b : RBag} (hw : WfTree b.tree) (hd : b.tree.isdir [py!"data"] = true) (blen : Str → Nat) :
    validateOxum blen b = .ok () ↔
      dget b.info py!"Payload-Oxum" = none ∨
      ∃ v bytes files, dget b.info py!"Payload-Oxum" = some v ∧
        firstValue v = some (bytes ++ '.' :: files) ∧ '.' ∉ bytes ∧
        isdigit bytes = true ∧ isdigit files = true ∧
        pyInt bytes = some (Int.ofNat ((payload b.tree).map (fun e => blen e.2)).sum) ∧
        pyInt files = some (Int.ofNat (payload b.tree).length) := by
  unfold validateOxum
  rw [walkPayload_eq hw hd, hd]
  cases hv : dget b.info py!"Payload-Oxum" with
  | none => simp
  | some v =>
    simp only [reduceCtorEq, false_or, Option.some.injEq]
    cases hf : firstValue v with
    | none =>
      simp only [reduceCtorEq, false_iff]
      rintro ⟨v', bytes, files, rfl, h, _⟩
      rw [hf] at h; cases h
    | some oxum =>
      simp only
      constructor
      · intro h
        split at h
        · next bytes files hs =>
          obtain ⟨rfl, hn⟩ := splitDot_two.1 hs
          split at h
          · cases h
          · next hdig =>
            simp only [Bool.or_eq_true, Bool.not_eq_true', not_or, Bool.not_eq_false] at hdig
            split at h
            · next nb nf hb hfi =>
              simp only [Bool.true_eq_false, if_false, Bool.or_eq_true, decide_eq_true_eq, List.length_map] at h
              split at h
              · cases h
              · next hc =>
                simp only [not_or, Decidable.not_not, ne_eq] at hc
                exact ⟨v, bytes, files, rfl, hf, hn, hdig.1, hdig.2, by rw [hb, hc.2]; rfl, by rw [hfi, hc.1]; rfl⟩
            · cases h
        · cases h
      · rintro ⟨v', bytes, files, rfl, h, hn, d1, d2, p1, p2⟩
        rw [hf] at h
        cases h
        rw [splitDot_two.2 ⟨rfl, hn⟩]
        simp only [d1, d2, p1, p2]
        simp

/-- **C72**: the value `bytes.files` written in decimal, as the splitting code writes it,
passes exactly if the numbers are right. -/
theorem C72_written {b : RBag} (hw : WfTree b.tree) (hd : b.tree.isdir [py!"data"] = true) (blen : Str → Nat)
    {n m : Nat} (h : dget b.info py!"Payload-Oxum" = some (.one (natStr n ++ '.' :: natStr m))) :
    validateOxum blen b = .ok () ↔
      n = ((payload b.tree).map (fun e => blen e.2)).sum ∧ m = (payload b.tree).length := by
  have hdig : ∀ k, isdigit (natStr k) = true := by
    intro k
    unfold isdigit
    simp only [Bool.and_eq_true, decide_eq_true_eq, List.all_eq_true]
    refine ⟨natStr_ne_nil k, fun c hc => ?_⟩
    rw [digitVal_ascii (isDigit_natStr hc)]; rfl
  have hdot : ∀ k, '.' ∉ natStr k := by
    intro k hm
    have := isDigit_natStr hm
    revert this; decide
  rw [C72_oxum hw hd, h]
  constructor
  · rintro (e | ⟨v, bytes, files, e, hf, hn, _, _, p1, p2⟩)
    · cases e
    · cases e
      have hs := (splitDot_two (s := natStr n ++ '.' :: natStr m)).2 ⟨rfl, hdot n⟩
      simp only [firstValue, Option.some.injEq] at hf
      rw [hf, splitDot_two.2 ⟨rfl, hn⟩] at hs
      cases hs
      rw [pyInt_natStr, Option.some.injEq] at p1 p2
      exact ⟨Int.ofNat.inj p1, Int.ofNat.inj p2⟩
  · rintro ⟨e1, e2⟩
    subst e1; subst e2
    exact .inr ⟨_, _, _, rfl, rfl, hdot _, hdig _, hdig _, pyInt_natStr _, pyInt_natStr _⟩

/-- The hypotheses are met, and the sample's `5.2` passes while `5.1` does not. -/
example :
    let b : RBag := {
      tree := Sample.readTree, version := [0, 97], encoding := py!"UTF-8",
      tagFile := py!"bag-info.txt", info := [(py!"Payload-Oxum", .one py!"5.2")],
      algorithms := [], entries := [] }
    WfTree b.tree ∧ b.tree.isdir [py!"data"] = true ∧ validateOxum List.length b = .ok () ∧
    validateOxum List.length { b with info := [(py!"Payload-Oxum", InfoVal.many [py!"5.1", py!"5.2"])] } =
      .error .bagValidationError :=
  ⟨Sample.wf_of_check (by decide), by decide, by decide, by decide⟩

/-! ## C73: versions -/

theorem splitDot_cases (s : Str) : (splitDot s = [s] ∧ '.' ∉ s) ∨ ∃ a b, splitDot s = [a, b] ∧ s = a ++ '.' :: b ∧ '.' ∉ a := by
  by_cases h : '.' ∈ s
  · right
    have : splitDot s = [s.takeWhile (· ≠ '.'), (s.dropWhile (· ≠ '.')).tail] := by unfold splitDot; rw [if_pos h]
    exact ⟨_, _, this, splitDot_two.1 this⟩
  · left
    exact ⟨by unfold splitDot; rw [if_neg h], h⟩

/-- The numbers of a version tuple. -/
def versionTuple (major : Int) : Option Int → List Int
  | none => [major]
  | some m => [major, m]

theorem versionInfo_iff {s : Str} {v : List Int} :
    versionInfo s = some v ↔ ∃ major minor, BagItVersion s major minor ∧ v = versionTuple major minor := by
  unfold versionInfo
  rcases splitDot_cases s with ⟨e, hn⟩ | ⟨a, b, e, hs, hn⟩
  · rw [e]
    simp only [List.foldr_cons, List.foldr_nil]
    constructor
    · intro h
      cases hi : pyInt s with
      | none => rw [hi] at h; cases h
      | some n => rw [hi] at h; cases h; exact ⟨n, none, .one n hn hi, rfl⟩
    · rintro ⟨major, minor, hv, rfl⟩
      cases hv with
      | one _ _ hi => rw [hi]; rfl
      | two a b _ m hs _ _ _ => exact absurd (by rw [hs]; simp) hn
  · rw [e]
    simp only [List.foldr_cons, List.foldr_nil]
    constructor
    · intro h
      cases hb : pyInt b with
      | none => cases ha : pyInt a <;> rw [ha, hb] at h <;> cases h
      | some m =>
        cases ha : pyInt a with
        | none => rw [ha, hb] at h; cases h
        | some n => rw [ha, hb] at h; cases h; exact ⟨n, some m, .two a b n m hs hn ha hb, rfl⟩
    · rintro ⟨major, minor, hv, rfl⟩
      cases hv with
      | one _ h1 _ => exact absurd (by rw [hs]; simp) h1
      | two a' b' _ m hs' hn' ha hb =>
        have e2 := splitDot_two.2 ⟨hs', hn'⟩
        rw [e] at e2
        cases e2
        rw [ha, hb]; rfl

/-- Which versions have which metadata file. -/
theorem tagFileName_tuple (major : Int) (minor : Option Int) :
    (tagFileName (versionTuple major minor) = some py!"package-info.txt" ↔
      major = 0 ∧ ∃ m, minor = some m ∧ 93 ≤ m ∧ m ≤ 95) ∧
    (tagFileName (versionTuple major minor) = some py!"bag-info.txt" ↔
      (major = 0 ∧ ∃ m, minor = some m ∧ 96 ≤ m) ∨ major = 1) ∧
    (tagFileName (versionTuple major minor) = none ↔
      ¬ (major = 0 ∧ ∃ m, minor = some m ∧ 93 ≤ m) ∧ major ≠ 1) := by
  have hne : (py!"package-info.txt" : Str) ≠ py!"bag-info.txt" := by decide
  cases minor with
  | none =>
    unfold tagFileName versionTuple
    have h1 : (tupLe [0, 93] [major] && tupLe [major] [0, 95]) = false := by
      simp [tupLe, tupLt]; omega
    rw [h1]
    have h2 : (tupLe [0, 96] [major] && tupLt [major] [2]) = decide (major = 1) := by
      rw [Bool.eq_iff_iff]
      simp [tupLe, tupLt]; omega
    rw [h2]
    by_cases h : major = 1
    · subst h; simp [hne.symm]
    · simp [h]
  | some m =>
    unfold tagFileName versionTuple
    have h1 : (tupLe [0, 93] [major, m] && tupLe [major, m] [0, 95]) = decide (major = 0 ∧ 93 ≤ m ∧ m ≤ 95) := by
      rw [Bool.eq_iff_iff]
      simp only [tupLe, tupLt, Bool.and_eq_true, Bool.not_eq_true', Bool.or_eq_false_iff,
        decide_eq_false_iff_not, Bool.and_eq_false_iff, decide_eq_true_eq]
      simp only [or_true, and_true]
      omega
    have h2 : (tupLe [0, 96] [major, m] && tupLt [major, m] [2]) = decide ((major = 0 ∧ 96 ≤ m) ∨ major = 1) := by
      rw [Bool.eq_iff_iff]
      simp only [tupLe, tupLt, Bool.and_eq_true, Bool.not_eq_true', Bool.or_eq_false_iff,
        decide_eq_false_iff_not, Bool.and_eq_false_iff, Bool.or_eq_true, decide_eq_true_eq]
      simp only [Bool.false_eq_true, and_false, or_false, or_true, and_true]
      omega
    rw [h1, h2]
    by_cases c1 : major = 0 ∧ 93 ≤ m ∧ m ≤ 95
    · simp only [c1, and_self, decide_true, if_true, Option.some.injEq, hne]
      simp; omega
    · by_cases c2 : (major = 0 ∧ 96 ≤ m) ∨ major = 1
      · simp only [c1, c2, decide_false, decide_true, if_true, Bool.false_eq_true, if_false, Option.some.injEq, hne.symm]
        simp
        omega
      · simp only [c1, c2, decide_false, Bool.false_eq_true, if_false]
        simp
        omega

/-- **C73**: an opened bag has a BagIt version in bagit.txt; its metadata was read from
package-info.txt exactly if the version is 0.93 to 0.95, from bag-info.txt exactly if it is 0.96
or higher but below 2; the metadata are those in that file, or none if it does not exist. -/
theorem C73_metadata_file {cfg : ReadCfg} {t : Tree} {b : RBag} (h : openBag cfg t = .ok b) :
    ∃ tags s major minor, loadTagFile true t [py!"bagit.txt"] = .ok tags ∧
      dget tags py!"BagIt-Version" = some (.one s) ∧ BagItVersion s major minor ∧
      (b.tagFile = py!"package-info.txt" ↔ major = 0 ∧ ∃ m, minor = some m ∧ 93 ≤ m ∧ m ≤ 95) ∧
      (b.tagFile = py!"bag-info.txt" ↔ (major = 0 ∧ ∃ m, minor = some m ∧ 96 ≤ m) ∨ major = 1) ∧
      (t.exists [b.tagFile] = true → loadTagFile false t [b.tagFile] = .ok b.info) ∧
      (t.exists [b.tagFile] = false → b.info = []) := by
  obtain ⟨_, _, htf, hi, tags, v, h1, h2, h3, _⟩ := openBag_parts h
  obtain ⟨major, minor, hv, e⟩ := versionInfo_iff.1 h3
  obtain ⟨k1, k2, _⟩ := tagFileName_tuple major minor
  rw [e] at htf
  rw [htf] at k1 k2
  refine ⟨tags, v, major, minor, h1, h2, hv, ?_, ?_, ?_, ?_⟩
  · rw [← k1, Option.some.injEq]
  · rw [← k2, Option.some.injEq]
  · intro e; rw [if_pos e] at hi; exact hi
  · intro e; rw [e] at hi; simp only [Bool.false_eq_true, if_false, Except.ok.injEq] at hi; exact hi.symm

/-- **C73**: a bag whose version is not of this form or not in these ranges is rejected with a
`BagError`. -/
theorem C73_rejects {cfg : ReadCfg} {t : Tree} {tags : Info} {s : Str}
    (h1 : loadTagFile true t [py!"bagit.txt"] = .ok tags)
    (h2 : dget tags py!"BagIt-Version" = some (.one s))
    (h3 : ∀ major minor, BagItVersion s major minor →
      ¬ (major = 0 ∧ ∃ m, minor = some m ∧ 93 ≤ m) ∧ major ≠ 1) :
    openBag cfg t = .error .bagError := by
  unfold openBag
  rw [h1]
  split
  · rfl
  · simp only
    rw [h2]
    split
    · rfl
    · simp only [oneValue]
      cases hv : versionInfo s with
      | none => rfl
      | some v =>
        obtain ⟨major, minor, hver, rfl⟩ := versionInfo_iff.1 hv
        simp only
        rw [(tagFileName_tuple major minor).2.2.2 (h3 _ _ hver)]

/-- Concrete versions. -/
example : BagItVersion py!"0.97" 0 (some 97) ∧ BagItVersion py!"2" 2 none ∧
    (∃ b, openBag Sample.readCfg Sample.readTree = .ok b ∧ b.tagFile = py!"bag-info.txt") ∧
    (let t := dset Sample.readTree [py!"bagit.txt"]
        (.file py!"BagIt-Version: 2.0\nTag-File-Character-Encoding: UTF-8\n")
     openBag Sample.readCfg t = .error .bagError) := by
  refine ⟨.two py!"0" py!"97" 0 97 (by decide) (by decide) (by decide) (by decide), .one 2 (by decide) (by decide), ?_, by rfl⟩
  have hb : (match openBag Sample.readCfg Sample.readTree with
    | .ok b => decide (b.tagFile = py!"bag-info.txt") | .error _ => false) = true := by decide +kernel
  cases hr : openBag Sample.readCfg Sample.readTree with
  | error e => rw [hr] at hb; simp at hb
  | ok b => rw [hr] at hb; exact ⟨b, rfl, by simpa using hb⟩

/-! ## C74: read-only bags stay as they are -/

theorem makedirsFrom_only {t t' : Tree} {pre rest : Path} (h : t.makedirsFrom pre rest = .ok t') {q : Path}
    (hq : ∀ r, r ≠ [] → r <+: rest → q ≠ pre ++ r) : dget t' q = dget t q := by
  induction rest generalizing t pre with
  | nil => simp only [Tree.makedirsFrom, Except.ok.injEq] at h; rw [h]
  | cons c rest ih =>
    have hq' : ∀ r, r ≠ [] → r <+: rest → q ≠ (pre ++ [c]) ++ r := by
      intro r _ hr e
      exact hq (c :: r) (by simp) (List.cons_prefix_cons.2 ⟨rfl, hr⟩) (by rw [e]; simp)
    simp only [Tree.makedirsFrom] at h
    split at h
    · exact ih h hq'
    · split at h
      · cases h
      · next t1 ht =>
        rw [ih h hq']
        unfold Tree.mkdir at ht
        split at ht
        · cases ht
        · cases ht
          rw [dget_dset, if_neg]
          intro e
          exact hq [c] (by simp) (by simp) e.symm

/-- **C74**: `replicate` of a read-only bag changes nothing but the destination directory's
entries on the way to the replicated path. -/
theorem C74_replicate_only {disk disk' : Tree} {bag dest p q : Path}
    (h : roReplicate disk bag dest p = .ok disk')
    (hq : ∀ r, r ≠ [] → r <+: p → q ≠ dest ++ r) : dget disk' q = dget disk q := by
  unfold roReplicate at h
  split at h
  · cases h
  · split at h
    · cases h
    · split at h
      · split at h
        · cases h; rfl
        · exact makedirsFrom_only h hq
      · split at h
        · cases h
        · next d hd =>
          have e1 : dget d q = dget disk q := by
            split at hd
            · exact makedirsFrom_only hd (fun r hr hp => hq r hr (hp.trans (List.dropLast_prefix p)))
            · cases hd; rfl
          split at h
          · cases h
          · unfold Tree.write at h
            split at h
            · cases h
            · next hc =>
              cases h
              rw [dget_dset, if_neg, e1]
              intro e
              by_cases hp : p = []
              · subst hp
                simp only [List.append_nil, Bool.or_eq_true, not_or, Bool.not_eq_true] at *
                next hdir _ _ _ _ =>
                  simp_all
              · exact hq p hp (List.prefix_refl p) e.symm

/-- **C74**: `save` of a read-only bag always fails, and however often and in whatever order
the operations are used, as long as files are replicated only to directories that neither
contain the bag nor lie in it, nothing in the bag changes. -/
theorem C74_unchanged (bag : Path) (ops : List RoOp) (disk : Tree)
    (h : ∀ dest p, RoOp.replicate dest p ∈ ops → ¬ dest <+: bag ∧ ¬ bag <+: dest) {q : Path} (hq : bag <+: q) :
    dget (roRun bag ops disk) q = dget disk q ∧ (roStep bag disk .save).1 = .error .bagError := by
  refine ⟨?_, rfl⟩
  induction ops generalizing disk with
  | nil => rfl
  | cons op ops ih =>
    rw [roRun, ih _ (fun dest p hm => h dest p (List.mem_cons_of_mem _ hm))]
    cases op with
    | save => rfl
    | query => rfl
    | read p => unfold roStep; simp only; split <;> rfl
    | replicate dest p =>
      unfold roStep
      simp only
      cases hr : roReplicate disk bag dest p with
      | error e => rfl
      | ok disk' =>
        simp only
        refine C74_replicate_only hr ?_
        intro r _ _ e
        obtain ⟨h1, h2⟩ := h dest p List.mem_cons_self
        rw [e] at hq
        rcases List.prefix_or_prefix_of_prefix hq (List.prefix_append dest r) with h | h
        · exact h2 h
        · exact h1 h

/-- A concrete run: the file is copied, the bag stays. -/
example :
    let disk : Tree := [([py!"bag"], .dir), ([py!"bag", py!"data"], .dir),
      ([py!"bag", py!"data", py!"a"], .file py!"x"), ([py!"out"], .dir)]
    let disk' := roRun [py!"bag"] [.query, .save, .replicate [py!"out"] [py!"data", py!"a"]] disk
    disk'.read [py!"out", py!"data", py!"a"] = some py!"x" ∧
    disk'.read [py!"bag", py!"data", py!"a"] = some py!"x" ∧
    ¬ [py!"out"] <+: [py!"bag"] ∧ ¬ [py!"bag"] <+: [py!"out"] := by decide

/-! ## C75: fetch.txt -/

theorem fetch_iff {line u s f : Str} : splitWsMax 2 (strip line) = [u, s, f] ↔ FetchLine line u s f := by
  constructor
  · intro h
    have hne : strip line ≠ [] := by
      intro e; rw [e, splitWsMax_nil] at h; cases h
    obtain ⟨a, b, hl, ha, hb⟩ := strip_decomp line
    rcases splitWsMax_trimmed hne (trimmed_strip line) with ⟨_, hn⟩ | ⟨w, gap, r, hw, h1, h2, h3, hn⟩
    · rw [hn 1] at h; cases h
    · rw [hn 1, List.cons.injEq] at h
      obtain ⟨rfl, h⟩ := h
      rcases splitWsMax_trimmed h3.1 h3.2 with ⟨_, hn'⟩ | ⟨w', gap', r', hw', h1', h2', h3', hn'⟩
      · rw [hn' 0] at h; cases h
      · rw [hn' 0, value_split h3', List.cons.injEq, List.cons.injEq] at h
        obtain ⟨rfl, rfl, _⟩ := h
        refine ⟨a, gap, gap', b, ?_, ha, hb, h1, h2, h1', h2', h3'⟩
        rw [hw'] at hw
        rw [hl, hw]
        simp [List.append_assoc]
  · rintro ⟨a, gap, gap', b, rfl, ha, hb, h1, h2, h3, h4, h5⟩
    have ht : Trimmed (u ++ gap ++ s ++ gap' ++ f) := by
      have := trimmed_words (w := u) (gap := gap ++ s ++ gap') h1 h5
      simpa [List.append_assoc] using this
    rw [strip_surround ha hb, strip_of_trimmed ht]
    have e : u ++ gap ++ s ++ gap' ++ f = u ++ (gap ++ (s ++ (gap' ++ f))) := by simp [List.append_assoc]
    rw [e, splitWsMax_word h1 h2, splitWsMax_word h3 h4, value_split h5]

/-- **C75**: reading a fetch file yields the URL, length and path of each line in order.  The
iteration ends early only with an error: a `ValueError` at a line that does not have three
fields, a `BagError` at a line with a dangerous path. -/
theorem C75_fetch {cfg : ReadCfg} {t : Tree} {text : Str} (h : t.read [py!"fetch.txt"] = some text) :
    ∃ done rest, textLines .universal text = done ++ rest ∧
      Forall₂ (fun line r => FetchLine line r.1 r.2.1 r.2.2 ∧ isDangerous cfg.env cfg.bagpath r.2.2 = false)
        done (fetchEntries cfg t).1 ∧
      ((fetchEntries cfg t).2 = none ∧ rest = [] ∨
       ∃ line rest', rest = line :: rest' ∧
        ((fetchEntries cfg t).2 = some .valueError ∧ (∀ u s f, ¬ FetchLine line u s f) ∨
         (fetchEntries cfg t).2 = some .bagError ∧
          ∃ u s f, FetchLine line u s f ∧ isDangerous cfg.env cfg.bagpath f = true)) := by
  unfold fetchEntries
  rw [h]
  simp only
  generalize isDangerous cfg.env cfg.bagpath = d
  generalize textLines .universal text = ls
  induction ls with
  | nil => exact ⟨[], [], rfl, .nil, .inl ⟨rfl, rfl⟩⟩
  | cons l ls ih =>
    unfold fetchLines
    split
    · next u s f hs =>
      have hl := fetch_iff.1 hs
      split
      · next hd => exact ⟨[], l :: ls, rfl, .nil, .inr ⟨l, ls, rfl, .inr ⟨rfl, u, s, f, hl, hd⟩⟩⟩
      · next hd =>
        obtain ⟨done, rest, e, hf, hr⟩ := ih
        exact ⟨l :: done, rest, by rw [e]; rfl, .cons ⟨hl, by simpa using hd⟩ hf, hr⟩
    · next hn =>
      refine ⟨[], l :: ls, rfl, .nil, .inr ⟨l, ls, rfl, .inl ⟨rfl, ?_⟩⟩⟩
      intro u s f hl
      exact hn u s f (fetch_iff.2 hl)

/-- The fields of a line are determined by it. -/
theorem C75_unique {line u s f u' s' f' : Str} (h : FetchLine line u s f) (h' : FetchLine line u' s' f') :
    u = u' ∧ s = s' ∧ f = f' := by
  have := (fetch_iff.2 h).symm.trans (fetch_iff.2 h')
  simpa using this

/-- A bag without fetch.txt has no entries to fetch. -/
theorem C75_none {cfg : ReadCfg} {t : Tree} (h : t.read [py!"fetch.txt"] = none) :
    fetchEntries cfg t = ([], none) := by
  unfold fetchEntries; rw [h]

/-- A path with a space, and a line with too few fields. -/
example : fetchEntries Sample.readCfg Sample.readTree = ([(py!"http://x", py!"5", py!"data/d e")], none) ∧
    fetchEntries Sample.readCfg (dset Sample.readTree [py!"fetch.txt"] (.file py!"u - data/x\nu 5\nu - data/y\n")) =
      ([(py!"u", py!"-", py!"data/x")], some .valueError) := ⟨rfl, rfl⟩

end Verif
