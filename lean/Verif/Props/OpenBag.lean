import Verif.Spec.OpenBag
import Verif.Lemmas.Below
import Verif.Props.ReadBag
import Verif.Props.RoundTrip
/-!
# Opening bags in directories and archives (C88), and as head bags (C89)
-/

namespace Verif
open Spec

/-- The part of a filesystem below one of its directories. -/
theorem contains_below {t : Tree} {d : Path} (hne : d ≠ []) (hd : t.isdir d = true) : Contains t d (t.below d) := by
  intro p
  by_cases hp : p = []
  · subst hp
    rw [List.append_nil]
    have hg : dget t d = some .dir := by
      rcases isdir_iff.1 hd with h | h
      · exact absurd h hne
      · exact h
    constructor
    · unfold Tree.read; rw [hg, dget_below_root]
    · rw [hd, isdir_iff.2 (.inl rfl)]
  · constructor
    · unfold Tree.read; rw [dget_below hp]
    · have h1 : d ++ p ≠ [] := by simp [hp]
      unfold Tree.isdir
      rw [dget_below hp]
      simp [h1, hp]

theorem Spec.SameTree.symm {t t' : Tree} (h : SameTree t t') : SameTree t' t := fun p => ⟨(h p).1.symm, (h p).2.symm⟩

theorem Spec.SameTree.isfile {t t' : Tree} (h : SameTree t t') (p : Path) : t.isfile p = t'.isfile p := by
  rw [Bool.eq_iff_iff, isfile_read, isfile_read, (h p).1]

theorem Spec.SameTree.exists {t t' : Tree} (h : SameTree t t') (p : Path) : t.exists p = t'.exists p := by
  have key : ∀ t : Tree, t.exists p = (t.isfile p || t.isdir p) := by
    intro t
    rw [Bool.eq_iff_iff, Bool.or_eq_true]
    constructor
    · intro h
      by_cases hp : p = []
      · exact .inr (isdir_iff.2 (.inl hp))
      · rw [exists_iff hp] at h
        cases hg : dget t p with
        | none => exact absurd hg h
        | some n => cases n with
          | file c => exact .inl (isfile_iff.2 ⟨c, hg⟩)
          | dir => exact .inr (isdir_iff.2 (.inr hg))
    · rintro (h | h)
      · exact exists_of_isfile h
      · exact exists_of_isdir h
  rw [key, key, h.isfile, (h p).2]

theorem loadTagFile_same {t t' : Tree} (h : SameTree t t') (sig : Bool) (p : Path) : loadTagFile sig t p = loadTagFile sig t' p := by
  unfold loadTagFile; rw [(h p).1]

theorem manifestFiles_same {t t' : Tree} (h : SameTree t t') (cfg : ReadCfg) (kind : Str) :
    manifestFiles cfg kind t = manifestFiles cfg kind t' := by
  unfold manifestFiles
  congr 1
  funext e
  exact h.isfile e.2

theorem loadFiles_same {t t' : Tree} (h : SameTree t t') (f : Str → Bool) (v1 : Bool) (enc : Str) (l : List (Str × Path))
    (es : Entries) : loadFiles f v1 enc t l es = loadFiles f v1 enc t' l es := by
  induction l generalizing es with
  | nil => rfl
  | cons x l ih =>
    obtain ⟨a, p⟩ := x
    simp only [loadFiles]
    rw [(h p).1]
    split
    · rfl
    · exact ih _

theorem addEntry_keys {f : Str → Bool} {v1 : Bool} {alg : Str} {es es' : Entries} {e : Str × Str}
    (h : addEntry f v1 alg es e = .ok es') : e.2 ∈ dkeys es' ∧ ∀ k ∈ dkeys es, k ∈ dkeys es' := by
  have key : ∀ v, e.2 ∈ dkeys (dset es e.2 v) ∧ ∀ k ∈ dkeys es, k ∈ dkeys (dset es e.2 v) := by
    intro v
    rw [dkeys_dset]
    split
    · next h => exact ⟨h, fun _ h => h⟩
    · exact ⟨by simp, fun k hk => List.mem_append_left _ hk⟩
  obtain ⟨a, b⟩ := e
  simp only [addEntry] at h
  split at h
  · cases h
  split at h
  · cases h; exact key _
  split at h
  · split at h
    · cases h
    · cases h; exact key _
  · cases h

theorem loadLines_keys {f : Str → Bool} {v1 : Bool} {alg : Str} {l : List Str} {es es' : Entries}
    (h : loadLines f v1 alg l es = .ok es') : ∀ k ∈ dkeys es, k ∈ dkeys es' := by
  induction l generalizing es with
  | nil => cases h; exact fun _ h => h
  | cons x l ih =>
    simp only [loadLines] at h
    split at h
    · exact ih h
    · split at h
      · cases h
      · next h1 => exact fun k hk => ih h k ((addEntry_keys h1).2 k hk)

/-- Whether a listed path is dangerous is the only thing that depends on the place of the bag. -/
theorem loadLines_safe {f g : Str → Bool} {v1 : Bool} {alg : Str} {l : List Str} {es es' : Entries}
    (h : loadLines f v1 alg l es = .ok es') (hg : ∀ k ∈ dkeys es', g k = false) : loadLines g v1 alg l es = .ok es' := by
  induction l generalizing es with
  | nil => exact h
  | cons x l ih =>
    simp only [loadLines] at h ⊢
    split at h
    · exact ih h
    · next e he =>
      split at h
      · cases h
      · next es1 h1 =>
        have hk := loadLines_keys h e.2 (addEntry_keys h1).1
        have : addEntry g v1 alg es e = .ok es1 := by
          rw [← h1]
          obtain ⟨a, b⟩ := e
          have hf : f b = false := by
            cases hf : f b with
            | false => rfl
            | true => simp only [addEntry, hf, if_true] at h1; cases h1
          simp only [addEntry, hf, hg _ hk]
        rw [this]
        exact ih h

theorem loadFiles_keys {f : Str → Bool} {v1 : Bool} {enc : Str} {t : Tree} {l : List (Str × Path)} {es es' : Entries}
    (h : loadFiles f v1 enc t l es = .ok es') : ∀ k ∈ dkeys es, k ∈ dkeys es' := by
  induction l generalizing es with
  | nil => cases h; exact fun _ h => h
  | cons x l ih =>
    obtain ⟨a, p⟩ := x
    simp only [loadFiles] at h
    split at h
    · cases h
    · next h1 => exact fun k hk => ih h k (loadLines_keys h1 k hk)

theorem loadFiles_safe {f g : Str → Bool} {v1 : Bool} {enc : Str} {t : Tree} {l : List (Str × Path)} {es es' : Entries}
    (h : loadFiles f v1 enc t l es = .ok es') (hg : ∀ k ∈ dkeys es', g k = false) : loadFiles g v1 enc t l es = .ok es' := by
  induction l generalizing es with
  | nil => exact h
  | cons x l ih =>
    obtain ⟨a, p⟩ := x
    simp only [loadFiles] at h ⊢
    split at h
    · cases h
    · next es1 h1 =>
      rw [loadLines_safe h1 (fun k hk => hg k (loadFiles_keys h k hk))]
      exact ih h

/-- A bag with the same files at another place is read alike, if no listed path is dangerous there. -/
theorem openBag_same {cfg : ReadCfg} {p1 p2 : Str} {t t' : Tree} (hs : SameTree t t') {b : RBag}
    (ho : openBag { cfg with bagpath := p1 } t = .ok b) (hd : ∀ k ∈ dkeys b.entries, isDangerous cfg.env p2 k = false) :
    openBag { cfg with bagpath := p2 } t' = .ok { b with tree := t' } := by
  unfold openBag at ho ⊢
  rw [← hs.isfile, ← loadTagFile_same hs]
  split at ho
  · cases ho
  next h1 =>
  rw [if_neg h1]
  split at ho
  · cases ho
  next tags h2 =>
  try rw [h2]
  try simp only
  split at ho
  · cases ho
  next h3 =>
  rw [if_neg h3]
  split at ho
  · cases ho
  next v h4 =>
  try rw [h4]
  try simp only
  split at ho
  · cases ho
  next version h5 =>
  try rw [h5]
  try simp only
  split at ho
  · cases ho
  next tagFile h6 =>
  try rw [h6]
  try simp only
  split at ho
  · cases ho
  next encoding h7 =>
  try rw [h7]
  try simp only
  split at ho
  · cases ho
  next h8 =>
  rw [if_neg h8, ← hs.exists, ← loadTagFile_same hs]
  split at ho
  · cases ho
  next info h9 =>
  try rw [h9]
  try simp only
  split at ho
  · cases ho
  next algorithms entries h10 =>
  cases ho
  have : loadManifests { cfg with bagpath := p2 } version encoding t' = .ok (algorithms, entries) := by
    unfold loadManifests at h10 ⊢
    simp only at h10 ⊢
    rw [← loadFiles_same hs, ← manifestFiles_same hs, ← manifestFiles_same hs]
    split at h10
    · cases h10
    · next es h11 =>
      cases h10
      have e : ∀ kind, manifestFiles { cfg with bagpath := p2 } kind t = manifestFiles { cfg with bagpath := p1 } kind t :=
        fun _ => rfl
      rw [e, e, loadFiles_safe h11 hd]
  rw [this]

/-! ## C88 -/

theorem find_first {l : List Path} {p : Path → Bool} (h : l.Pairwise (fun a b => a.length ≤ b.length)) {d : Path}
    (hf : l.find? p = some d) : d ∈ l ∧ p d = true ∧ ∀ d' ∈ l, p d' = true → d.length ≤ d'.length := by
  induction l with
  | nil => cases hf
  | cons x l ih =>
    rw [List.pairwise_cons] at h
    rw [List.find?_cons] at hf
    cases hx : p x with
    | true =>
      rw [hx] at hf
      cases hf
      refine ⟨List.mem_cons_self, hx, fun d' hd' _ => ?_⟩
      rcases List.mem_cons.1 hd' with rfl | hd'
      · exact Nat.le_refl _
      · exact h.1 _ hd'
    | false =>
      rw [hx] at hf
      obtain ⟨h1, h2, h3⟩ := ih h.2 hf
      refine ⟨List.mem_cons_of_mem _ h1, h2, fun d' hd' hp => ?_⟩
      rcases List.mem_cons.1 hd' with rfl | hd'
      · rw [hx] at hp; cases hp
      · exact h3 _ hd' hp

/-- A location that names an archive on disk. -/
structure ArchiveAt (P : Places) (loc : Str) (a : Tree) : Prop where
  nourl : contains py!"://" loc = false
  ext : ∃ e, e <:+ loc ∧ (e = py!".zip" ∨ e = py!".tar" ∨ e = py!".tar.gz" ∨ e = py!".tar.bz2" ∨ e = py!".tgz")
  holds : P.at_ loc = some (.file (some a))
  walk : BreadthFirst a (P.walk a)

theorem openPlace_archive {P : Places} {loc : Str} {a : Tree} (h : ArchiveAt P loc a) :
    openPlace P loc = match (P.walk a).find? (fun d => a.isfile (d ++ [py!"bagit.txt"])) with
      | none => .error .bagError
      | some d => .ok (d.getLast?.getD [], a.below d) := by
  have hne : loc ≠ [] := by
    rintro rfl
    obtain ⟨e, hs, he⟩ := h.ext
    have := List.suffix_nil.1 hs
    subst this
    revert he; decide
  unfold openPlace
  rw [if_neg hne, h.nourl, h.holds]
  simp only [Bool.false_eq_true, if_false]
  have hany : archiveExts.any (fun ext => endsWith ext loc) = true := by
    obtain ⟨e, hs, he⟩ := h.ext
    exact List.any_eq_true.2 ⟨e, by unfold archiveExts; simpa using he, List.isSuffixOf_iff_suffix.2 hs⟩
  rw [if_pos hany]
  rfl

/-- C88: from an archive the least deep directory with a bagit.txt is opened, under its own name and
with exactly its contents. -/
theorem C88_shallowest {P : Places} {loc : Str} {a : Tree} (ha : ArchiveAt P loc a) {n : Str} {t : Tree}
    (h : openPlace P loc = .ok (n, t)) :
    ∃ d, HasBagit a d ∧ d.getLast? = some n ∧ Contains a d t ∧
      ∀ d', d' ≠ [] → HasBagit a d' → d.length ≤ d'.length := by
  rw [openPlace_archive ha] at h
  split at h
  · cases h
  · next d hd =>
    cases h
    obtain ⟨h1, h2, h3⟩ := find_first ha.walk.order hd
    obtain ⟨hne, hdir⟩ := (ha.walk.mem d).1 h1
    refine ⟨d, ⟨hdir, h2⟩, ?_, contains_below hne hdir, ?_⟩
    · cases hl : d.getLast? with
      | none => exact absurd (List.getLast?_eq_none_iff.1 hl) hne
      | some x => rfl
    · intro d' hne' hd'
      exact h3 d' ((ha.walk.mem d').2 ⟨hne', hd'.1⟩) hd'.2

/-- C88: an archive is rejected exactly if no directory in it has a bagit.txt. -/
theorem C88_rejected {P : Places} {loc : Str} {a : Tree} (ha : ArchiveAt P loc a) :
    openPlace P loc = .error .bagError ↔ ∀ d, d ≠ [] → ¬ HasBagit a d := by
  rw [openPlace_archive ha]
  constructor
  · intro h
    split at h
    · next hn =>
      intro d hne hd
      have := List.find?_eq_none.1 hn d ((ha.walk.mem d).2 ⟨hne, hd.1⟩)
      exact this hd.2
    · cases h
  · intro h
    split
    · rfl
    · next d hd =>
      exfalso
      obtain ⟨h1, h2, _⟩ := find_first ha.walk.order hd
      obtain ⟨hne, hdir⟩ := (ha.walk.mem d).1 h1
      exact h d hne ⟨hdir, h2⟩

/-- C88: a bag in a directory, and the same bag in an archive, where no other directory at the top of the archive is
a bag.  It opens from the archive with the same name, metadata, manifest entries and files as from the
directory, whatever else the archive or the bag contains. -/
theorem C88_archive_same {P : Places} {cfg : ReadCfg} {dirLoc arcLoc : Str} {t a : Tree} {n : Str} {b : RBag}
    (hd : P.at_ dirLoc = some (.dir t)) (ho : openAt P cfg dirLoc = .ok (n, b)) (hu : contains py!"://" dirLoc = false)
    (hne : dirLoc ≠ []) (ha : ArchiveAt P arcLoc a) (hc : Contains a [n] t)
    (hone : ∀ m, m ≠ n → ¬ HasBagit a [m])
    (hsafe : ∀ k ∈ dkeys b.entries, isDangerous cfg.env arcLoc k = false) :
    ∃ b', openAt P cfg arcLoc = .ok (n, b') ∧ SameTree t b'.tree ∧ b' = { b with tree := b'.tree } := by
  unfold openAt at ho
  have hp : openPlace P dirLoc = .ok (baseName dirLoc, t) := by
    unfold openPlace
    rw [if_neg hne, hu, hd]
    rfl
  rw [hp] at ho
  simp only at ho
  split at ho
  · cases ho
  next b1 hb1 =>
  injection ho with ho
  injection ho with hn hbb
  subst hbb
  have hbagit : t.isfile [py!"bagit.txt"] = true := by
    unfold openBag at hb1
    split at hb1
    · cases hb1
    · next h => simpa using h
  have hnb : HasBagit a [n] := by
    refine ⟨?_, ?_⟩
    · have := (hc []).2
      rw [List.append_nil] at this
      rw [this]; exact isdir_iff.2 (.inl rfl)
    · rw [isfile_read, (hc [py!"bagit.txt"]).1, ← isfile_read]; exact hbagit
  have hopen : openPlace P arcLoc = .ok (n, a.below [n]) := by
    rw [openPlace_archive ha]
    have hmem := (ha.walk.mem [n]).2 ⟨by simp, hnb.1⟩
    cases hf : (P.walk a).find? (fun d => a.isfile (d ++ [py!"bagit.txt"])) with
    | none => exact absurd hnb.2 (List.find?_eq_none.1 hf [n] hmem)
    | some d =>
      obtain ⟨h1, h2, h3⟩ := find_first ha.walk.order hf
      obtain ⟨hdne, hdir⟩ := (ha.walk.mem d).1 h1
      have hlen := h3 [n] hmem hnb.2
      have : d = [n] := by
        cases d with
        | nil => exact absurd rfl hdne
        | cons m r =>
          cases r with
          | cons x y => simp at hlen
          | nil =>
            by_cases hm : m = n
            · rw [hm]
            · exact absurd ⟨hdir, h2⟩ (hone m hm)
      subst this
      rfl
  have hsame : SameTree t (a.below [n]) := by
    intro p
    have h1 := hc p
    have h2 := contains_below (t := a) (d := [n]) (by simp) hnb.1 p
    exact ⟨h1.1.symm.trans h2.1, h1.2.symm.trans h2.2⟩
  refine ⟨{ b1 with tree := a.below [n] }, ?_, hsame, rfl⟩
  unfold openAt
  rw [hopen]
  simp only
  rw [openBag_same hsame hb1 hsafe]

/-- A bag that is not in a directory of its own in an archive is not found. -/
theorem C88_bag_at_root {P : Places} {loc : Str} {a : Tree} (ha : ArchiveAt P loc a)
    (hdirs : ∀ d, d ≠ [] → ¬ HasBagit a d) (cfg : ReadCfg) : openAt P cfg loc = .error .bagError := by
  unfold openAt
  rw [(C88_rejected ha).2 hdirs]

/-! ### Examples -/

theorem Sample.breadth_of_check {t : Tree} {l : List Path} (h1 : ∀ d ∈ l, d ≠ [] ∧ t.isdir d = true)
    (h2 : ∀ e ∈ t, e.1 ≠ [] → t.isdir e.1 = true → e.1 ∈ l)
    (h3 : l.Pairwise (fun a b => a.length ≤ b.length)) : BreadthFirst t l := by
  refine ⟨fun d => ⟨h1 d, ?_⟩, h3⟩
  rintro ⟨hne, hd⟩
  have := hd
  rcases isdir_iff.1 this with rfl | h
  · exact absurd rfl hne
  · exact h2 _ (mem_of_dget h) hne hd

/-- C88: a file whose name has none of the five endings of archives is refused, whatever is in it. -/
theorem C88_other_file {P : Places} {loc : Str} {a : Option Tree} (hu : contains py!"://" loc = false) (hf : P.at_ loc = some (.file a))
    (hx : ∀ e, e = py!".zip" ∨ e = py!".tar" ∨ e = py!".tar.gz" ∨ e = py!".tar.bz2" ∨ e = py!".tgz" → ¬ e <:+ loc) (cfg : ReadCfg) :
    openAt P cfg loc = .error .valueError := by
  unfold openAt openPlace
  by_cases hl : loc = []
  · rw [if_pos hl]
  · rw [if_neg hl, hu, hf]
    simp only [Bool.false_eq_true, if_false]
    rw [if_neg]
    intro h
    obtain ⟨e, he, hs⟩ := List.any_eq_true.1 h
    exact hx e (by unfold archiveExts at he; simpa using he) (List.isSuffixOf_iff_suffix.1 hs)

/-- C88: `is_headbag` says whether `bag-info.txt` has a line for `Multibag-Head-Version`, also of a bag in an archive. -/
theorem C88_is_headbag {P : Places} {cfg : ReadCfg} {loc n : Str} {b : RBag} (h : openAt P cfg loc = .ok (n, b))
    (ht : b.tagFile = py!"bag-info.txt") {text : Str} (hr : b.tree.read [py!"bag-info.txt"] = some text) {l : List (Str × Str)}
    (hl : parseTags .universal text = .ok l) :
    ∃ yes, isHeadbag P cfg loc = .ok yes ∧ (yes = true ↔ ∃ v, (py!"Multibag-Head-Version", v) ∈ l) := by
  refine ⟨dmem b.info py!"Multibag-Head-Version", by unfold isHeadbag; rw [h], ?_⟩
  have hi : b.info = loadTags l := by
    unfold openAt at h
    cases hp : openPlace P loc with
    | error e => rw [hp] at h; cases h
    | ok r =>
      rw [hp] at h
      simp only at h
      cases hb : openBag { cfg with bagpath := loc } r.2 with
      | error e => rw [hb] at h; cases h
      | ok b' =>
        rw [hb] at h
        cases h
        obtain ⟨e, _, _, hbi, _⟩ := openBag_parts hb
        rw [ht, ← e, if_pos (by unfold Tree.exists Tree.read at *; cases hd : dget b.tree [py!"bag-info.txt"] with
          | none => rw [hd] at hr; cases hr
          | some _ => simp)] at hbi
        unfold loadTagFile at hbi
        rw [hr] at hbi
        simp only [Bool.false_eq_true, if_false] at hbi
        rw [hl] at hbi
        exact (Except.ok.inj hbi).symm
  rw [hi]
  exact dmem_loadTags l _

/-- An archive with a bag, in whose payload there is another bag, and with another directory. -/
def Sample.arc : Tree :=
  [([py!"extra"], .dir), ([py!"extra", py!"deep"], .dir), ([py!"extra", py!"deep", py!"bagit.txt"], .file py!"x"),
   ([py!"bag"], .dir)] ++ Sample.readTree.map (fun e => (py!"bag" :: e.1, e.2)) ++
  [([py!"bag", py!"data", py!"inner"], .dir), ([py!"bag", py!"data", py!"inner", py!"bagit.txt"], .file py!"x")]

def Sample.arcDirs : List Path :=
  [[py!"extra"], [py!"bag"], [py!"extra", py!"deep"], [py!"bag", py!"data"], [py!"bag", py!"data", py!"inner"]]

/-- The archive, and its bag in a directory. -/
def Sample.places : Places where
  at_ loc := if loc = py!"/store/bag" then some (.dir (Sample.arc.below [py!"bag"]))
    else if loc = py!"/store/some.zip" then some (.file (some Sample.arc)) else none
  url _ := .error .osError
  walk _ := Sample.arcDirs

theorem Sample.arc_at : ArchiveAt Sample.places py!"/store/some.zip" Sample.arc where
  nourl := by decide
  ext := ⟨py!".zip", ⟨py!"/store/some", rfl⟩, by decide⟩
  holds := rfl
  walk := by
    refine Sample.breadth_of_check ?_ ?_ ?_
    · decide +kernel
    · decide +kernel
    · decide +kernel

/-- The hypotheses of `C88_archive_same` are met: another bag in the payload and another directory with a bag
further down do no harm. -/
example : ∃ b b', openAt Sample.places Sample.readCfg py!"/store/bag" = .ok (py!"bag", b) ∧
    openAt Sample.places Sample.readCfg py!"/store/some.zip" = .ok (py!"bag", b') ∧ b'.entries = b.entries ∧ b.entries ≠ [] := by
  have h : ((openAt Sample.places Sample.readCfg py!"/store/bag").toOption.map (fun r => (r.1 = py!"bag" ∧ r.2.entries ≠ [] ∧
      ∀ k ∈ dkeys r.2.entries, isDangerous Sample.readCfg.env py!"/store/some.zip" k = false : Bool))) = some true := by
    decide +kernel
  cases hb : openAt Sample.places Sample.readCfg py!"/store/bag" with
  | error e => rw [hb] at h; cases h
  | ok r =>
    obtain ⟨n, b⟩ := r
    rw [hb] at h
    simp only [Except.toOption, Option.map, Option.some.injEq, decide_eq_true_eq] at h
    obtain ⟨rfl, hne, hs⟩ := h
    have hdir : Sample.arc.isdir [py!"bag"] = true := by decide +kernel
    have hone : ∀ m, m ≠ py!"bag" → ¬ HasBagit Sample.arc [m] := by
      rintro m hm ⟨hd, hf⟩
      have hall : ∀ e ∈ Sample.arc, e.1.length = 2 → e.1.getLast? = some py!"bagit.txt" → e.1 = [py!"bag", py!"bagit.txt"] := by
        decide +kernel
      obtain ⟨c, hc⟩ := isfile_iff.1 hf
      have := hall _ (mem_of_dget hc) rfl rfl
      simp at this
      exact hm this
    obtain ⟨b', h1, _, h3⟩ := C88_archive_same (arcLoc := py!"/store/some.zip") (a := Sample.arc) rfl hb (by decide) (by decide)
      Sample.arc_at (contains_below (by simp) hdir) hone hs
    exact ⟨b, b', rfl, h1, by rw [h3], hne⟩

/-- A bag whose files are at the root of the archive. -/
def Sample.flatPlaces : Places :=
  { Sample.places with at_ := fun _ => some (.file (some Sample.readTree)), walk := fun _ => [[py!"data"]] }

/-- The hypotheses of `C88_bag_at_root` are met by a valid bag. -/
example : (∃ b, openBag Sample.readCfg Sample.readTree = .ok b) ∧
    openAt Sample.flatPlaces Sample.readCfg py!"/store/flat.tgz" = .error .bagError := by
  refine ⟨?_, C88_bag_at_root (a := Sample.readTree) ⟨by decide, ⟨py!".tgz", ⟨py!"/store/flat", rfl⟩, by decide⟩, rfl, ?_⟩ ?_ _⟩
  · cases h : openBag Sample.readCfg Sample.readTree with
    | ok b => exact ⟨b, rfl⟩
    | error e =>
      have : (openBag Sample.readCfg Sample.readTree).toOption.isSome = true := by decide +kernel
      rw [h] at this; cases this
  · refine Sample.breadth_of_check ?_ ?_ ?_
    · decide +kernel
    · decide +kernel
    · decide +kernel
  · rintro d hne ⟨hd, hf⟩
    have hall : ∀ e ∈ Sample.readTree, e.1.getLast? = some py!"bagit.txt" → e.1.length = 1 := by decide +kernel
    obtain ⟨c, hc⟩ := isfile_iff.1 hf
    have := hall _ (mem_of_dget hc) (by simp)
    simp at this
    exact hne this

/-- The name of the bag is lost if the location ends with a slash (C88). -/
theorem C88_negation_trailing_slash {P : Places} {cfg : ReadCfg} {loc : Str} {t : Tree} {n : Str} {b : RBag}
    (hat : P.at_ (loc ++ ['/']) = some (.dir t)) (hu : contains py!"://" (loc ++ ['/']) = false)
    (h : openAt P cfg (loc ++ ['/']) = .ok (n, b)) : n = [] := by
  unfold openAt openPlace at h
  rw [if_neg (by simp), hu, hat] at h
  simp only [Bool.false_eq_true, if_false] at h
  split at h
  · cases h
  · injection h with h
    injection h with h _
    rw [← h]
    unfold baseName
    rw [splitOn_append]
    simp [splitOn]

example : ((openAt { Sample.places with at_ := fun _ => some (.dir Sample.readTree) } Sample.readCfg py!"/store/bag/").toOption.map
    (fun r => r.1)) = some [] := by decide +kernel

/-! ## C89 -/

/-- C89: the methods for reading a head bag are there afterwards, and an object that has them keeps its state,
unless it gets the methods for updating. -/
theorem C89_as_headbag {b b' : BagObj} {readonly : Bool} (h : asHeadbag b readonly = .ok b') :
    b'.cls.readsHead = true ∧ b'.state.tree = b.state.tree ∧ b'.state.info = b.state.info ∧
    (b.cls = .head → b' = b) ∧ (b.cls = .readOnlyHead → b' = b) ∧
    (b'.cls.updatesHead = true ↔ b.cls = .head ∨ (readonly = false ∧ b.cls ≠ .readOnly ∧ b.cls.extendedReadOnly = false)) := by
  obtain ⟨c, hb, st⟩ := b
  cases c <;> cases readonly <;> cases hb <;>
    simp [asHeadbag, asExtended, BagClass.extended, BagClass.readsHead, BagClass.updatesHead, BagClass.extendedReadOnly,
      BagObj.resetCaches] at h <;> subst h <;>
    simp [BagClass.readsHead, BagClass.updatesHead, BagClass.extendedReadOnly, HeadBag.open]

/-- C89: only what is no bag, and an ordinary bag without a bagit.txt, are rejected. -/
theorem C89_rejected (b : BagObj) (readonly : Bool) :
    (∃ e, asHeadbag b readonly = .error e) ↔ b.cls = .notBag ∨ (b.cls = .bag ∧ b.hasBagit = false) := by
  obtain ⟨c, hb, st⟩ := b
  cases c <;> cases readonly <;> cases hb <;>
    simp [asHeadbag, asExtended, BagClass.extended, BagClass.readsHead, BagClass.updatesHead, BagClass.extendedReadOnly]

/-- C89: `as_extended` changes neither the contents of a bag nor what was read or set before, leaves objects alone that
are extended already, and gives methods for updating the metadata to those that are not read-only. -/
theorem C89_as_extended {b b' : BagObj} (h : asExtended b = .ok b') :
    b'.cls.extended = true ∧ b'.state = b.state ∧ (b.cls.extended = true → b' = b) ∧
    (b'.cls = .extReadOnly ↔ b.cls = .readOnly ∨ b.cls = .extReadOnly) := by
  obtain ⟨c, hb, st⟩ := b
  cases c <;> cases hb <;> simp [asExtended, BagClass.extended] at h <;> subst h <;> simp [BagClass.extended]

/-- C89: a head bag stays a head bag when it is extended, and a bag without bagit.txt is rejected. -/
example (st : HeadBag) : asExtended ⟨.head, true, st⟩ = .ok ⟨.head, true, st⟩ ∧
    asExtended ⟨.bag, true, st⟩ = .ok ⟨.extWritable, true, st⟩ ∧
    asExtended ⟨.bag, false, st⟩ = .error .valueError := ⟨rfl, rfl, rfl⟩

/-- C89: nothing changes the second time. -/
theorem C89_idempotent {b b' : BagObj} {readonly : Bool} (h : asHeadbag b readonly = .ok b') :
    asHeadbag b' readonly = .ok b' := by
  obtain ⟨c, hb, st⟩ := b
  cases c <;> cases readonly <;> cases hb <;>
    simp [asHeadbag, asExtended, BagClass.extended, BagClass.readsHead, BagClass.updatesHead, BagClass.extendedReadOnly,
      BagObj.resetCaches] at h <;> subst h <;>
    simp [asHeadbag, BagClass.extended, BagClass.readsHead, BagClass.updatesHead, BagClass.extendedReadOnly]

/-- C89: a head bag that is opened read-only, or is serialized or at a URL, has no methods for updating, and one
that is opened otherwise has them. -/
theorem C89_open_headbag {P : Places} {cfg : ReadCfg} {loc : Str} {readonly : Bool} {b : BagObj}
    (h : openHeadbag P cfg loc readonly = .ok b) :
    b.cls.readsHead = true ∧ b.state.members = none ∧ b.state.lookup = none ∧ b.state.deleted = none ∧
    (b.cls.updatesHead = true ↔ readonly = false ∧ contains py!"://" loc = false ∧ ∃ t, P.at_ loc = some (.dir t)) := by
  have key1 : (match openAt P cfg loc with
      | .error e => (.error e : Except PyErr BagObj)
      | .ok (_, b) => asHeadbag { cls := .readOnly, state := HeadBag.open b.tree b.info } false) = .ok b →
      b.cls.readsHead = true ∧ b.state.members = none ∧ b.state.lookup = none ∧ b.state.deleted = none ∧
        b.cls.updatesHead = false := by
    intro h
    split at h
    · cases h
    · simp [asHeadbag, asExtended, BagClass.extended, BagClass.readsHead, BagClass.updatesHead, BagClass.extendedReadOnly,
        BagObj.resetCaches] at h
      subst h
      simp [BagClass.readsHead, BagClass.updatesHead, HeadBag.open]
  have key2 : ∀ t, (match openBag { cfg with bagpath := loc } t with
      | .error e => (.error e : Except PyErr BagObj)
      | .ok b => asHeadbag { cls := .bag, state := HeadBag.open b.tree b.info } false) = .ok b →
      b.cls.readsHead = true ∧ b.state.members = none ∧ b.state.lookup = none ∧ b.state.deleted = none ∧
        b.cls.updatesHead = true := by
    intro t h
    split at h
    · cases h
    · simp [asHeadbag, asExtended, BagClass.extended, BagClass.readsHead, BagClass.updatesHead, BagClass.extendedReadOnly,
        BagObj.resetCaches] at h
      subst h
      simp [BagClass.readsHead, BagClass.updatesHead, HeadBag.open]
  unfold openHeadbag at h
  cases hat : P.at_ loc with
  | none =>
    rw [hat] at h
    simp only [Bool.or_false] at h
    by_cases hc : (readonly || contains py!"://" loc) = true
    · rw [if_pos hc] at h
      obtain ⟨h1, h2, h3, h4, h5⟩ := key1 h
      exact ⟨h1, h2, h3, h4, by simp [h5]⟩
    · rw [if_neg hc] at h; cases h
  | some x =>
    rw [hat] at h
    cases x with
    | dir t =>
      simp only [Bool.or_false] at h
      by_cases hc : (readonly || contains py!"://" loc) = true
      · rw [if_pos hc] at h
        obtain ⟨h1, h2, h3, h4, h5⟩ := key1 h
        refine ⟨h1, h2, h3, h4, ?_⟩
        rw [h5]
        simp only [Bool.false_eq_true, false_iff]
        rintro ⟨h6, h7, _⟩
        rw [h6, h7] at hc
        cases hc
      · rw [if_neg hc] at h
        obtain ⟨h1, h2, h3, h4, h5⟩ := key2 t h
        refine ⟨h1, h2, h3, h4, ?_⟩
        rw [Bool.or_eq_true, not_or, Bool.not_eq_true, Bool.not_eq_true] at hc
        exact ⟨fun _ => ⟨hc.1, hc.2, t, rfl⟩, fun _ => h5⟩
    | file a =>
      simp only [Bool.or_true, if_true] at h
      obtain ⟨h1, h2, h3, h4, h5⟩ := key1 h
      exact ⟨h1, h2, h3, h4, by simp [h5]⟩
    | other =>
      simp only [Bool.or_false] at h
      by_cases hc : (readonly || contains py!"://" loc) = true
      · rw [if_pos hc] at h
        obtain ⟨h1, h2, h3, h4, h5⟩ := key1 h
        exact ⟨h1, h2, h3, h4, by simp [h5]⟩
      · rw [if_neg hc] at h; cases h

/-- C89 is false in one respect: asking for a head bag without methods for updating has no effect on an object that
has them. -/
theorem C89_negation_readonly (hb : Bool) (st : HeadBag) :
    asHeadbag ⟨.head, hb, st⟩ true = .ok ⟨.head, hb, st⟩ := rfl

/-- A head bag with changes that are not saved yet. -/
def Sample.pendingHead : HeadBag :=
  { HeadBag.open Sample.readTree [] with members := some [] }

/-- `C89_as_headbag` applies to every class of bags: a head bag keeps the changes that are not saved yet, a bag gets
the methods for updating unless it should not have them. -/
example : asHeadbag ⟨.head, true, Sample.pendingHead⟩ false = .ok ⟨.head, true, Sample.pendingHead⟩ ∧
    asHeadbag ⟨.bag, true, HeadBag.open Sample.readTree []⟩ false = .ok ⟨.head, true, HeadBag.open Sample.readTree []⟩ ∧
    asHeadbag ⟨.bag, true, HeadBag.open Sample.readTree []⟩ true =
      .ok ⟨.noUpdateHead, true, HeadBag.open Sample.readTree []⟩ ∧
    asHeadbag ⟨.readOnly, true, HeadBag.open Sample.readTree []⟩ false =
      .ok ⟨.readOnlyHead, true, HeadBag.open Sample.readTree []⟩ := ⟨rfl, rfl, rfl, rfl⟩

example : ((openHeadbag Sample.places Sample.readCfg py!"/store/bag" false).toOption.map (fun b => b.cls)) = some .head ∧
    ((openHeadbag Sample.places Sample.readCfg py!"/store/bag" true).toOption.map (fun b => b.cls)) = some .readOnlyHead ∧
    ((openHeadbag Sample.places Sample.readCfg py!"/store/some.zip" false).toOption.map (fun b => b.cls)) =
      some .readOnlyHead := by
  decide +kernel

/-- The sample archive holds no head bag; a bag whose metadata has the field is one. -/
example : isHeadbag Sample.places Sample.readCfg py!"/store/some.zip" = .ok false ∧
    isHeadbag { Sample.places with at_ := fun _ => some (.dir (dset Sample.readTree [py!"bag-info.txt"] (.file py!"Multibag-Head-Version: 1\n"))) }
      Sample.readCfg py!"/x" = .ok true := by
  decide +kernel

example : openAt { Sample.places with at_ := fun _ => some (.file (some Sample.arc)) } Sample.readCfg py!"/store/some.zip.part" = .error .valueError :=
  C88_other_file (by decide) rfl (by
    intro e he hs
    have hs := List.isSuffixOf_iff_suffix.2 hs
    rcases he with rfl | rfl | rfl | rfl | rfl <;> revert hs <;> decide) _

end Verif
