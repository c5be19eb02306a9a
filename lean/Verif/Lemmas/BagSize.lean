import Verif.Model.BagSize
import Verif.Spec.BagSize
import Verif.Props.FormatBytes
import Verif.Props.SavedValid
import Verif.Lemmas.AmendSave
/-!
# Lemmas about sizes of bags
-/

namespace Verif

open Spec

theorem filesSize_eq (blen : Str → Nat) (t : Tree) : filesSize blen t = totalBytes blen t := by
  unfold filesSize totalBytes
  induction t with
  | nil => rfl
  | cons e t ih =>
    obtain ⟨p, n⟩ := e
    cases n <;> simp [nodeBytes, ih]

theorem dirsSize_eq (dlen : Path → Nat) (t : Tree) : dirsSize dlen t = totalDirs dlen t := by
  unfold dirsSize totalDirs
  induction t with
  | nil => rfl
  | cons e t ih =>
    obtain ⟨p, n⟩ := e
    cases n <;> simp [ih]

theorem utf8_byteLength : ByteLength utf8Bytes := by
  refine ⟨fun a b => by simp [utf8Bytes], fun s h => ?_⟩
  unfold utf8Bytes
  induction s with
  | nil => rfl
  | cons c s ih =>
    have hc : c.utf8Size = 1 := by
      have := h c List.mem_cons_self
      unfold Char.utf8Size
      have h1 : c.val ≤ 0x7f := by
        rw [UInt32.le_iff_toNat_le]
        have : c.val.toNat < 128 := this
        have e : (0x7f : UInt32).toNat = 127 := rfl
        omega
      simp [h1]
    simp only [List.map_cons, List.sum_cons, List.length_cons, hc, ih (fun c hc => h c (List.mem_cons_of_mem _ hc))]
    omega

/-! ## Lengths of the text -/

theorem digits_le {n k : Nat} (hk : 0 < k) : (natStr n).length ≤ k ↔ n < 10 ^ k :=
  Nat.length_toDigits_le_iff (by decide) hk

theorem digits_pos (n : Nat) : 0 < (natStr n).length := Nat.length_toDigits_pos

theorem lt_digits (n : Nat) : n < 10 ^ (natStr n).length := (digits_le (digits_pos n)).1 (Nat.le_refl _)

theorem le_digits {n k : Nat} (h : 10 ^ k ≤ n) : k + 1 ≤ (natStr n).length := by
  rcases Nat.eq_zero_or_pos k with rfl | hk
  · exact digits_pos n
  · apply Nat.lt_of_not_le
    intro hc
    have := (digits_le hk).1 hc
    omega

theorem digits_mono {m n : Nat} (h : m ≤ n) : (natStr m).length ≤ (natStr n).length := by
  rw [digits_le (digits_pos n)]
  exact Nat.lt_of_le_of_lt h (lt_digits n)

theorem thousandthsText_length (v : Nat) :
    (natStr (v / 1000)).length ≤ (thousandthsText v).length ∧ (thousandthsText v).length ≤ (natStr (v / 1000)).length + 4 := by
  unfold thousandthsText
  simp only [List.length_append]
  have hf : (rstripBy (· = '0') [Nat.digitChar (v % 1000 / 100), Nat.digitChar (v % 1000 % 100 / 10), Nat.digitChar (v % 1000 % 10)]).length ≤ 3 := by
    unfold rstripBy
    rw [List.length_reverse]
    exact Nat.le_trans (List.dropWhile_sublist _).length_le (by simp)
  split
  · simp
  · simp only [List.length_cons]
    omega

theorem sizePrefix_length (k : Nat) : (sizePrefix k).length ≤ 1 := by
  match k with
  | 0 | 1 | 2 | 3 | _ + 4 => simp [sizePrefix]

/-- The text for a size is about as long as the number itself. -/
theorem formatBytes_length {rnd : Nat → Nat → Nat} (hr : Nearest rnd) (n : Nat) :
    (formatBytes rnd n).length ≤ (natStr n).length + 8 ∧ (natStr n).length ≤ (formatBytes rnd n).length + 10 := by
  obtain ⟨k, o, q, he, hk, h3, h4, h5, h6, h7, h8⟩ := formatBytes_parts hr n
  have hM : 1000 ^ k * 10 ^ o = 10 ^ (3 * k + o) := by
    rw [show (1000 : Nat) = 10 ^ 3 by decide, ← Nat.pow_mul, ← Nat.pow_add]
  have hM1 : 1000 ^ k * 10 ^ (o + 1) = 10 ^ (3 * k + o + 1) := by
    rw [show (1000 : Nat) = 10 ^ 3 by decide, ← Nat.pow_mul, ← Nat.pow_add]; rfl
  have hMp : 1000 ^ k * 10 ^ o > 0 := Nat.mul_pos (Nat.pow_pos (by decide)) (Nat.pow_pos (by decide))
  have d1 : (natStr n).length ≤ 3 * k + o + 1 := (digits_le (by omega)).2 (by rw [← hM1]; exact h6)
  have d2 : 3 * k + o + 1 ≤ (natStr n).length := by
    by_cases ho : o = 0
    · subst ho
      rcases h3 with rfl | h3
      · exact digits_pos n
      · refine le_digits (k := 3 * k + 0) ?_
        rw [← hM]; simpa using h3
    · apply le_digits
      rw [← hM]
      rcases h5 with h | h
      · exact absurd h ho
      · exact h
  have hq : q ≤ 10000 := by
    apply Nat.le_of_not_lt
    intro hc
    have h9 : 10001 * (1000 ^ k * 10 ^ o) ≤ q * (1000 ^ k * 10 ^ o) := Nat.mul_le_mul_right _ hc
    rw [Nat.pow_succ, ← Nat.mul_assoc] at h6
    omega
  have e1 : (natStr (q * 10 ^ o / 1000)).length ≤ o + 2 := by
    rw [digits_le (by omega)]
    have : q * 10 ^ o ≤ 10000 * 10 ^ o := Nat.mul_le_mul_right _ hq
    have hp : 10 ^ o > 0 := Nat.pow_pos (by decide)
    have : 10 ^ (o + 2) = 100 * 10 ^ o := by rw [Nat.pow_add]; omega
    omega
  have e2 : o + 1 ≤ (natStr (q * 10 ^ o / 1000)).length := by
    by_cases ho : o = 0
    · subst ho; exact digits_pos _
    · have hn : 1000 ^ k * 10 ^ o ≤ n := by
        rcases h5 with h | h
        · exact absurd h ho
        · exact h
      have hq2 : 1000 ≤ q := by
        apply Nat.le_of_not_lt
        intro hc
        have h9 : q * (1000 ^ k * 10 ^ o) ≤ 999 * (1000 ^ k * 10 ^ o) := Nat.mul_le_mul_right _ (by omega)
        omega
      apply le_digits
      have : 1000 * 10 ^ o ≤ q * 10 ^ o := Nat.mul_le_mul_right _ hq2
      omega
  obtain ⟨t1, t2⟩ := thousandthsText_length (q * 10 ^ o)
  have hs := sizePrefix_length k
  rw [he]
  simp only [List.length_append, List.length_cons, List.length_nil]
  omega

theorem digit_ascii {c : Char} (h : c.isDigit = true) : c.toNat < 128 ∧ c ≠ '\n' ∧ c ≠ '\r' := by
  have h' : c.val ≥ 48 ∧ c.val ≤ 57 := by simpa [Char.isDigit] using h
  have h1 : 48 ≤ c.toNat := by simpa [UInt32.le_iff_toNat_le] using h'.1
  have h2 : c.toNat ≤ 57 := by simpa [UInt32.le_iff_toNat_le] using h'.2
  refine ⟨by omega, ?_, ?_⟩
  · intro e; subst e; exact absurd h1 (by decide)
  · intro e; subst e; exact absurd h1 (by decide)

theorem digitChar_ascii {r : Nat} (h : r < 10) : (Nat.digitChar r).isDigit = true := by
  have : ∀ r < 10, (Nat.digitChar r).isDigit = true := by decide
  exact this r h

theorem formatBytes_chars (rnd : Nat → Nat → Nat) (n : Nat) :
    ∀ c ∈ formatBytes rnd n, c.toNat < 128 ∧ c ≠ '\n' ∧ c ≠ '\r' := by
  intro c hc
  unfold formatBytes at hc
  simp only [List.mem_append, List.mem_cons, List.not_mem_nil, or_false] at hc
  rcases hc with hc | rfl | hc | rfl
  · unfold thousandthsText at hc
    simp only [List.mem_append] at hc
    rcases hc with hc | hc
    · exact digit_ascii (isDigit_natStr hc)
    · split at hc
      · cases hc
      · simp only [List.mem_cons] at hc
        rcases hc with rfl | hc
        · decide
        · have := List.mem_reverse.1 hc
          have := List.mem_reverse.1 ((List.dropWhile_sublist _).subset this)
          simp only [List.mem_cons, List.not_mem_nil, or_false] at this
          rcases this with rfl | rfl | rfl <;> exact digit_ascii (digitChar_ascii (by omega))
  · decide
  · revert hc
    generalize thousands n 4 0 = k
    intro hc
    match k with
    | 0 => simp [sizePrefix] at hc
    | 1 | 2 | 3 | _ + 4 => simp only [sizePrefix, List.mem_singleton] at hc; subst hc; decide
  · decide

/-! ## Totals -/

/-- The bytes of what is at a path. -/
def at? (blen : Str → Nat) (t : Tree) (p : Path) : Nat := ((dget t p).map (nodeBytes blen)).getD 0

theorem total_keys (blen : Str → Nat) {t : Tree} (hn : (dkeys t).Nodup) :
    totalBytes blen t = ((dkeys t).map (at? blen t)).sum := by
  unfold totalBytes dkeys
  rw [List.map_map]
  congr 1
  apply List.map_congr_left
  intro e he
  have : dget t e.1 = some e.2 := dget_of_mem hn he
  simp [at?, this]

theorem sum_map_eq {α : Type} {l : List α} {f g : α → Nat} (h : ∀ x ∈ l, f x = g x) : (l.map f).sum = (l.map g).sum := by
  rw [List.map_congr_left h]

theorem sum_map_one {α : Type} [DecidableEq α] {l : List α} (hn : l.Nodup) {f g : α → Nat} {k : α} (hk : k ∈ l)
    (h : ∀ x ∈ l, x ≠ k → f x = g x) : (l.map f).sum + g k = (l.map g).sum + f k := by
  induction l with
  | nil => cases hk
  | cons a l ih =>
    have hn' := List.nodup_cons.1 hn
    simp only [List.map_cons, List.sum_cons]
    by_cases e : a = k
    · subst e
      have := sum_map_eq (l := l) (f := f) (g := g) (fun x hx => h x (List.mem_cons_of_mem _ hx) (fun e => hn'.1 (e ▸ hx)))
      omega
    · have hk' : k ∈ l := by
        rcases List.mem_cons.1 hk with rfl | hk
        · exact absurd rfl e
        · exact hk
      have := ih hn'.2 hk' (fun x hx => h x (List.mem_cons_of_mem _ hx))
      have := h a List.mem_cons_self e
      omega

theorem blen_nil {blen : Str → Nat} (hb : ByteLength blen) : blen [] = 0 := by
  have := hb.append [] []
  simp at this
  exact this

theorem blen_flatten {blen : Str → Nat} (hb : ByteLength blen) (l : List Str) : blen l.flatten = (l.map blen).sum := by
  induction l with
  | nil => exact blen_nil hb
  | cons a l ih => simp [hb.append, ih]

/-- The bytes of one manifest depend only on the list of files. -/
theorem manifest_bytes {blen : Str → Nat} (hb : ByteLength blen) {sum : Str → Str → Str} (hs : FixedLength blen sum) (a : Str)
    {l l' : List (Path × Str)} (h : l.map Prod.fst = l'.map Prod.fst) :
    blen ((l.map (fun pc => hashLine (sum a pc.2) (joinPath pc.1))).flatten) =
    blen ((l'.map (fun pc => hashLine (sum a pc.2) (joinPath pc.1))).flatten) := by
  rw [blen_flatten hb, blen_flatten hb, List.map_map, List.map_map]
  have key : ∀ l : List (Path × Str), (l.map (blen ∘ fun pc => hashLine (sum a pc.2) (joinPath pc.1))) =
      (l.map Prod.fst).map (fun p => blen (hashLine (sum a []) (joinPath p))) := by
    intro l
    rw [List.map_map]
    apply List.map_congr_left
    intro pc _
    simp only [Function.comp, hashLine, hb.append]
    rw [hs a pc.2 []]
  rw [key, key, h]

theorem dkeys_dset_mem {t : Tree} {p : Path} {n : Node} (h : p ∈ dkeys t) : dkeys (dset t p n) = dkeys t := by
  rw [dkeys_dset, if_pos h]

/-- The files listed do not change when the contents of a file do. -/
theorem tagged_keys {t : Tree} {p : Path} {c c' : Str} (hn : (dkeys t).Nodup) (h : dget t p = some (.file c)) :
    (taggedFiles (dset t p (.file c'))).map Prod.fst = (taggedFiles t).map Prod.fst := by
  have key : ∀ t : Tree, (taggedFiles t).map Prod.fst = (t.filterMap (fun e => match e.2 with
      | .file _ => if e.1.head? = some py!"data" then none
        else if startsWith py!"tagmanifest-" (e.1.getLast?.getD []) then none else some e.1
      | .dir => none)) := by
    intro t
    unfold taggedFiles
    rw [List.map_filterMap]
    congr 1
    funext e
    obtain ⟨q, n⟩ := e
    cases n with
    | dir => rfl
    | file c => simp only; split <;> (try split) <;> rfl
  rw [key, key]
  clear key
  induction t with
  | nil => cases h
  | cons e t ih =>
    obtain ⟨q, n⟩ := e
    have hn' : q ∉ dkeys t ∧ (dkeys t).Nodup := List.nodup_cons.1 hn
    by_cases e : q = p
    · subst e
      have hd : n = .file c := by simpa [dget] using h
      subst hd
      simp only [dset, if_true, List.filterMap_cons]
    · have hd : dget t p = some (.file c) := by simpa [dget, e] using h
      simp only [dset, e, if_false, List.filterMap_cons, ih hn'.2 hd]

theorem keys_written {sum : Str → Str → Str} {algs : List Str} {t t' : Tree} (h : writeTagManifests sum algs t = .ok t')
    (hk : ∀ a ∈ algs, manPath py!"tagmanifest" a ∈ dkeys t) : dkeys t' = dkeys t := by
  induction algs generalizing t with
  | nil => simp only [writeTagManifests] at h; cases h; rfl
  | cons a algs ih =>
    simp only [writeTagManifests] at h
    split at h
    · cases h
    · rename_i t1 hw
      obtain ⟨rfl, _⟩ := Tree.write_ok hw
      have := dkeys_dset_mem (n := .file ((taggedFiles t).map (fun pc => hashLine (sum a pc.2) (joinPath pc.1))).flatten) (hk a List.mem_cons_self)
      rw [ih h (fun b hb => by rw [this]; exact hk b (List.mem_cons_of_mem _ hb)), this]

/-- Saving twice: the second time, the size changes only by that of the metadata file. -/
theorem saved_twice {blen : Str → Nat} (hb : ByteLength blen) {sum : Str → Str → Str} (hs : FixedLength blen sum)
    {algs algs' : List Str} (hsub : ∀ a ∈ algs', a ∈ algs) {f x x' : Str} (hf : ∀ a, [f] ≠ manPath py!"tagmanifest" a)
    {t0 ta t1 tb t2 : Tree} (hn : (dkeys t1).Nodup)
    (w1 : t0.write [f] x = .ok ta) (m1 : writeTagManifests sum algs ta = .ok t1)
    (w2 : t1.write [f] x' = .ok tb) (m2 : writeTagManifests sum algs' tb = .ok t2) :
    totalBytes blen t2 + blen x = totalBytes blen t1 + blen x' ∧ dkeys t2 = dkeys t1 ∧
      ∀ p, (dget t2 p = some .dir ↔ dget t1 p = some .dir) := by
  obtain ⟨rfl, _⟩ := Tree.write_ok w1
  obtain ⟨rfl, _⟩ := Tree.write_ok w2
  obtain ⟨g1, _⟩ := writeTagManifests_ok m1
  obtain ⟨g2, _⟩ := writeTagManifests_ok m2
  obtain ⟨l1, c1⟩ := taggedFiles_saved m1
  obtain ⟨l2, c2⟩ := taggedFiles_saved m2
  have d1 : dget t1 [f] = some (.file x) := by
    rw [g1 _ (fun a _ => hf a), dget_dset, if_pos rfl]
  have hk1 : [f] ∈ dkeys t1 := mem_dkeys_iff.2 ⟨_, d1⟩
  have kb : dkeys (dset t1 [f] (.file x')) = dkeys t1 := dkeys_dset_mem hk1
  have hk2 : dkeys t2 = dkeys t1 := by
    rw [keys_written m2, kb]
    intro a ha
    rw [kb]
    exact mem_dkeys_iff.2 ⟨_, c1 a (hsub a ha)⟩
  have d2 : dget t2 [f] = some (.file x') := by
    rw [g2 _ (fun a _ => hf a), dget_dset, if_pos rfl]
  have hl : (taggedFiles (dset t1 [f] (.file x'))).map Prod.fst = (taggedFiles (dset t0 [f] (.file x))).map Prod.fst := by
    rw [tagged_keys hn d1, l1]
  have key : ∀ p, p ≠ [f] → at? blen t2 p = at? blen t1 p ∧ (dget t2 p = some .dir ↔ dget t1 p = some .dir) := by
    intro p hp
    by_cases hm : ∃ a ∈ algs', p = manPath py!"tagmanifest" a
    · obtain ⟨a, ha, rfl⟩ := hm
      unfold at?
      rw [c2 a ha, c1 a (hsub a ha)]
      exact ⟨manifest_bytes hb hs a hl, by simp⟩
    · have : dget t2 p = dget t1 p := by
        rw [g2 p (fun a ha e => hm ⟨a, ha, e⟩), dget_dset, if_neg (fun e => hp e.symm)]
      unfold at?
      rw [this]
      exact ⟨rfl, Iff.rfl⟩
  refine ⟨?_, hk2, ?_⟩
  · rw [total_keys blen hn, total_keys blen (by rw [hk2]; exact hn), hk2]
    have := sum_map_one hn (f := at? blen t2) (g := at? blen t1) hk1 (fun p _ hp => (key p hp).1)
    have e1 : at? blen t1 [f] = blen x := by unfold at?; rw [d1]; rfl
    have e2 : at? blen t2 [f] = blen x' := by unfold at?; rw [d2]; rfl
    omega
  · intro p
    by_cases hp : p = [f]
    · subst hp; rw [d1, d2]; simp
    · exact (key p hp).2

/-! ## The metadata file -/

theorem sum_insertKey (f : Str → Nat) (k : Str) (l : List Str) : ((insertKey k l).map f).sum = f k + (l.map f).sum := by
  induction l with
  | nil => simp [insertKey]
  | cons a l ih =>
    unfold insertKey
    split
    · simp
    · simp only [List.map_cons, List.sum_cons, ih]; omega

theorem sum_sortKeys (f : Str → Nat) (l : List Str) : ((sortKeys l).map f).sum = (l.map f).sum := by
  unfold sortKeys
  induction l with
  | nil => rfl
  | cons a l ih => simp only [List.foldr_cons, sum_insertKey, ih, List.map_cons, List.sum_cons]

/-- The bytes of the lines for one label. -/
def labelBytes (blen : Str → Nat) (info : Info) (k : Str) : Nat :=
  ((fields info k).map (fun v => blen k + 2 + blen (v.filter (fun c => c ≠ '\n' && c ≠ '\r')) + 1)).sum

theorem sum_flatMap {α : Type} (l : List α) (f : α → List Nat) : (l.flatMap f).sum = (l.map (fun x => (f x).sum)).sum := by
  induction l with
  | nil => rfl
  | cons a l ih => simp [List.flatMap_cons, ih]

theorem fieldsText_bytes {blen : Str → Nat} (hb : ByteLength blen) (info : Info) :
    blen (fieldsText (tagFields info)) = ((dkeys info).map (labelBytes blen info)).sum := by
  unfold fieldsText
  rw [blen_flatten hb]
  unfold tagFields
  rw [List.map_flatMap, List.map_flatMap, sum_flatMap, sum_sortKeys]
  apply sum_map_eq
  intro k _
  unfold labelBytes
  rw [List.map_map, List.map_map]
  apply sum_map_eq
  intro v _
  have e1 : blen (':' :: ' ' :: v.filter (fun c => c ≠ '\n' && c ≠ '\r')) = 2 + blen (v.filter (fun c => c ≠ '\n' && c ≠ '\r')) := by
    rw [show (':' :: ' ' :: v.filter (fun c => c ≠ '\n' && c ≠ '\r')) = [':', ' '] ++ v.filter (fun c => c ≠ '\n' && c ≠ '\r') by rfl,
      hb.append, hb.ascii [':', ' '] (by decide)]
    rfl
  have e2 : blen ['\n'] = 1 := hb.ascii ['\n'] (by decide)
  simp only [Function.comp, hb.append, e1, e2]
  omega

theorem labelBytes_one {blen : Str → Nat} (hb : ByteLength blen) (info : Info) {v : Str}
    (hv : ∀ c ∈ v, c.toNat < 128 ∧ c ≠ '\n' ∧ c ≠ '\r') :
    labelBytes blen (dset info py!"Bag-Size" (.one v)) py!"Bag-Size" = 11 + v.length := by
  unfold labelBytes
  rw [fields_dset, if_pos rfl]
  have e : v.filter (fun c => c ≠ '\n' && c ≠ '\r') = v := by
    rw [List.filter_eq_self]
    intro c hc
    have := hv c hc
    simp [this.2.1, this.2.2]
  have e2 : blen py!"Bag-Size" = 8 := hb.ascii py!"Bag-Size" (by decide)
  simp only [InfoVal.values, List.map_cons, List.map_nil, List.sum_cons, List.sum_nil, e, e2,
    hb.ascii v (fun c hc => (hv c hc).1)]
  omega

/-- Adding the Bag-Size line. -/
theorem info_bytes_new {blen : Str → Nat} (hb : ByteLength blen) {info : Info} (h : dget info py!"Bag-Size" = none)
    {v : Str} (hv : ∀ c ∈ v, c.toNat < 128 ∧ c ≠ '\n' ∧ c ≠ '\r') :
    blen (fieldsText (tagFields (dset info py!"Bag-Size" (.one v)))) =
      blen (fieldsText (tagFields info)) + 11 + v.length := by
  have hk := dget_eq_none_iff.1 h
  rw [fieldsText_bytes hb, fieldsText_bytes hb, dkeys_dset, if_neg hk, List.map_append, List.sum_append]
  simp only [List.map_cons, List.map_nil, List.sum_cons, List.sum_nil]
  rw [labelBytes_one hb info hv]
  have : ((dkeys info).map (labelBytes blen (dset info py!"Bag-Size" (.one v)))).sum = ((dkeys info).map (labelBytes blen info)).sum := by
    apply sum_map_eq
    intro k hk'
    unfold labelBytes
    rw [fields_dset, if_neg (fun e : py!"Bag-Size" = k => hk (by rw [e]; exact hk'))]
  omega

/-- Replacing the Bag-Size line. -/
theorem info_bytes_old {blen : Str → Nat} (hb : ByteLength blen) {info : Info} (hn : (dkeys info).Nodup) {old : Str}
    (h : dget info py!"Bag-Size" = some (.one old)) (ho : ∀ c ∈ old, c.toNat < 128 ∧ c ≠ '\n' ∧ c ≠ '\r')
    {v : Str} (hv : ∀ c ∈ v, c.toNat < 128 ∧ c ≠ '\n' ∧ c ≠ '\r') :
    blen (fieldsText (tagFields (dset info py!"Bag-Size" (.one v)))) + old.length =
      blen (fieldsText (tagFields info)) + v.length ∧ 11 + old.length ≤ blen (fieldsText (tagFields info)) := by
  have hk : py!"Bag-Size" ∈ dkeys info := mem_dkeys_iff.2 ⟨_, h⟩
  have e1 := labelBytes_one hb info hv
  have e2 : labelBytes blen info py!"Bag-Size" = 11 + old.length := by
    have := labelBytes_one hb info ho
    unfold labelBytes at this ⊢
    rw [fields_dset, if_pos rfl] at this
    have hf : fields info py!"Bag-Size" = (InfoVal.one old).values := by unfold fields; rw [h]
    rw [hf]; exact this
  rw [fieldsText_bytes hb, fieldsText_bytes hb, dkeys_dset, if_pos hk]
  have := sum_map_one hn (f := labelBytes blen (dset info py!"Bag-Size" (.one v))) (g := labelBytes blen info) hk (by
    intro k _ hk'
    unfold labelBytes
    rw [fields_dset, if_neg (fun e => hk' e.symm)])
  have h3 : ∀ (l : List Str) (f : Str → Nat) (x : Str), x ∈ l → f x ≤ (l.map f).sum := by
    intro l f x hx
    induction l with
    | nil => cases hx
    | cons a l ih =>
      simp only [List.map_cons, List.sum_cons]
      rcases List.mem_cons.1 hx with rfl | hx
      · omega
      · have := ih hx; omega
  have := h3 _ (labelBytes blen info) _ hk
  omega

end Verif
