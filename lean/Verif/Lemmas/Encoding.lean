import Verif.Spec.Encoding
import Verif.Props.SplitValid
/-!
# Lemmas on encodings
-/

namespace Verif

open Spec

/-- Characters outside ASCII. -/
def wide (s : Str) : Nat := (s.filter (fun c => decide (128 ≤ c.toNat))).length

theorem wide_append (s u : Str) : wide (s ++ u) = wide s + wide u := by
  unfold wide; rw [List.filter_append, List.length_append]

theorem wide_cons (c : Char) (s : Str) : wide (c :: s) = (if 128 ≤ c.toNat then 1 else 0) + wide s := by
  unfold wide
  rw [List.filter_cons]
  by_cases h : 128 ≤ c.toNat
  · simp [h]; omega
  · simp [h]

/-- What ISO-8859-1 makes of a text written in UTF-8. -/
def moji (s : Str) : Str := (utf8 s).map byteChar

theorem byteChar_toNat (b : UInt8) : (byteChar b).toNat = b.toNat := by
  unfold byteChar
  have h : b.toNat < 256 := b.toNat_lt
  have hv : Nat.isValidChar b.toNat := .inl (by omega)
  rw [Char.ofNat, dif_pos hv]
  show (UInt32.ofNatLT _ _).toNat = _
  exact UInt32.toNat_ofNatLT

theorem utf8Encode_ascii {c : Char} (h : c.toNat < 128) : String.utf8EncodeChar c = [UInt8.ofNat c.toNat] := by
  unfold String.utf8EncodeChar
  have : c.val.toNat ≤ 0x7f := by have : c.val.toNat = c.toNat := rfl; omega
  simp only [this, if_true]
  rfl

theorem byteChar_ofNat {c : Char} (h : c.toNat < 256) : byteChar (UInt8.ofNat c.toNat) = c := by
  unfold byteChar
  rw [UInt8.toNat_ofNat', Nat.mod_eq_of_lt (by omega)]
  exact Char.ofNat_toNat c

theorem high_byte (n : Nat) (h : 128 ≤ n) (h' : n < 256) : 128 ≤ (UInt8.ofNat n).toNat := by
  rw [UInt8.toNat_ofNat', Nat.mod_eq_of_lt (by omega)]; exact h

theorem utf8Encode_wide {c : Char} (h : 128 ≤ c.toNat) :
    2 ≤ (String.utf8EncodeChar c).length ∧ ∀ b ∈ String.utf8EncodeChar c, 128 ≤ b.toNat := by
  unfold String.utf8EncodeChar
  have hv : c.val.toNat = c.toNat := rfl
  simp only [hv]
  rw [if_neg (by omega)]
  split
  · refine ⟨by simp, fun b hb => ?_⟩
    simp only [List.mem_cons, List.not_mem_nil, or_false] at hb
    rcases hb with rfl | rfl <;> exact high_byte _ (by omega) (by omega)
  · split
    · refine ⟨by simp, fun b hb => ?_⟩
      simp only [List.mem_cons, List.not_mem_nil, or_false] at hb
      rcases hb with rfl | rfl | rfl <;> exact high_byte _ (by omega) (by omega)
    · refine ⟨by simp, fun b hb => ?_⟩
      simp only [List.mem_cons, List.not_mem_nil, or_false] at hb
      rcases hb with rfl | rfl | rfl | rfl <;> exact high_byte _ (by omega) (by omega)

theorem moji_nil : moji [] = [] := rfl

theorem moji_cons (c : Char) (s : Str) : moji (c :: s) = (String.utf8EncodeChar c).map byteChar ++ moji s := by
  unfold moji utf8; rw [List.flatMap_cons, List.map_append]

theorem moji_append (s u : Str) : moji (s ++ u) = moji s ++ moji u := by
  unfold moji utf8; rw [List.flatMap_append, List.map_append]

theorem moji_ascii {s : Str} (h : Ascii s) : moji s = s := by
  induction s with
  | nil => rfl
  | cons c s ih =>
    have hc := h c List.mem_cons_self
    rw [moji_cons, utf8Encode_ascii hc, ih (fun x hx => h x (List.mem_cons_of_mem _ hx))]
    simp [byteChar_ofNat (c := c) (by omega)]

/-- The characters of a garbled text: the ASCII ones of the text, and others outside ASCII. -/
theorem mem_moji {s : Str} {x : Char} (h : x ∈ moji s) : (x ∈ s ∧ x.toNat < 128) ∨ (128 ≤ x.toNat ∧ x.toNat < 256) := by
  induction s with
  | nil => cases h
  | cons c s ih =>
    rw [moji_cons, List.mem_append] at h
    rcases h with h | h
    · obtain ⟨b, hb, rfl⟩ := List.mem_map.1 h
      by_cases hc : c.toNat < 128
      · rw [utf8Encode_ascii hc, List.mem_singleton] at hb
        rw [hb, byteChar_ofNat (by omega)]
        exact .inl ⟨List.mem_cons_self, hc⟩
      · refine .inr ?_
        rw [byteChar_toNat]
        exact ⟨(utf8Encode_wide (by omega)).2 b hb, b.toNat_lt⟩
    · rcases ih h with ⟨h1, h2⟩ | h1
      · exact .inl ⟨List.mem_cons_of_mem _ h1, h2⟩
      · exact .inr h1

theorem wide_all {s : Str} (h : ∀ c ∈ s, 128 ≤ c.toNat) : wide s = s.length := by
  unfold wide
  rw [List.filter_eq_self.2 (fun c hc => decide_eq_true (h c hc))]

theorem wide_moji (s : Str) : 2 * wide s ≤ wide (moji s) := by
  induction s with
  | nil => exact Nat.le_refl 0
  | cons c s ih =>
    rw [moji_cons, wide_append, wide_cons]
    split
    · next h =>
      obtain ⟨h1, h2⟩ := utf8Encode_wide h
      rw [wide_all (s := (String.utf8EncodeChar c).map byteChar), List.length_map]
      · omega
      · intro x hx
        obtain ⟨b, hb, rfl⟩ := List.mem_map.1 hx
        rw [byteChar_toNat]; exact h2 b hb
    · omega

theorem wide_zero {s : Str} : wide s = 0 ↔ Ascii s := by
  unfold wide Ascii
  rw [List.length_eq_zero_iff, List.filter_eq_nil_iff]
  constructor
  · intro h c hc; have := h c hc; simp at this; exact this
  · intro h c hc; have := h c hc; simp; exact this

theorem seenText_latin1 (s : Str) : seenText latin1Codec s = some (moji s) := rfl

/-! ## UTF-8 -/

theorem utf8Decode_step (n : Nat) (c : Char) (s : Str) :
    utf8DecodeN (n + 1) (utf8 (c :: s)) = (utf8DecodeN n (utf8 s)).map (c :: ·) := by
  have e : utf8 (c :: s) = String.utf8EncodeChar c ++ utf8 s := List.flatMap_cons
  have hl : (String.utf8EncodeChar c).length = c.utf8Size := String.length_utf8EncodeChar c
  have h0 := c.utf8Size_pos
  rw [e]
  cases he : String.utf8EncodeChar c ++ utf8 s with
  | nil =>
    have := congrArg List.length he
    rw [List.length_append] at this; simp at this; omega
  | cons b bs =>
    rw [utf8DecodeN, ← he]
    have h1 : ByteArray.utf8DecodeChar? (String.utf8EncodeChar c ++ utf8 s).toByteArray 0 = some c := by
      rw [List.toByteArray_append]; exact ByteArray.utf8DecodeChar?_utf8EncodeChar_append
    rw [h1]
    have h2 : (String.utf8EncodeChar c ++ utf8 s).drop c.utf8Size = utf8 s := by
      rw [← hl, List.drop_left]
    simp only [h2]
    cases utf8DecodeN n (utf8 s) <;> rfl

theorem utf8DecodeN_utf8 (s : Str) : ∀ n, s.length ≤ n → utf8DecodeN n (utf8 s) = some s := by
  induction s with
  | nil => intro n _; cases n <;> rfl
  | cons c s ih =>
    intro n hn
    cases n with
    | zero => simp at hn
    | succ n =>
      rw [utf8Decode_step, ih n (by simpa using hn)]; rfl

theorem length_utf8 (s : Str) : s.length ≤ (utf8 s).length := by
  induction s with
  | nil => exact Nat.le_refl 0
  | cons c s ih =>
    have e : utf8 (c :: s) = String.utf8EncodeChar c ++ utf8 s := List.flatMap_cons
    have hl : (String.utf8EncodeChar c).length = c.utf8Size := String.length_utf8EncodeChar c
    have h0 := c.utf8Size_pos
    rw [e, List.length_append, List.length_cons]; omega

/-- What is written in UTF-8 is read in UTF-8 as it was. -/
theorem utf8Decode_utf8 (s : Str) : utf8Decode (utf8 s) = some s := utf8DecodeN_utf8 s _ (length_utf8 s)

theorem utf8DecodeN_inv (n : Nat) (bs : Bytes) (s : Str) (h : utf8DecodeN n bs = some s) : utf8 s = bs := by
  induction n generalizing bs s with
  | zero =>
    cases bs with
    | nil => cases h; rfl
    | cons b bs => cases h
  | succ n ih =>
    cases bs with
    | nil => cases h; rfl
    | cons b bs =>
      rw [utf8DecodeN] at h
      split at h
      · cases h
      · next c hc =>
        split at h
        · cases h
        · next s' hs =>
          cases h
          have e := ih _ _ hs
          have h1 := ByteArray.eq_of_utf8DecodeChar?_eq_some hc
          have e2 : utf8 (c :: s') = String.utf8EncodeChar c ++ utf8 s' := List.flatMap_cons
          rw [e2, e]
          have h2 := congrArg (fun x => x.data.toList) h1
          simp only [ByteArray.data_append, List.data_toByteArray, Array.toList_append] at h2
          rw [← String.length_utf8EncodeChar c]
          generalize hX : (ByteArray.extract _ _ _).data.toList = X at h2
          rw [h2, List.drop_left]

/-- A text read in UTF-8 comes from its bytes. -/
theorem utf8Decode_inv {bs : Bytes} {s : Str} (h : utf8Decode bs = some s) : utf8 s = bs := utf8DecodeN_inv _ _ _ h

theorem wide_translateNl (s : Str) : wide (translateNl s) = wide s := by
  fun_induction translateNl s <;> simp_all [wide_cons]
/-! ## ASCII -/

theorem utf8_ascii {s : Str} (h : Ascii s) : utf8 s = s.map (fun c => UInt8.ofNat c.toNat) := by
  induction s with
  | nil => rfl
  | cons c s ih =>
    have e : utf8 (c :: s) = String.utf8EncodeChar c ++ utf8 s := List.flatMap_cons
    rw [e, utf8Encode_ascii (h c List.mem_cons_self), ih (fun x hx => h x (List.mem_cons_of_mem _ hx))]
    rfl

theorem seenText_ascii {c : Codec} (hc : AsciiCompatible c) {s : Str} (h : Ascii s) : seenText c s = some s := by
  unfold seenText; rw [utf8_ascii h]; exact hc s h

theorem ascii_append {s u : Str} (h : Ascii s) (h' : Ascii u) : Ascii (s ++ u) := by
  intro c hc
  rcases List.mem_append.1 hc with hc | hc
  · exact h c hc
  · exact h' c hc

theorem ascii_cons {c : Char} {u : Str} (h : c.toNat < 128) (h' : Ascii u) : Ascii (c :: u) := by
  intro x hx
  rcases List.mem_cons.1 hx with rfl | hx
  · exact h
  · exact h' x hx

theorem ascii_lit {s : Str} (h : s.all (fun c => decide (c.toNat < 128)) = true) : Ascii s := by
  intro c hc
  exact of_decide_eq_true (List.all_eq_true.1 h c hc)

theorem ascii_flatten {l : List Str} (h : ∀ s ∈ l, Ascii s) : Ascii l.flatten := by
  intro c hc
  obtain ⟨s, hs, hc⟩ := List.mem_flatten.1 hc
  exact h s hs c hc

theorem ascii_natStr (n : Nat) : Ascii (natStr n) := by
  intro x hx
  have := isDigit_natStr hx
  unfold Char.isDigit at this
  simp only [Bool.and_eq_true, decide_eq_true_eq] at this
  have h2 : x.toNat ≤ 57 := this.2
  omega

/-! ## Trees as they are read -/

theorem seenEntry_key {c : Codec} {cfg : ReadCfg} {e e' : Path × Node} (h : seenEntry c cfg e = some e') : e'.1 = e.1 := by
  unfold seenEntry at h
  split at h
  · cases h; rfl
  · split at h
    · split at h
      · cases h
      · cases h; rfl
    · cases h; rfl

theorem seenTree_get {c : Codec} {cfg : ReadCfg} {t t' : Tree} (h : seenTree c cfg t = some t') (p : Path) :
    (dget t p = none ∧ dget t' p = none) ∨
      ∃ n n', dget t p = some n ∧ dget t' p = some n' ∧ seenEntry c cfg (p, n) = some (p, n') := by
  induction t generalizing t' with
  | nil => cases h; exact .inl ⟨rfl, rfl⟩
  | cons e t ih =>
    rw [seenTree] at h
    split at h
    · cases h
    · next e' he =>
      split at h
      · cases h
      · next u hu =>
        cases h
        have hk := seenEntry_key he
        obtain ⟨k, n⟩ := e
        obtain ⟨k', n'⟩ := e'
        simp only at hk
        subst hk
        by_cases hp : k' = p
        · subst hp
          exact .inr ⟨n, n', by simp [dget], by simp [dget], he⟩
        · have := ih hu
          simp only [dget, hp, if_false]
          exact this

theorem seenTree_file {c : Codec} {cfg : ReadCfg} {t t' : Tree} (h : seenTree c cfg t = some t') {p : Path} {s : Str}
    (hp : readDeclared cfg p = true) (hr : t.read p = some s) : ∃ s', seenText c s = some s' ∧ t'.read p = some s' := by
  unfold Tree.read at hr ⊢
  rcases seenTree_get h p with ⟨h1, _⟩ | ⟨n, n', h1, h2, h3⟩
  · rw [h1] at hr; cases hr
  · rw [h1] at hr
    cases n with
    | dir => cases hr
    | file x =>
      cases hr
      rw [h2]
      simp only [seenEntry, hp, if_true] at h3
      split at h3
      · cases h3
      · next s' hs => cases h3; exact ⟨s', hs, rfl⟩

theorem seenTree_other {c : Codec} {cfg : ReadCfg} {t t' : Tree} (h : seenTree c cfg t = some t') {p : Path}
    (hp : readDeclared cfg p = false) : t'.read p = t.read p := by
  unfold Tree.read
  rcases seenTree_get h p with ⟨h1, h2⟩ | ⟨n, n', h1, h2, h3⟩
  · rw [h1, h2]
  · rw [h1, h2]
    cases n with
    | dir => cases h3; rfl
    | file x =>
      simp only [seenEntry, hp] at h3
      cases h3; rfl

theorem seenTree_id {c : Codec} {cfg : ReadCfg} {t : Tree}
    (h : ∀ p s, (p, .file s) ∈ t → readDeclared cfg p = true → seenText c s = some s) : seenTree c cfg t = some t := by
  induction t with
  | nil => rfl
  | cons e t ih =>
    have he : seenEntry c cfg e = some e := by
      obtain ⟨p, n⟩ := e
      cases n with
      | dir => rfl
      | file s =>
        unfold seenEntry
        simp only
        split
        · next hp => rw [h p s List.mem_cons_self hp]
        · rfl
    rw [seenTree, he, ih (fun p s hp => h p s (List.mem_cons_of_mem _ hp))]

theorem openWritten_id {codecs : Str → Option Codec} {cfg : ReadCfg} {t : Tree}
    (h : ∀ enc c, declaredEncoding t = some enc → codecs enc = some c → seenTree c cfg t = some t) :
    openWritten codecs cfg t = openBag cfg t := by
  unfold openWritten
  split
  · rfl
  · next enc he =>
    split
    · rfl
    · next c hc =>
      rw [h enc c he hc]
      simp only
      cases hb : openBag cfg t with
      | error e => rfl
      | ok b =>
        have := (openBag_parts hb).1
        simp only
        congr 1
        cases b
        simp only at this
        rw [this]

/-! ## The metadata a split writes -/

theorem ascii_infoFields {nopass : List Str} {n : Str} {size count : Nat} {e : Str × InfoVal} {l : List (Str × Str)}
    (h : infoFields nopass n size count e = .ok l) (hn : Ascii n) (hk : Ascii e.1) (hv : ∀ v ∈ e.2.values, Ascii v) :
    ∀ f ∈ l, Ascii f.1 ∧ Ascii f.2 := by
  obtain ⟨k, v⟩ := e
  simp only at hk hv
  have src : Ascii (py!"Multibag-Source-" ++ k) := ascii_append (ascii_lit rfl) hk
  have mp : ∀ (j : Str) (vs : List Str), Ascii j → (∀ v ∈ vs, Ascii v) → ∀ f ∈ vs.map (fun x => (j, x)), Ascii f.1 ∧ Ascii f.2 := by
    intro j vs hj hvs f hf
    obtain ⟨x, hx, rfl⟩ := List.mem_map.1 hf
    exact ⟨hj, hvs x hx⟩
  simp only [infoFields] at h
  split at h
  · cases h; intro f hf; cases hf
  split at h
  · cases h; intro f hf
    rcases List.mem_cons.1 hf with rfl | hf
    · exact ⟨hk, hn⟩
    · exact mp _ _ src hv f hf
  split at h
  · cases h; intro f hf
    rcases List.mem_cons.1 hf with rfl | hf
    · exact ⟨hk, ascii_lit (s := senderDesc) (by decide +kernel)⟩
    · exact mp _ _ src hv f hf
  split at h
  · split at h
    · cases h
    · next x xs e =>
      cases h
      rw [e] at hv
      intro f hf
      rcases List.mem_append.1 hf with hf | hf
      · exact mp _ _ src hv f hf
      rcases List.mem_cons.1 hf with rfl | hf
      · exact ⟨hk, ascii_append (hv x List.mem_cons_self) (ascii_append (ascii_lit rfl) hn)⟩
      · exact mp py!"Bag-Group-Identifier" _ (ascii_lit rfl) hv f hf
  split at h
  · cases h; exact mp _ _ src hv
  split at h
  · cases h
    intro f hf
    rcases List.mem_cons.1 hf with rfl | hf
    · exact ⟨hk, ascii_append (ascii_natStr _) (ascii_cons (by decide) (ascii_natStr _))⟩
    · cases hf
  · cases h; exact mp _ _ hk hv

theorem ascii_infoBody {nopass : List Str} {n : Str} {size count : Nat} {info : Info} {l : List (Str × Str)}
    (h : infoBody nopass n size count info = .ok l) (hn : Ascii n)
    (hi : ∀ e ∈ info, Ascii e.1 ∧ ∀ v ∈ e.2.values, Ascii v) : ∀ f ∈ l, Ascii f.1 ∧ Ascii f.2 := by
  induction info generalizing l with
  | nil => cases h; intro f hf; cases hf
  | cons e info ih =>
    unfold infoBody at h
    split at h
    · cases h
    · next a ha =>
      split at h
      · cases h
      · next r hr =>
        cases h
        obtain ⟨h1, h2⟩ := hi e List.mem_cons_self
        intro f hf
        rcases List.mem_append.1 hf with hf | hf
        · exact ascii_infoFields ha hn h1 h2 f hf
        · exact ih hr (fun e he => hi e (List.mem_cons_of_mem _ he)) f hf

theorem ascii_bagInfo {S : Source} {o : ApplyOpts} {n : Str} {ishead : Bool} {size count : Nat}
    {fs : List (Str × Str)} (h : bagInfoFields S o n ishead size count = .ok fs) (hn : Ascii n)
    (hi : ∀ e ∈ S.info, Ascii e.1 ∧ ∀ v ∈ e.2.values, Ascii v)
    (hv : Ascii o.headVersion) (hd : ∀ d ∈ o.deprecates, Ascii (deprecateValue d)) : Ascii (fieldsText fs) := by
  have key : ∀ f ∈ fs, Ascii f.1 ∧ Ascii f.2 := by
    unfold bagInfoFields at h
    split at h
    · cases h
    · next body hb =>
      cases h
      intro f hf
      rcases List.mem_append.1 hf with hf | hf
      · rcases List.mem_cons.1 hf with rfl | hf
        · exact ⟨ascii_lit rfl, ascii_lit rfl⟩
        · exact ascii_infoBody hb hn hi f hf
      · rcases List.mem_cons.1 hf with rfl | hf
        · exact ⟨ascii_lit rfl, ascii_lit rfl⟩
        · split at hf
          · rcases List.mem_cons.1 hf with rfl | hf
            · exact ⟨ascii_lit rfl, hv⟩
            · obtain ⟨d, hd', rfl⟩ := List.mem_map.1 hf
              exact ⟨ascii_lit rfl, hd d hd'⟩
          · cases hf
  unfold fieldsText
  refine ascii_flatten ?_
  intro s hs
  obtain ⟨f, hf, rfl⟩ := List.mem_map.1 hs
  obtain ⟨h1, h2⟩ := key f hf
  exact ascii_append (ascii_append h1 (ascii_cons (by decide) (ascii_cons (by decide) h2))) (ascii_lit rfl)

end Verif
