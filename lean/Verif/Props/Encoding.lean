import Verif.Lemmas.Encoding
/-!
# C125: bags whose declared encoding is not UTF-8
-/

namespace Verif

open Spec

/-- Nothing is read but what was written if the declared encoding is UTF-8, under any of its names: then opening
such a bag is what the other theorems take it to be. -/
theorem C125_utf8 {codecs : Str → Option Codec} {cfg : ReadCfg} {t : Tree}
    (h : ∀ enc c, declaredEncoding t = some enc → codecs enc = some c → ReadsUtf8 c) :
    openWritten codecs cfg t = openBag cfg t :=
  openWritten_id (fun enc c he hc => seenTree_id (fun _ s _ _ => h enc c he hc s))

/-- UTF-8 is such a codec, and whatever is read as UTF-8 has those bytes. -/
theorem C125_utf8_codec : ReadsUtf8 utf8Codec ∧ AsciiCompatible utf8Codec ∧
    ∀ bs s, utf8Codec.decode bs = some s ↔ utf8 s = bs := by
  refine ⟨utf8Decode_utf8, fun s hs => ?_, fun bs s => ⟨utf8Decode_inv, fun e => ?_⟩⟩
  · rw [← utf8_ascii hs]; exact utf8Decode_utf8 s
  · rw [← e]; exact utf8Decode_utf8 s

/-- In any encoding that has ASCII as a part, a bag is read as it was written if what is written is ASCII. -/
theorem C125_ascii {codecs : Str → Option Codec} {cfg : ReadCfg} {t : Tree} (hw : WfTree t)
    (h : ∀ enc c, declaredEncoding t = some enc → codecs enc = some c → AsciiCompatible c)
    (ha : ∀ p s, readDeclared cfg p = true → t.read p = some s → Ascii s) :
    openWritten codecs cfg t = openBag cfg t := by
  refine openWritten_id (fun enc c he hc => seenTree_id (fun p s hm hp => seenText_ascii (h enc c he hc) (ha p s hp ?_)))
  unfold Tree.read
  rw [dget_of_mem hw.nodup hm]

/-- ISO-8859-1 has ASCII as a part; a text written in UTF-8 is read in it as it was exactly if it is ASCII.
Otherwise more characters outside ASCII are read than were written. -/
theorem C125_latin1 : AsciiCompatible latin1Codec ∧ ∀ s, ∃ s', seenText latin1Codec s = some s' ∧
    (s' = s ↔ Ascii s) ∧
    2 * (s.filter (fun c => decide (128 ≤ c.toNat))).length ≤ (s'.filter (fun c => decide (128 ≤ c.toNat))).length := by
  refine ⟨fun s hs => ?_, fun s => ⟨moji s, rfl, ⟨fun e => ?_, moji_ascii⟩, wide_moji s⟩⟩
  · show some _ = _
    rw [List.map_map]
    congr 1
    refine Eq.trans (List.map_congr_left (g := id) fun c hc => ?_) (List.map_id _)
    exact byteChar_ofNat (by have := hs c hc; omega)
  · have := wide_moji s
    rw [e] at this
    exact wide_zero.1 (by omega)

/-- **C125** A text can be written in ISO-8859-1 exactly if its characters are below 256, and it is then read in
ISO-8859-1 as it was written. -/
theorem C125_latin1_exact (s : Str) :
    (((latin1Codec.encode s).isSome = true ↔ ∀ c ∈ s, c.toNat < 256)) ∧
    ((∀ c ∈ s, c.toNat < 256) → (latin1Codec.encode s).bind latin1Codec.decode = some s) := by
  have hall : (s.all (fun c => decide (c.toNat < 256)) = true) ↔ ∀ c ∈ s, c.toNat < 256 := by
    simp [List.all_eq_true]
  refine ⟨?_, fun h => ?_⟩
  · show (if _ then _ else _ : Option Bytes).isSome = true ↔ _
    rw [← hall]
    split <;> simp_all
  · show (if _ then _ else _ : Option Bytes).bind _ = _
    rw [if_pos (hall.2 h)]
    show some _ = _
    rw [List.map_map]
    congr 1
    refine Eq.trans (List.map_congr_left (g := id) fun c hc => ?_) (List.map_id _)
    exact byteChar_ofNat (by have := h c hc; omega)

example : ∀ c ∈ py!"Zoë", c.toNat < 256 := by decide

/-! ## Splits -/

theorem lower_ascii {s u : Str} (h : lower s = u) (hu : Ascii u) : Ascii s := by
  intro c hc
  have h1 := hu c.toLower (by rw [← h]; exact List.mem_map.2 ⟨c, hc, rfl⟩)
  unfold Char.toLower at h1
  split at h1
  · next hA =>
    have : c.val.toNat ≤ 90 := hA.2
    show c.val.toNat < 128
    omega
  · exact h1

theorem readDeclared_cases {cfg : ReadCfg} {p : Path} (h : readDeclared cfg p = true) :
    p = [py!"bag-info.txt"] ∨ ManifestFile p := by
  unfold readDeclared at h
  simp only [Bool.or_eq_true, decide_eq_true_eq, List.any_eq_true] at h
  rcases h with h | ⟨a, _, h | h⟩
  · exact .inl h
  · exact .inr ⟨a, .inl h⟩
  · exact .inr ⟨a, .inr h⟩

theorem declared_split {cfg : ReadCfg} {t t' : Tree} {b : RBag} (ho : openBag cfg t = .ok b)
    (hb : t'.read [py!"bagit.txt"] = t.read [py!"bagit.txt"]) : declaredEncoding t' = some b.encoding := by
  obtain ⟨_, _, _, _, tags, v, h1, _, _, h4, _⟩ := openBag_parts ho
  have : loadTagFile true t' [py!"bagit.txt"] = .ok tags := by
    rw [← h1]; unfold loadTagFile; rw [hb]
  unfold declaredEncoding
  rw [this]
  simp only
  rw [h4]; rfl

/-- The bag-info.txt of each bag that a split makes. -/
theorem split_infoText {hostOk : Str → Bool} {sum : Str → Str → Str} {blen : Str → Nat} {cfg : ReadCfg} {t : Tree}
    {b : RBag} (ho : openBag cfg t = .ok b) (hval : ValidBag hostOk sum blen cfg b) (hslash : ∀ a ∈ cfg.algs, '/' ∉ a)
    {o : ApplyOpts} {plan : List Manifest} {names : List Str} {d d' : CopyDisk} (hsrc : d.src = t)
    (hf : ∀ m ∈ plan, ∀ f ∈ m.contents, PlanEntry f)
    (h : applyPlan copyFS (b.source cfg) blen o plan names d = .ok d') {bags : List (Str × Tree)}
    (hb : d'.done = d.done ++ bags) {i : Nat} {m : Manifest} {n : Str} {t' : Tree} (hm : plan[i]? = some m)
    (hi : bags[i]? = some (n, t')) :
    (names[i]?).or m.name = some n ∧ ∃ ishead size count fs, bagInfoFields (b.source cfg) o n ishead size count = .ok fs ∧
      t'.read [py!"bag-info.txt"] = some (fieldsText fs) := by
  have hst : (b.source cfg).tree = t := (openBag_parts ho).1
  have ha : ∀ f, ∀ ah ∈ (b.source cfg).hashes f, '/' ∉ ah.1 :=
    fun f ah hh => hslash _ (hashes_valid ho hval hh).1
  obtain ⟨_, _, _, bags2, _, h2, _, _, _, h6⟩ := applyPlan_copy (hst ▸ hsrc) hf ha h
  have : bags2 = bags := List.append_cancel_left (h2.symm.trans hb)
  subst this
  obtain ⟨n', t'', fields, hb', hn, B⟩ := h6 i m hm
  rw [hi] at hb'
  cases hb'
  exact ⟨hn, _, _, _, _, B.info, bag_baginfo B⟩

/-- C125: the bags that a split makes of a valid bag are valid when they are read in the encoding that they declare,
if that is UTF-8, or if it has ASCII as a part and the paths, the metadata and the names are ASCII.
Missing: paths outside ASCII in bags that declare another encoding (`C125_negation_split`), and metadata outside
ASCII (`C125_negation_metadata`, `C125_negation_head`). -/
theorem C125_split_partial {hostOk : Str → Bool} {sum : Str → Str → Str} {blen : Str → Nat} {cfg : ReadCfg} {t : Tree}
    {b : RBag} (ho : openBag cfg t = .ok b) (hw : WfTree t)
    (hv : bagValidate hostOk sum blen cfg b = .ok ())
    (hex : HexSum sum) (halg : cfg.algs.Nodup) (hslash : ∀ a ∈ cfg.algs, '/' ∉ a) (htag : b.tagFile = py!"bag-info.txt")
    {o : ApplyOpts} {plan : List Manifest} {names : List Str} {d d' : CopyDisk} (hsrc : d.src = t)
    (hf : ∀ m ∈ plan, ∀ f ∈ m.contents, PlanEntry f ∧ PlainPath f ∧ ¬ HeadFile (comps f) ∧ f ≠ py!"fetch.txt")
    (hnd : ∀ m ∈ plan, m.contents.Nodup)
    (hnames : ∀ n ∈ names, OneLineValue n) (hmnames : ∀ m ∈ plan, ∀ n, m.name = some n → OneLineValue n)
    (hver : OneLineValue o.headVersion) (hdep : ∀ x ∈ o.deprecates, OneLineValue (deprecateValue x))
    {codecs : Str → Option Codec} {c : Codec} (hc : codecs b.encoding = some c)
    (henc : ReadsUtf8 c ∨ (AsciiCompatible c ∧ AsciiSplit b.info o plan names))
    (h : applyPlan copyFS (b.source cfg) blen o plan names d = .ok d') :
    ∃ bags : List (Str × Tree), d'.done = d.done ++ bags ∧ bags.length = plan.length ∧
      ∀ n t', (n, t') ∈ bags → ∀ path,
        (∀ p, t'.isfile p = true → isDangerous cfg.env path (joinPath p) = false) →
        ∃ b', openWritten codecs { cfg with bagpath := path } t' = .ok b' ∧
          bagValidate hostOk sum blen { cfg with bagpath := path } b' = .ok () := by
  have hval := (C80_valid_iff ho hw hostOk sum blen).1 hv
  obtain ⟨bags, h1, h2, h3⟩ := split_outputs ho hw hv hex halg hslash htag hsrc hf hnd hnames hmnames hver hdep h
  refine ⟨bags, h1, h2, ?_⟩
  intro n t' hb path hpath
  obtain ⟨i, hi⟩ := List.mem_iff_getElem?.1 hb
  have hil : i < plan.length := by rw [← h2]; exact (List.getElem?_eq_some_iff.1 hi).1
  obtain ⟨sb, hman, _, _, _, _, _, _, hop⟩ := h3 i _ n t' (List.getElem?_eq_getElem hil) hi
  obtain ⟨b', hb1, _, _, hb4⟩ := hop path hpath
  refine ⟨b', ?_, (C80_valid_iff hb1 sb.wf hostOk sum blen).2 hb4⟩
  rw [← hb1]
  have hdecl := declared_split ho sb.bagit.1
  have hcod : ∀ enc c', declaredEncoding t' = some enc → codecs enc = some c' → c' = c := by
    intro enc c' he hc'
    rw [hdecl] at he
    cases he
    rw [hc] at hc'; cases hc'; rfl
  rcases henc with hu | ⟨hac, as⟩
  · exact C125_utf8 (fun enc c' he hc' => hcod enc c' he hc' ▸ hu)
  · refine C125_ascii sb.wf (fun enc c' he hc' => hcod enc c' he hc' ▸ hac) ?_
    intro p s hp hr
    have hmem : plan[i] ∈ plan := List.getElem_mem hil
    rcases readDeclared_cases hp with rfl | hmf
    · obtain ⟨hn, _, _, _, fs, hbf, hbi⟩ := split_infoText ho hval hslash hsrc (fun m hm f hfm => (hf m hm f hfm).1) h h1
        (List.getElem?_eq_getElem hil) hi
      rw [hr] at hbi
      cases hbi
      refine ascii_bagInfo hbf ?_ as.info as.version as.deprecates
      cases hni : names[i]? with
      | none => rw [hni] at hn; exact as.planned _ hmem n hn
      | some x => rw [hni] at hn; cases hn; exact as.names _ (List.mem_of_getElem? hni)
    · rw [(hman p hmf).2 s hr]
      refine ascii_flatten ?_
      intro line hl
      unfold recorded at hl
      obtain ⟨f, hfc, hl⟩ := List.mem_flatMap.1 hl
      obtain ⟨⟨a, x⟩, hax, hl⟩ := List.mem_filterMap.1 hl
      rw [Option.ite_none_right_eq_some] at hl
      obtain ⟨_, hl⟩ := hl
      cases hl
      obtain ⟨_, content, _, hlow, _⟩ := hashes_valid ho hval hax
      exact ascii_append (ascii_append (lower_ascii hlow (hex _ _))
        (ascii_cons (by decide) (as.paths _ hmem f (copied_mem.1 hfc).1))) (ascii_lit rfl)

/-! ## Paths outside ASCII -/

theorem widest {l : List Str} {P : Str → Prop} (h : ∃ f ∈ l, P f) : ∃ f ∈ l, P f ∧ ∀ g ∈ l, P g → wide g ≤ wide f := by
  induction l with
  | nil => obtain ⟨_, hf, _⟩ := h; cases hf
  | cons x l ih =>
    by_cases hl : ∃ f ∈ l, P f
    · obtain ⟨f, hf, hp, hmax⟩ := ih hl
      by_cases hx : P x ∧ wide f ≤ wide x
      · refine ⟨x, List.mem_cons_self, hx.1, fun g hg hpg => ?_⟩
        rcases List.mem_cons.1 hg with rfl | hg
        · exact Nat.le_refl _
        · exact Nat.le_trans (hmax g hg hpg) hx.2
      · refine ⟨f, List.mem_cons_of_mem _ hf, hp, fun g hg hpg => ?_⟩
        rcases List.mem_cons.1 hg with rfl | hg
        · have : ¬ wide f ≤ wide g := fun hle => hx ⟨hpg, hle⟩
          omega
        · exact hmax g hg hpg
    · obtain ⟨f, hf, hp⟩ := h
      rcases List.mem_cons.1 hf with rfl | hf
      · refine ⟨f, List.mem_cons_self, hp, fun g hg hpg => ?_⟩
        rcases List.mem_cons.1 hg with rfl | hg
        · exact Nat.le_refl _
        · exact absurd ⟨g, hg, hpg⟩ hl
      · exact absurd ⟨f, hf, hp⟩ hl

theorem mem_moji_iff {s : Str} {x : Char} (hx : x.toNat < 128) : x ∈ moji s ↔ x ∈ s := by
  refine ⟨fun h => ?_, fun h => ?_⟩
  · rcases mem_moji h with ⟨h, _⟩ | h
    · exact h
    · omega
  · obtain ⟨a, b, rfl⟩ := List.append_of_mem h
    rw [moji_append, moji_cons, utf8Encode_ascii hx]
    simp [byteChar_ofNat (c := x) (by omega)]

theorem moji_length (s : Str) : s.length ≤ (moji s).length := by
  unfold moji; rw [List.length_map]; exact length_utf8 s

theorem moji_eq_ascii {s u : Str} (hu : Ascii u) (h : moji s = u) : s = u := by
  have h1 := wide_moji s
  rw [h, wide_zero.2 hu] at h1
  rw [moji_ascii (wide_zero.1 (by omega))] at h
  exact h

theorem moji_joinWith (q : List Str) : moji (joinWith ['/'] q) = joinWith ['/'] (q.map moji) := by
  induction q with
  | nil => rfl
  | cons x q ih =>
    cases q with
    | nil => rfl
    | cons y q =>
      rw [joinWith, moji_append, moji_append, ih]
      rfl

theorem goodName_moji {s : Str} (h : GoodName s) : GoodName (moji s) := by
  refine ⟨fun e => h.nonempty ?_, fun e => h.noslash ((mem_moji_iff (by decide)).1 e), fun e => h.nodot ?_,
    fun e => h.nodotdot ?_⟩
  · exact moji_eq_ascii (ascii_lit rfl) e
  · exact moji_eq_ascii (ascii_lit rfl) e
  · exact moji_eq_ascii (ascii_lit rfl) e

theorem moji_head {c : Char} {s : Str} (h : c.toNat < 128) : moji (c :: s) = c :: moji s := by
  rw [moji_cons, utf8Encode_ascii h]
  simp [byteChar_ofNat (c := c) (by omega)]

theorem moji_last {s : Str} (hne : s ≠ []) (h : ∀ c, s.getLast? = some c → c.toNat < 128) :
    (moji s).getLast? = s.getLast? := by
  obtain ⟨init, c, rfl⟩ : ∃ init c, s = init ++ [c] := ⟨_, _, (List.dropLast_concat_getLast hne).symm⟩
  have hc := h c (by simp)
  rw [moji_append, moji_head hc, moji_nil]
  simp

theorem plainPath_moji {f : Str} (h : PlainPath f) (hd : isPayload f = true)
    (hl : ∀ c, f.getLast? = some c → c.toNat < 128) : PlainPath (moji f) ∧ isPayload (moji f) = true := by
  obtain ⟨⟨q, hq, e⟩, ht, hb, hs, hn⟩ := h
  have hne : f ≠ [] := by intro e0; rw [e0] at hd; exact absurd hd (by decide)
  obtain ⟨rest, hrest⟩ : ∃ rest, f = py!"data/" ++ rest := by
    unfold isPayload at hd
    obtain ⟨r, hr⟩ := startsWith_iff.1 hd
    exact ⟨r, hr.symm⟩
  have hm : moji f = py!"data/" ++ moji rest := by
    rw [hrest, moji_append, moji_ascii (s := py!"data/") (ascii_lit rfl)]
  refine ⟨⟨⟨q.map moji, ⟨?_, ?_⟩, ?_⟩, ⟨?_, ?_⟩, ?_, ?_, ?_⟩, ?_⟩
  · intro e0; exact hq.1 (List.map_eq_nil_iff.1 e0)
  · intro c hc
    obtain ⟨x, hx, rfl⟩ := List.mem_map.1 hc
    exact goodName_moji (hq.2 x hx)
  · rw [e, moji_joinWith]
  · intro c hc
    rw [hm] at hc
    cases hc; decide
  · intro c hc
    rw [moji_last hne hl] at hc
    exact ht.2 c hc
  · intro c hc
    rcases mem_moji hc with ⟨h1, _⟩ | ⟨h1, _⟩
    · exact hb c h1
    · cases hnl : isNl c with
      | false => rfl
      | true =>
        unfold isNl at hnl
        simp only [Bool.or_eq_true, beq_iff_eq] at hnl
        rcases hnl with rfl | rfl <;> exact absurd h1 (by decide)
  · rw [hm]; simp
  · intro h1; exact hn ((mem_moji_iff (by decide)).1 h1)
  · unfold isPayload
    rw [hm]; exact startsWith_append _ _

theorem moji_flatten (l : List Str) : moji l.flatten = (l.map moji).flatten := by
  induction l with
  | nil => rfl
  | cons x l ih => rw [List.flatten_cons, moji_append, ih]; rfl

theorem dropBom_moji (s : Str) : dropBom (moji s) = moji s := by
  cases h : moji s with
  | nil => rfl
  | cons x xs =>
    have : x ≠ bom := by
      rintro rfl
      rcases mem_moji (s := s) (x := bom) (by rw [h]; exact List.mem_cons_self) with ⟨_, h1⟩ | ⟨_, h1⟩ <;>
        exact absurd h1 (by decide)
    simp [dropBom, this]

theorem manifestLines_moji {enc : Str} {ls : List Str} (hb : ∀ l ∈ ls, ∀ c ∈ l, isNl c = false) :
    manifestLines enc (moji (ls.map (· ++ ['\n'])).flatten) = ls.map (fun l => moji l ++ ['\n']) := by
  unfold manifestLines
  rw [dropBom_moji]
  have : (if startsWith py!"UTF" enc then moji (ls.map (· ++ ['\n'])).flatten else moji (ls.map (· ++ ['\n'])).flatten) =
      ((ls.map moji).map (· ++ ['\n'])).flatten := by
    rw [ite_self, moji_flatten, List.map_map, List.map_map]
    congr 1
    refine List.map_congr_left fun l _ => ?_
    simp only [Function.comp_apply, moji_append]
    rfl
  rw [this, textLines_universal, List.map_map]
  · rfl
  · intro l hl c hc
    obtain ⟨l', hl', rfl⟩ := List.mem_map.1 hl
    rcases mem_moji hc with ⟨h1, _⟩ | ⟨h1, _⟩
    · exact hb l' hl' c h1
    · cases hnl : isNl c with
      | false => rfl
      | true =>
        unfold isNl at hnl
        simp only [Bool.or_eq_true, beq_iff_eq] at hnl
        rcases hnl with rfl | rfl <;> exact absurd h1 (by decide)

theorem completeness_of_valid {hostOk : Str → Bool} {sum : Str → Str → Str} {blen : Str → Nat} {cfg : ReadCfg} {b : RBag}
    (h : bagValidate hostOk sum blen cfg b = .ok ()) : ∀ p ∈ dkeys b.entries, isPayload p = true → p ∈ payloadFiles b.tree := by
  have hc : validateCompleteness cfg b = .ok () := by
    unfold bagValidate at h
    repeat' (split at h)
    all_goals first | (cases h; done) | assumption
  unfold validateCompleteness at hc
  split at hc
  · cases hc
  · split at hc
    · next hall =>
      simp only [Bool.and_eq_true] at hall
      intro p hp hpay
      have := List.all_eq_true.1 hall.1.1 p (by
        unfold expectedFiles
        refine List.mem_append_left _ (List.mem_filter.2 ⟨hp, hpay⟩))
      exact of_decide_eq_true this
    · cases hc

/-- C125 fails for every split of a valid bag that declares ISO-8859-1: an output bag that holds a payload file whose
path is not ASCII is not valid, or cannot be opened.  Its manifests are written in UTF-8 and read in ISO-8859-1, so
that they are for paths where there are no files.  (The paths outside ASCII are asked to end in an ASCII character,
such as that of a file type: some others lose their last bytes as whitespace.) -/
theorem C125_negation_split {hostOk : Str → Bool} {sum : Str → Str → Str} {blen : Str → Nat} {cfg : ReadCfg} {t : Tree}
    {b : RBag} (ho : openBag cfg t = .ok b) (hw : WfTree t)
    (hv : bagValidate hostOk sum blen cfg b = .ok ())
    (hex : HexSum sum) (halg : cfg.algs.Nodup) (hslash : ∀ a ∈ cfg.algs, '/' ∉ a) (htag : b.tagFile = py!"bag-info.txt")
    {o : ApplyOpts} {plan : List Manifest} {names : List Str} {d d' : CopyDisk} (hsrc : d.src = t)
    (hf : ∀ m ∈ plan, ∀ f ∈ m.contents, PlanEntry f ∧ PlainPath f ∧ ¬ HeadFile (comps f) ∧ f ≠ py!"fetch.txt")
    (hnd : ∀ m ∈ plan, m.contents.Nodup)
    (hnames : ∀ n ∈ names, OneLineValue n) (hmnames : ∀ m ∈ plan, ∀ n, m.name = some n → OneLineValue n)
    (hver : OneLineValue o.headVersion) (hdep : ∀ x ∈ o.deprecates, OneLineValue (deprecateValue x))
    {codecs : Str → Option Codec} (hc : codecs b.encoding = some latin1Codec)
    (h : applyPlan copyFS (b.source cfg) blen o plan names d = .ok d') :
    ∃ bags : List (Str × Tree), d'.done = d.done ++ bags ∧ bags.length = plan.length ∧
      ∀ (i : Nat) m n t', plan[i]? = some m → bags[i]? = some (n, t') →
        (∃ f ∈ m.contents, isPayload f = true ∧ t.isfile (comps f) = true ∧ ¬ Ascii f) →
        (∀ f ∈ m.contents, isPayload f = true → ∀ x, f.getLast? = some x → x.toNat < 128) →
        ∀ path b', openWritten codecs { cfg with bagpath := path } t' = .ok b' →
          bagValidate hostOk sum blen { cfg with bagpath := path } b' ≠ .ok () := by
  have hval := (C80_valid_iff ho hw hostOk sum blen).1 hv
  obtain ⟨ht, hm, _⟩ := openBag_parts ho
  obtain ⟨bags, h1, h2, h3⟩ := split_outputs ho hw hv hex halg hslash htag hsrc hf hnd hnames hmnames hver hdep h
  refine ⟨bags, h1, h2, ?_⟩
  intro i m n t' hmi hi hex1 hlast path b' hopen hvb
  obtain ⟨sb, hman, _⟩ := h3 i m n t' hmi hi
  have hmem := List.mem_of_getElem? hmi
  -- the payload file with most characters outside ASCII
  obtain ⟨f, hfm, ⟨hpay, hfile, hna⟩, hmax⟩ := widest (P := fun f => isPayload f = true ∧ t.isfile (comps f) = true ∧ ¬ Ascii f) hex1
  have hw0 : 0 < wide f := Nat.pos_of_ne_zero (fun e => hna (wide_zero.1 e))
  obtain ⟨⟨q, hq, rfl, _⟩, hpl, _, _⟩ := hf m hmem f hfm
  obtain ⟨hplm, hpaym⟩ := plainPath_moji hpl hpay (hlast _ hfm hpay)
  rw [comps_joinPath hq] at hfile
  obtain ⟨content, hcont⟩ : ∃ c, t.read q = some c := by
    rw [isfile_read] at hfile; exact Option.isSome_iff_exists.1 hfile
  -- its checksum
  obtain ⟨alg, line, s, hl1, hl2⟩ := hval.listed q content
    ((mem_payload (ht.symm ▸ hw)).2 ⟨ht.symm ▸ hcont, ((isPayload_iff hq).1 hpay).1⟩)
  have hs := (hashes_look ho).2 ((C70_loads hm (joinPath q) alg s).2 ⟨line, ht ▸ hl1, hl2⟩)
  obtain ⟨halgm, content', _, hlow, hword, hhash⟩ := hashes_valid ho hval hs
  have hsa : Ascii s := lower_ascii hlow (hex _ _)
  -- its line in the manifest
  let ls := recorded (b.source cfg).hashes (copied t m.contents) [py!"manifest-" ++ alg ++ py!".txt"]
  have hfc : joinPath q ∈ copied t m.contents := copied_mem.2 ⟨hfm, by rw [comps_joinPath hq]; exact hfile⟩
  have hls : ls = manifestOf (b.source cfg).hashes (copied t m.contents) true alg := recorded_eq _ _ true alg
  have hline : s ++ ' ' :: joinPath q ++ ['\n'] ∈ ls := by
    rw [hls]; exact mem_manifestOf.2 ⟨_, hfc, hpay, s, hs, rfl⟩
  have hmf : ManifestFile [py!"manifest-" ++ alg ++ py!".txt"] := ⟨alg, .inl rfl⟩
  have hmfile := (hman _ hmf).1.2 (.inl (List.ne_nil_of_mem hline))
  obtain ⟨text, htext⟩ : ∃ c, t'.read [py!"manifest-" ++ alg ++ py!".txt"] = some c := by
    rw [isfile_read] at hmfile; exact Option.isSome_iff_exists.1 hmfile
  have htx : text = ls.flatten := (hman _ hmf).2 text htext
  -- what is opened
  unfold openWritten at hopen
  rw [declared_split ho sb.bagit.1] at hopen
  simp only [hc] at hopen
  split at hopen
  · cases hopen
  · next t'' hseen =>
    split at hopen
    · cases hopen
    · next b'' hb'' =>
      cases hopen
      obtain ⟨s', hs', hr⟩ := seenTree_file hseen (p := [py!"manifest-" ++ alg ++ py!".txt"]) (by
        unfold readDeclared
        simp only [Bool.or_eq_true, decide_eq_true_eq, List.any_eq_true]
        exact .inr ⟨alg, halgm, .inl rfl⟩) htext
      rw [seenText_latin1] at hs'
      cases hs'
      have hls2 : ls = (ls.map List.dropLast).map (· ++ ['\n']) := by
        rw [List.map_map]
        symm
        refine Eq.trans (List.map_congr_left (g := id) ?_) (List.map_id _)
        intro l hl
        rw [hls] at hl
        obtain ⟨f, hf, _, c, h1, rfl⟩ := mem_manifestOf.1 hl
        simp only [Function.comp_apply, id_eq]
        rw [show c ++ ' ' :: f ++ ['\n'] = (c ++ ' ' :: f) ++ ['\n'] by simp, List.dropLast_concat]
      have hnb : ∀ l ∈ ls.map List.dropLast, ∀ c ∈ l, isNl c = false := by
        intro l hl c hcl
        obtain ⟨l', hl', rfl⟩ := List.mem_map.1 hl
        rw [hls] at hl'
        obtain ⟨f, hff, _, x, hx, rfl⟩ := mem_manifestOf.1 hl'
        rw [show x ++ ' ' :: f ++ ['\n'] = (x ++ ' ' :: f) ++ ['\n'] by simp, List.dropLast_concat] at hcl
        rcases List.mem_append.1 hcl with hcl | hcl
        · obtain ⟨_, _, _, _, hwx, _⟩ := hashes_valid ho hval hx
          have := hwx.2 c hcl
          cases hn : isNl c with
          | false => rfl
          | true => rw [isBreak_isSpace (isNl_isBreak hn)] at this; cases this
        · rcases List.mem_cons.1 hcl with rfl | hcl
          · decide
          · exact (hf m hmem f (copied_mem.1 hff).1).2.1.nobreak c hcl
      have hml : s ++ ' ' :: moji (joinPath q) ++ ['\n'] ∈ manifestLines b''.encoding (moji text) := by
        rw [htx, hls2, manifestLines_moji hnb]
        refine List.mem_map.2 ⟨s ++ ' ' :: joinPath q, List.mem_map.2 ⟨_, hline, ?_⟩, ?_⟩
        · rw [show s ++ ' ' :: joinPath q ++ ['\n'] = (s ++ ' ' :: joinPath q) ++ ['\n'] by simp, List.dropLast_concat]
        · rw [moji_append, moji_ascii hsa, moji_head (by decide)]
      have ht2 := (openBag_parts hb'').1
      have hlisted : Listed { cfg with bagpath := path } b'' (moji (joinPath q)) := by
        refine ⟨alg, _, s, ?_, (C70_plain_line hword hhash hplm s _).2 ⟨rfl, rfl⟩⟩
        unfold manifestText
        refine List.mem_append_left _ (List.mem_flatMap.2 ⟨alg, halgm, ?_⟩)
        rw [ht2, hr]
        exact List.mem_map.2 ⟨_, hml, rfl⟩
      have hkey := (entries_listed hb'').2 hlisted
      have hpf := completeness_of_valid hvb _ hkey hpaym
      -- so there is a file whose path has still more such characters
      unfold payloadFiles at hpf
      obtain ⟨⟨q', nd⟩, hq', hj⟩ := List.mem_filterMap.1 hpf
      cases nd with
      | dir => cases hj
      | file c =>
        simp only at hj hq'
        split at hj
        · next hd =>
          simp only [Option.some.injEq] at hj
          simp only [Bool.and_eq_true, decide_eq_true_eq] at hd
          have hr' : t'.read q' = some c := by
            unfold Tree.read; rw [dget_of_mem sb.wf.nodup hq']
          rcases sb.only q' (isfile_of_read hr') with ⟨hsf, g, hg, hgc⟩ | hst | ⟨_, hst⟩
          · obtain ⟨⟨r, hr2, rfl, _⟩, _⟩ := hf m hmem g hg
            rw [comps_joinPath hr2] at hgc
            subst hgc
            rw [hj] at hg
            have hwm := wide_moji (joinPath q)
            have := hmax _ hg ⟨hpaym, by rw [← hj, comps_joinPath hr2]; exact hsf,
              fun ha => by have := wide_zero.2 ha; omega⟩
            omega
          · rcases hst with rfl | rfl | ⟨a, rfl | rfl⟩ <;> simp at hd
          · rcases hst with rfl | rfl | rfl <;> simp at hd
        · cases hj

/-! ## Metadata outside ASCII -/

/-- The metadata of the source is copied to the head bag as it is if the source is UTF-8, and if it is ASCII in an
encoding that has ASCII as a part. -/
theorem C125_head (s : Str) : aggregationText (utf8 s) = .ok (translateNl s) ∧
    (Ascii s → aggregationText (s.map (fun c => UInt8.ofNat c.toNat)) = .ok (translateNl s)) := by
  have h : aggregationText (utf8 s) = .ok (translateNl s) := by unfold aggregationText; rw [utf8Decode_utf8]
  exact ⟨h, fun ha => by rw [← utf8_ascii ha]; exact h⟩

/-- C125 fails for the head bag of every split of a bag that declares ISO-8859-1 and has metadata outside ASCII: the
source's bag-info.txt is read as UTF-8 to be copied, which either ends the split with an exception or gives another
text. -/
theorem C125_negation_head {bytes : Bytes} {s : Str} (h : latin1Codec.decode bytes = some s) (hs : ¬ Ascii s) :
    aggregationText bytes ≠ .ok (translateNl s) := by
  intro he
  unfold aggregationText at he
  split at he
  · cases he
  · next s' hd =>
    injection he with he
    have e : s = moji s' := by
      have := utf8Decode_inv hd
      cases h
      unfold moji; rw [this]
    have h1 := congrArg wide he
    rw [wide_translateNl, wide_translateNl] at h1
    have h2 := wide_moji s'
    rw [← e, ← h1] at h2
    exact hs (wide_zero.1 (by omega))

/-! ## Samples -/

namespace Sample

/-- The codecs of the samples. -/
def codecs (e : Str) : Option Codec :=
  if e = py!"UTF-8" then some utf8Codec else if e = py!"ISO-8859-1" then some latin1Codec else none

def latinCfg : ReadCfg := { Sample.readCfg with knownEncoding := fun e => (codecs e).isSome }

/-- A valid bag that declares ISO-8859-1; the texts are those read with it. -/
def latinTree : Tree :=
  [([py!"bagit.txt"], .file py!"BagIt-Version: 0.97\nTag-File-Character-Encoding: ISO-8859-1\n"),
   ([py!"bag-info.txt"], .file py!"Payload-Oxum: 5.2\nContact-Name: Ana\n"),
   ([py!"data"], .dir), ([py!"data", py!"café.txt"], .file py!"xyz"), ([py!"data", py!"c"], .file py!"uv"),
   ([py!"manifest-md5.txt"], .file py!"d3 data/café.txt\nd2 data/c\n")]

/-- The same with ASCII paths and a name that is not. -/
def latinInfoTree : Tree :=
  [([py!"bagit.txt"], .file py!"BagIt-Version: 0.97\nTag-File-Character-Encoding: ISO-8859-1\n"),
   ([py!"bag-info.txt"], .file py!"Payload-Oxum: 5.2\nContact-Name: Zoë\n"),
   ([py!"data"], .dir), ([py!"data", py!"a b"], .file py!"xyz"), ([py!"data", py!"c"], .file py!"uv"),
   ([py!"manifest-md5.txt"], .file py!"d3 data/a b\nd2 data/c\n")]

def latinHalves : List Manifest :=
  [{ name := some py!"b1", contents := [py!"data/café.txt"] }, { name := some py!"b2", contents := [py!"data/c"] }]

/-- The verdicts on a source and on the outputs of its split when they are read with the declared encoding. -/
def writtenVerdicts (t : Tree) (plan : List Manifest) : Option (Except PyErr Unit × List (Except PyErr Unit)) :=
  match openBag latinCfg t with
  | .error _ => none
  | .ok b =>
    match applyPlan copyFS (b.source latinCfg) List.length {} plan [] { src := t } with
    | .error _ => none
    | .ok d => some (bagValidate (fun _ => true) Sample.sum List.length latinCfg b,
        d.done.map (fun e =>
          match openWritten codecs { latinCfg with bagpath := py!"/out" } e.2 with
          | .error x => .error x
          | .ok b' => bagValidate (fun _ => true) Sample.sum List.length { latinCfg with bagpath := py!"/out" } b'))

/-- The value of a field in the source and in the outputs of its split when they are read with the declared
encoding.  The last output is left out: it is the head bag, and the copying of the source's metadata into it may
fail (`C125_negation_head`), when the other bags have been made. -/
def writtenField (k : Str) (t : Tree) (plan : List Manifest) : Option (Option InfoVal × List (Option InfoVal)) :=
  match openBag latinCfg t with
  | .error _ => none
  | .ok b =>
    match applyPlan copyFS (b.source latinCfg) List.length {} plan [] { src := t } with
    | .error _ => none
    | .ok d => some (dget b.info k,
        d.done.dropLast.map (fun e =>
          match openWritten codecs { latinCfg with bagpath := py!"/out" } e.2 with
          | .error _ => none
          | .ok b' => dget b'.info k))

end Sample

/-- One of the output bags of this split is invalid although the source is valid. -/
example : Sample.writtenVerdicts Sample.latinTree Sample.latinHalves =
    some (.ok (), [.error .bagValidationError, .ok ()]) := by decide +kernel

/-- C125 fails for metadata outside ASCII: in a bag that declares ISO-8859-1, the values that a split passes on are
others when they are read, already in the bags that are made before the head bag. -/
theorem C125_negation_metadata :
    Sample.writtenField py!"Contact-Name" Sample.latinInfoTree
      [{ name := some py!"b1", contents := [py!"data/a b"] }, { name := some py!"b2", contents := [py!"data/c"] }] =
    some (some (.one py!"Zoë"), [some (.one py!"ZoÃ«")]) := by
  decide +kernel

/-- The hypotheses of `C125_negation_split` can be met. -/
example : ∃ b, openBag Sample.latinCfg Sample.latinTree = .ok b ∧ WfTree Sample.latinTree ∧
    bagValidate (fun _ => true) Sample.sum List.length Sample.latinCfg b = .ok () ∧ HexSum Sample.sum ∧
    b.tagFile = py!"bag-info.txt" ∧ Sample.codecs b.encoding = some latin1Codec ∧
    (∀ m ∈ Sample.latinHalves, ∀ f ∈ m.contents, PlanEntry f ∧ PlainPath f ∧ ¬ HeadFile (comps f) ∧ f ≠ py!"fetch.txt") ∧
    (∃ f ∈ (Sample.latinHalves[0]).contents, isPayload f = true ∧ Sample.latinTree.isfile (comps f) = true ∧ ¬ Ascii f) ∧
    (applyPlan copyFS (b.source Sample.latinCfg) List.length {} Sample.latinHalves [] { src := Sample.latinTree }).isOk = true := by
  refine ⟨_, rfl, Sample.wf_of_check (by decide), by decide +kernel, Sample.hexSum, rfl, rfl, ?_, ?_, by decide +kernel⟩
  · intro m hm f hf
    simp only [Sample.latinHalves, List.mem_cons, List.not_mem_nil, or_false] at hm
    rcases hm with rfl | rfl
    · simp only [List.mem_cons, List.not_mem_nil, or_false] at hf
      subst hf
      exact Sample.plain_data (n := py!"café.txt") (by decide) (by decide) (by decide)
    · simp only [List.mem_cons, List.not_mem_nil, or_false] at hf
      subst hf
      exact Sample.plain_data (n := py!"c") (by decide) (by decide) (by decide)
  · refine ⟨_, List.mem_cons_self, by decide, by decide, ?_⟩
    intro h
    exact absurd (h 'é' (by decide)) (by decide)

/-- The hypotheses of `C125_split_partial` can be met with ISO-8859-1. -/
example : AsciiCompatible latin1Codec ∧ AsciiSplit [(py!"Contact-Name", .one py!"Ana")] {}
    [{ name := some py!"b2", contents := [py!"data/c"] }] [] := by
  refine ⟨C125_latin1.1, ⟨?_, ?_, by simp, ?_, ascii_lit rfl, by simp⟩⟩
  · simp only [List.mem_cons, List.not_mem_nil, or_false]
    rintro _ rfl f hf
    simp only [List.mem_cons, List.not_mem_nil, or_false] at hf
    subst hf; exact ascii_lit rfl
  · simp only [List.mem_cons, List.not_mem_nil, or_false, InfoVal.values]
    rintro _ rfl
    refine ⟨ascii_lit rfl, ?_⟩
    intro v hv
    simp only [List.mem_cons, List.not_mem_nil, or_false] at hv
    subst hv; exact ascii_lit rfl
  · simp only [List.mem_cons, List.not_mem_nil, or_false]
    rintro _ rfl n hn
    cases hn; exact ascii_lit rfl

/-- With UTF-8 such names are no problem. -/
example : Sample.writtenVerdicts (dset Sample.latinTree [py!"bagit.txt"]
      (.file py!"BagIt-Version: 0.97\nTag-File-Character-Encoding: UTF-8\n")) Sample.latinHalves =
    some (.ok (), [.ok (), .ok ()]) := by decide +kernel

/-- Copying the metadata of this source ends the split with an exception. -/
example : (latin1Codec.encode py!"Contact-Name: Zoë\n").map aggregationText = some (.error .valueError) ∧
    (latin1Codec.encode py!"Contact-Name: Zoë\n").bind latin1Codec.decode = some py!"Contact-Name: Zoë\n" ∧
    aggregationText (utf8 py!"Contact-Name: Zoë\r\n") = .ok py!"Contact-Name: Zoë\n" := by
  decide +kernel

end Verif
