import Verif.Lemmas.SplitRows
import Verif.Props.SplitConforms
/-!
# Bags whose tag files are written by a head bag object, as head bag validation sees them
-/

namespace Verif
open Spec

theorem trimmed_fieldsOf {m : MemberInfo} (h : CleanMember m) : ∀ f ∈ fieldsOf m, strip f = f := by
  intro f hf
  unfold fieldsOf at hf
  simp only [List.mem_cons, List.mem_append, Option.mem_toList, Option.map_eq_some_iff] at hf
  rcases hf with rfl | hf | ⟨c, hc, rfl⟩
  · exact strip_of_trimmed h.name.noouter
  · exact strip_of_trimmed (h.uri _ hf).noouter
  · have hc' := h.comment c hc
    exact strip_of_trimmed (trimmed_append (by simp) hc'.nonempty (by simp [isSpace]) (fun x hx => hc'.noouter.2 x hx))

/-- The rows of a written member list. -/
theorem rows_written {ms : List MemberInfo} (h : ∀ m ∈ ms, CleanMember m) {text : Str} (ht : membersText ms = .ok text) :
    memberRows text = ms.map fieldsOf := by
  have key : ∀ ms : List MemberInfo, (∀ m ∈ ms, CleanMember m) →
      membersText ms = .ok ((ms.map (fun m => joinWith ['\t'] (fieldsOf m))).map (· ++ ['\n'])).flatten := by
    intro ms
    induction ms with
    | nil => intro _; rfl
    | cons m ms ih =>
      intro h
      have hm := h m (by simp)
      have hf := format_eq (m := m) (fun s hs => (hm.uri s hs).nonempty) (fun s hs => (hm.comment s hs).nonempty) hm.info
      simp [membersText, hf, ih (fun m hm => h m (by simp [hm]))]
  rw [key ms h] at ht
  cases ht
  have hline : ∀ m ∈ ms, (∀ c ∈ joinWith ['\t'] (fieldsOf m), isBreak c = false) ∧
      strip (joinWith ['\t'] (fieldsOf m) ++ ['\n']) = joinWith ['\t'] (fieldsOf m) ∧ joinWith ['\t'] (fieldsOf m) ≠ [] := by
    intro m hm
    obtain ⟨h1, h2, h3, h4, h5⟩ := clean_fieldsOf (h m hm)
    refine ⟨?_, ?_, joinWith_ne_nil (by simp [fieldsOf]) h1⟩
    · intro c hc
      rcases mem_joinWith hc with hc | ⟨f, hf, hc⟩
      · simp at hc; subst hc; decide
      · exact h3 f hf c hc
    · rw [strip_append_space (by simp [isSpace]), strip_of_trimmed (trimmed_joinWith (sep := ['\t']) h1 h4 h5)]
  unfold memberRows rows
  rw [textLines_universal, filter_nonblank_lines]
  · rw [List.map_map, List.map_map]
    apply List.map_congr_left
    intro m hm
    obtain ⟨h1, h2, h3, h4, h5⟩ := clean_fieldsOf (h m hm)
    simp only [Function.comp]
    rw [(hline m hm).2.1, splitOn_joinWith (by simp [fieldsOf]) h2]
    conv => rhs; rw [← List.map_id (fieldsOf m)]
    exact List.map_congr_left (trimmed_fieldsOf (h m hm))
  · intro l hl
    obtain ⟨m, hm, rfl⟩ := List.mem_map.1 hl
    exact (hline m hm).2
  · intro l hl c hc
    obtain ⟨m, hm, rfl⟩ := List.mem_map.1 hl
    exact isNl_of_isBreak ((hline m hm).1 c hc)

theorem dget_of_fields {l : List (Str × Str)} {k v : Str} (h : fields (loadTags l) k = [v]) :
    dget (loadTags l) k = some (.one v) := dget_of_one (by rw [← h, fields_loadTags])

theorem urlparse_reference {hostOk : Str → Bool} (h : hostOk py!"github.com" = true) :
    urlparse hostOk CURRENT_REFERENCE = .ok (py!"https", py!"github.com") := by
  unfold urlparse
  have e : splitScheme ((CURRENT_REFERENCE.dropWhile (fun c => c.toNat ≤ 32)).filter (fun c => c ≠ '\t' && c ≠ '\r' && c ≠ '\n')) =
      (py!"https", '/' :: '/' :: (CURRENT_REFERENCE.drop 8)) := by decide +kernel
  have e2 : (CURRENT_REFERENCE.drop 8).takeWhile (fun c => c ≠ '/' && c ≠ '?' && c ≠ '#') = py!"github.com" := by decide +kernel
  simp only [e, e2, h]
  decide

/-- A member as head bag validation accepts it: what follows the name, if anything, is a URI with a scheme and
without a host. -/
def memberAccepted (hostOk : Str → Bool) (m : MemberInfo) : Prop :=
  match m.uri with
  | some u => ∃ scheme, urlparse hostOk u = .ok (scheme, []) ∧ scheme ≠ []
  | none => m.comment = none

/-- The checks, given what the tag files say. -/
theorem conforms_of_lists {hostOk : Str → Bool} {vb : VBag} {l : List (Str × Str)} (hinfo : vb.info = loadTags l)
    (hval : vb.verdict = .valid) (hhost : hostOk py!"github.com" = true) {ver d hv : Str}
    (h1 : fields vb.info py!"Multibag-Version" = [ver]) (hver0 : ver ≠ []) (hver : ver ≠ py!"0.2")
    (href : fields vb.info py!"Multibag-Reference" = [CURRENT_REFERENCE])
    (hdir : fields vb.info py!"Multibag-Tag-Directory" = [d]) (hd0 : d ≠ []) (hisd : vb.tree.isdir (comps d) = true)
    (hhead : fields vb.info py!"Multibag-Head-Version" = [hv]) (hv0 : hv ≠ [])
    (hdep : ∀ v ∈ fields vb.info py!"Multibag-Head-Deprecates", v ≠ [] ∧ (deprecParts v).length ≤ 2 ∧
      (deprecParts v).head? ≠ some hv ∧ (deprecParts v)[1]? ≠ some vb.name)
    (hrec : ∀ el ∈ [py!"Internal-Sender-Identifier", py!"Internal-Sender-Description", py!"Bag-Group-Identifier"],
      ∀ v ∈ fields vb.info el, v ≠ [])
    {ms : List MemberInfo} {last : MemberInfo} {mtext : Str} (hclean : ∀ m ∈ ms ++ [last], CleanMember m)
    (hacc : ∀ m ∈ ms ++ [last], memberAccepted hostOk m) (hlast : last.name = vb.name)
    (hnd : ((ms ++ [last]).map (·.name)).Nodup)
    (hmt : membersText (ms ++ [last]) = .ok mtext) (hmr : vb.tree.read (tagFile d py!"member-bags.tsv") = some mtext)
    {dest : List (Str × Str)} (hdc : ∀ e ∈ dest, Clean e.1 ∧ Clean e.2) (hdd : (dkeys dest).Nodup)
    (hdf : ∀ e ∈ dest, e.2 = vb.name → vb.tree.isfile (comps e.1) = true)
    (hlr : vb.tree.read (tagFile d py!"file-lookup.tsv") = some (lookupText dest))
    (hdata : vb.tree.isdir [py!"data"] = true)
    (hagg : ver = py!"0.3" ∨ vb.tree.exists (tagFile d py!"aggregation-info.txt") = false ∨
      ∃ text fs, vb.tree.read (tagFile d py!"aggregation-info.txt") = some text ∧
        parseTags .universal (dropBom text) = .ok fs) :
    HeadConforms hostOk vb ∧ HeadTidy vb := by
  have e1 := h1
  have e2 := hdir
  have e3 := hhead
  have e4 := href
  rw [hinfo] at e1 e2 e3 e4
  have hvv : infoVersion vb.info = some ver := by
    rw [hinfo]; unfold infoVersion; rw [dget_of_fields e1]
  have ht : tagDirOf vb = d := by
    unfold tagDirOf; rw [hinfo]; unfold tagDirs; rw [dget_of_fields e2]; simp [hd0]
  have hvn : (infoVersion vb.info = some py!"0.2") ↔ False := by rw [hvv]; simp [hver]
  have f1 : listFile (infoVersion vb.info) = py!"member-bags.tsv" := by unfold listFile; simp only [hvn, if_false]
  have f2 : placesFile (infoVersion vb.info) = py!"file-lookup.tsv" := by unfold placesFile; simp only [hvn, if_false]
  have g1 : ∀ text, rows (listFields (infoVersion vb.info)) text = memberRows text := by
    intro text; unfold listFields; simp only [hvn, if_false]; rfl
  have g2 : ∀ text, rows (placesFields (infoVersion vb.info)) text = lookupRows text := by
    intro text; unfold placesFields; simp only [hvn, if_false]; rfl
  have hlast' : lastValue vb.info py!"Multibag-Head-Version" = hv := by unfold lastValue; rw [hhead]; rfl
  have r1 := rows_written hclean hmt
  have r2 := rows_lookup hdc
  have hname : ∀ m : MemberInfo, (fieldsOf m).head?.getD [] = m.name := fun m => rfl
  constructor
  · refine { bag := hval, version := ⟨ver, hver0, hinfo ▸ dget_of_fields e1⟩, reference := ?_,
             dir := .inr ⟨d, hd0, hdir, hisd⟩, head := ?_, deprecates := ?_, recommended := ?_, members := ?_,
             lookup := ⟨hdata, ?_⟩, aggregation := ?_ }
    · intro _
      have : lastValue vb.info py!"Multibag-Reference" = CURRENT_REFERENCE := by unfold lastValue; rw [href]; rfl
      rw [this]
      exact ⟨_, _, urlparse_reference hhost, by decide, by decide⟩
    · rw [hinfo, dmem, dget_of_fields e3]; rfl
    · intro _
      rw [hlast']
      exact ⟨hv0, fun _ v hv => (hdep v hv).2.1⟩
    · intro el hel _ v hv
      exact hrec el hel v hv
    · rw [ht, f1]
      refine ⟨_, hmr, ?_, ?_⟩
      · rw [g1, r1]
        intro row hr
        obtain ⟨m, hm, rfl⟩ := List.mem_map.1 hr
        refine ⟨fun h => absurd h (fun h => hvn.1 h), fun u hu hu0 => ?_⟩
        have ha := hacc m hm
        unfold memberAccepted at ha
        unfold fieldsOf at hu
        cases hur : m.uri with
        | none => rw [hur] at ha hu; rw [ha] at hu; simp at hu
        | some w => rw [hur] at ha hu; simp at hu; subst hu; exact ha
      · rw [g1, r1]
        exact ⟨ms.map fieldsOf, fieldsOf last, by simp, by rw [hname, hlast]⟩
    · rw [ht, f2]
      refine ⟨_, hlr, ?_⟩
      rw [g2, r2]
      intro row hr
      obtain ⟨e, he, rfl⟩ := List.mem_map.1 hr
      refine ⟨rfl, fun h => hdf e he ?_⟩
      simpa using h
    · rw [ht, hvv]
      rcases hagg with h | h | h
      · exact .inr (.inl (by rw [h]))
      · exact .inr (.inr (.inl h))
      · exact .inr (.inr (.inr h))
  · refine { head := ⟨_, hv0, hhead⟩, deprecates := ?_, members := ?_, lookup := ?_ }
    · intro h
      rw [hlast']
      refine ⟨?_, fun v hv => (hdep v hv).2.2⟩
      cases hq : fields vb.info py!"Multibag-Head-Deprecates" with
      | nil =>
        exfalso
        have : dget vb.info py!"Multibag-Head-Deprecates" = none := by
          rw [hinfo] at hq ⊢
          exact dget_of_none (by rw [← hq, fields_loadTags])
        rw [dmem, this] at h
        cases h
      | cons x xs => exact (hdep x (by rw [hq]; exact List.mem_cons_self)).1
    · rw [ht, f1, hmr]
      intro text e
      cases e
      rw [g1, r1, List.map_map]
      exact hnd
    · rw [ht, f2, hlr]
      intro text e
      cases e
      rw [g2, r2, List.map_map]
      exact hdd

end Verif
