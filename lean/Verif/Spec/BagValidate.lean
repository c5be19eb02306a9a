import Verif.Model.BagValidate
import Verif.Spec.Apply
import Verif.Spec.ReadBag
/-!
# What a valid bag is
-/

namespace Verif.Spec

/-- A manifest of the bag has a line for the path `p`. -/
def Listed (cfg : ReadCfg) (b : RBag) (p : Str) : Prop :=
  ∃ alg line c, (alg, line) ∈ manifestText cfg b.version b.encoding b.tree ∧ Lists line c p

/-- The value of Payload-Oxum fits the payload: number of bytes, a dot, number of files. -/
def OxumFits (blen : Str → Nat) (v : InfoVal) (t : Tree) : Prop :=
  ∃ bytes files, firstValue v = some (bytes ++ '.' :: files) ∧ '.' ∉ bytes ∧
    isdigit bytes = true ∧ isdigit files = true ∧
    pyInt bytes = some (Int.ofNat ((payload t).map (fun e => blen e.2)).sum) ∧
    pyInt files = some (Int.ofNat (payload t).length)

/-- A valid bag. -/
structure ValidBag (hostOk : Str → Bool) (sum : Str → Str → Str) (blen : Str → Nat) (cfg : ReadCfg) (b : RBag) :
    Prop where
  data : b.tree.isdir [py!"data"] = true
  manifest : ∃ a ∈ cfg.algs, b.tree.isfile [py!"manifest-" ++ a ++ py!".txt"] = true
  nobom : ∀ text, b.tree.read [py!"bagit.txt"] = some text → text.head? ≠ some bom
  fetch : ∀ text, b.tree.read [py!"fetch.txt"] = some text → ∀ line ∈ textLines .universal text,
    ∃ url size file, FetchLine line url size file ∧ isDangerous cfg.env cfg.bagpath file = false ∧
      (∃ scheme netloc, urlparse hostOk url = .ok (scheme, netloc) ∧ scheme ≠ [] ∧ netloc ≠ []) ∧
      Listed cfg b file ∧ isPayload file = true
  oxum : ∀ v, dget b.info py!"Payload-Oxum" = some v → OxumFits blen v b.tree
  /-- Every payload file is in a manifest. -/
  listed : ∀ p c, (p, c) ∈ payload b.tree → Listed cfg b (joinPath p)
  /-- Every payload file in a manifest is there. -/
  present : ∀ p, Listed cfg b p → isPayload p = true → ∃ q c, (q, c) ∈ payload b.tree ∧ p = joinPath q
  /-- The listed files have the recorded checksums. -/
  sums : ∀ alg line c p, (alg, line) ∈ manifestText cfg b.version b.encoding b.tree → Lists line c p →
    ∃ content, b.tree.read (comps p) = some content ∧ lower c = sum alg content

/-- A checksum in hexadecimal notation contains no byte order mark. -/
def HexSum (sum : Str → Str → Str) : Prop := ∀ alg c, ∀ x ∈ sum alg c, x.toNat < 128

end Verif.Spec
