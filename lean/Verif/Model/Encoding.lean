import Verif.Model.BagValidate
/-!
# Character encodings (multibag/constants.py:10, split.py:276-410, restore.py:247-298, access/bagit.py:104-114, 214-222, 339-380)

The package writes all its text files in UTF-8 (`DEF_ENC`), and reads the metadata and the manifests of a bag in
the encoding that its bagit.txt declares.  Elsewhere in the model a file that the package writes has its text as
contents; here that text is turned into the bytes that are written, and these are turned into the text that is
read.

A codec that the Python library provides is a pair of partial functions.  Two of them are defined, UTF-8 and
ISO-8859-1; theorems that say so hold for any codec.
-/

namespace Verif

/-- Contents of a file. -/
abbrev Bytes := List UInt8

/-- A codec of the Python library: `str.encode` and `bytes.decode` with `errors='strict'`; none for an exception. -/
structure Codec where
  encode : Str → Option Bytes
  decode : Bytes → Option Str

/-! ## UTF-8 -/

/-- The bytes of a text written with `encoding='utf-8'` (split.py:282, 337, 384-393, 410; restore.py:247, 254, 280,
298).  Surrogates, which Python cannot write, are no characters here. -/
def utf8 (s : Str) : Bytes := s.flatMap String.utf8EncodeChar

/-- The loop of a decoder: at each step one character is taken from the front. -/
def utf8DecodeN : Nat → Bytes → Option Str
  | _, [] => some []
  | 0, _ :: _ => none
  | n + 1, b :: bs =>
    match ByteArray.utf8DecodeChar? (b :: bs).toByteArray 0 with
    | none => none
    | some c =>
      match utf8DecodeN n ((b :: bs).drop c.utf8Size) with
      | none => none
      | some s => some (c :: s)

/-- The text read with `encoding='utf-8'` (access/bagit.py:104-114, 262-269). -/
def utf8Decode (bs : Bytes) : Option Str := utf8DecodeN bs.length bs

/-- UTF-8. -/
def utf8Codec : Codec := ⟨fun s => some (utf8 s), utf8Decode⟩

/-! ## ISO-8859-1 -/

/-- The character of a byte. -/
def byteChar (b : UInt8) : Char := Char.ofNat b.toNat

/-- ISO-8859-1: a byte is the character of that number. -/
def latin1Codec : Codec where
  encode s := if s.all (fun c => c.toNat < 256) then some (s.map (fun c => UInt8.ofNat c.toNat)) else none
  decode bs := some (bs.map byteChar)

/-! ## Reading what was written -/

/-- What is read with codec `c` where the package has written the text `s`. -/
def seenText (c : Codec) (s : Str) : Option Str := c.decode (utf8 s)

/-- The files that are read with the declared encoding when a bag is opened (access/bagit.py:220-224, 339-359).
The payload manifests and bag-info.txt always are; the tag manifests from BagIt 0.97 on. -/
def readDeclared (cfg : ReadCfg) (p : Path) : Bool :=
  p = [py!"bag-info.txt"] || cfg.algs.any (fun a =>
    p = [py!"manifest" ++ '-' :: a ++ py!".txt"] || p = [py!"tagmanifest" ++ '-' :: a ++ py!".txt"])

/-- One entry of a bag as it is read. -/
def seenEntry (c : Codec) (cfg : ReadCfg) (e : Path × Node) : Option (Path × Node) :=
  match e.2 with
  | .dir => some e
  | .file s =>
    if readDeclared cfg e.1 then
      match seenText c s with
      | none => none
      | some s' => some (e.1, .file s')
    else some e

/-- The files of a bag as they are read, for a bag whose metadata and manifests were written by the package. -/
def seenTree (c : Codec) (cfg : ReadCfg) : Tree → Option Tree
  | [] => some []
  | e :: t =>
    match seenEntry c cfg e with
    | none => none
    | some e' =>
      match seenTree c cfg t with
      | none => none
      | some t' => some (e' :: t')

/-- The encoding that bagit.txt declares (access/bagit.py:187-214); none if there is none. -/
def declaredEncoding (t : Tree) : Option Str :=
  match loadTagFile true t [py!"bagit.txt"] with
  | .error _ => none
  | .ok tags => oneValue (dget tags py!"Tag-File-Character-Encoding")

/-- Opening a bag whose metadata and manifests were written by the package: they are read with the encoding that
bagit.txt declares, which itself is read as UTF-8 (access/bagit.py:179-224).  `codecs` is `codecs.lookup`.  A
text that cannot be decoded ends it with a UnicodeDecodeError, which is a `ValueError`; no attempt is made to say
which of several exceptions comes first.  The checksums of the files (`tree`) are those of the files as they are. -/
def openWritten (codecs : Str → Option Codec) (cfg : ReadCfg) (t : Tree) : Except PyErr RBag :=
  match declaredEncoding t with
  | none => openBag cfg t
  | some enc =>
    match codecs enc with
    | none => openBag cfg t
    | some c =>
      match seenTree c cfg t with
      | none => .error .valueError
      | some t' =>
        match openBag cfg t' with
        | .error e => .error e
        | .ok b => .ok { b with tree := t }

/-! ## Copying the metadata of the source -/

/-- What is written to `multibag/aggregation-info.txt` of a head bag, given the bytes of the source's bag-info.txt
(split.py:392-396): they are read as UTF-8, whatever the source's bagit.txt declares (access/bagit.py:262-269). -/
def aggregationText (bytes : Bytes) : Except PyErr Str :=
  match utf8Decode bytes with
  | none => .error .valueError
  | some s => .ok (translateNl s)

end Verif
