/-
The format of the VS_VERSIONINFO resource, as it is documented for Windows; independent of the reader and the writer.
-/
import Verif.Model.VersionInfo

namespace PE.VerFmt

/-- A 16-bit number. -/
def word (n : Nat) : Bytes := [UInt8.ofNat n, UInt8.ofNat (n / 256)]
/-- A 32-bit number. -/
def dword (n : Nat) : Bytes := word n ++ word (n / 65536)
/-- 16-bit characters. -/
def units (w : List Nat) : Bytes := w.flatMap word
/-- The characters of a literal. -/
def text (t : String) : List Nat := t.toList.map Char.toNat
/-- Padding to a multiple of 4 bytes. -/
def pad (b : Bytes) : Bytes := b ++ List.replicate ((4 - b.length % 4) % 4) 0
/-- The start of a block: its length, the length of its value, its type (1 for text), its key with a terminator, padded. -/
def head (len vlen type : Nat) (key : List Nat) : Bytes :=
  pad (word len ++ word vlen ++ word type ++ units key ++ [0, 0])
/-- A block: the length is that of the whole block. -/
def block (vlen type : Nat) (key : List Nat) (body : Bytes) : Bytes :=
  head ((head 0 vlen type key).length + body.length) vlen type key ++ body
/-- A string: the value has a terminator, its length is in characters; the padding behind it is not part of the block. -/
def string (x : WStr × WStr) : Bytes := pad (block (x.2.length + 1) 1 x.1 (units x.2 ++ [0, 0]))
/-- A string table; its key is the language. -/
def table (x : WStr × StrMap) : Bytes := block 0 1 x.1 (x.2.flatMap string)
/-- All string tables. -/
def strings (ss : LangMap) : Bytes := if ss = [] then [] else block 0 1 (text "StringFileInfo") (ss.flatMap table)
/-- The translations: pairs of a language and a code page. -/
def translation (ts : TransMap) : Bytes :=
  block (4 * ts.length) 0 (text "Translation") (ts.flatMap fun x => word x.1 ++ word x.2)
/-- The block with the translations. -/
def vars (ts : TransMap) : Bytes := if ts = [] then [] else block 0 1 (text "VarFileInfo") (translation ts)
/-- VS_FIXEDFILEINFO: signature, version of the structure, file version, product version, mask of the valid flags, flags, operating system,
    type and subtype, date. -/
def fixed (f : FileVer) : Bytes :=
  [0xFEEF04BD, 0x00010000, f.verMS, f.verLS, f.prodMS, f.prodLS, 0x3F, f.flags, f.os, f.type, f.subtype, f.dateMS, f.dateLS].flatMap dword
/-- The whole resource. -/
def version (f : FileVer) (ss : LangMap) (ts : TransMap) : Bytes :=
  block 52 0 (text "VS_VERSION_INFO") (fixed f ++ strings ss ++ vars ts)

end PE.VerFmt
