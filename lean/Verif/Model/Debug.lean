/-
Model of reading debug information: /repo/src/pe_lib/pe_debug.cpp, pe_debug.h
The structures are packed: `image_debug_directory` has 28 bytes, `image_coff_symbols_header` 32, `image_symbol` 18, `image_debug_misc` 13,
`CV_INFO_PDB20` 17, `CV_INFO_PDB70` 25 (pe_structures.h:754-840).
-/
import Verif.Model.Header
import Verif.Model.Rva
import Verif.Model.CStr
import Verif.Model.Map
import Verif.Model.ResourceData

namespace PE

/-- pe_debug.h:83-128 `coff_debug_info::coff_symbol`. -/
structure CoffSym where
  index : Nat
  cls : Nat
  type : Nat
  sec : Nat := 0
  rva : Nat := 0
  isFile : Bool
  name : Bytes
  deriving DecidableEq, Repr

/-- pe_debug.h:202-213, 273-286 `advanced_info_type` and the union `advanced_info`. The objects own their information and copies are
    deep (pe_debug.cpp:168-191), so they are values; a new one is empty (pe_debug.cpp:157-159). -/
inductive AdvInfo where
  | none
  | pdb70 (guid : Bytes) (age : Nat) (name : Bytes)
  | pdb20 (sig age : Nat) (name : Bytes)
  | misc (type : Nat) (text : Message)
  | coff (hdr : Bytes) (syms : List CoffSym)
  | codeview40
  | codeview50
  | codeview
  deriving DecidableEq, Repr

/-- pe_debug.cpp:162-165 `is_present`: whether there is a structure; the CodeView types have none. -/
def AdvInfo.isPresent : AdvInfo → Bool
  | .pdb70 _ _ _ | .pdb20 _ _ _ | .misc _ _ | .coff _ _ => true
  | _ => false

/-- pe_debug.cpp:319-322 `get_guid` of PDB 7.0 information. -/
def AdvInfo.guid : AdvInfo → Option Bytes
  | .pdb70 g _ _ => some g
  | _ => Option.none

/-- utils.cpp:79-85 `operator==` for GUIDs (pe_structures.h: one 32-bit, two 16-bit values and eight bytes). -/
def guidEq (a b : Bytes) : Bool :=
  rd 4 a 0 == rd 4 b 0 && rd 2 a 4 == rd 2 b 4 && rd 2 a 6 == rd 2 b 6 && slice a 8 8 == slice b 8 8

/-- pe_debug.h:202-213: the values of `advanced_info_type`. -/
def AdvInfo.rank : AdvInfo → Nat
  | .none => 0
  | .pdb70 _ _ _ => 1
  | .pdb20 _ _ _ => 2
  | .misc _ _ => 3
  | .coff _ _ => 4
  | .codeview40 => 5
  | .codeview50 => 6
  | .codeview => 7

/-- pe_debug.h:180-297 `debug_info`: `dir` holds the 28 bytes of `image_debug_directory` from which the getters (pe_debug.cpp:34-121) take
    their values. -/
structure DebugInfo where
  dir : Bytes
  adv : AdvInfo
  deriving DecidableEq, Repr

/-- pe_debug.cpp:298-303 `set_advanced_info_type` for an information `old`: the test is done after the old type was reset to
    `advanced_info_none`, so it never holds. -/
def setAdvType (_old new : AdvInfo) : AdvInfo :=
  let cur := AdvInfo.none
  if cur.rank ≥ AdvInfo.codeview40.rank then new else cur

/-! ### COFF symbols -/

/-- pe_debug.cpp:706-736: the name of a symbol. -/
def coffName (d : Bytes) (n lva : Nat) (sym : Bytes) : Res Bytes :=
  if rd 4 sym 0 ≠ 0 then .ok (cstr (slice sym 0 8))
  else do
    throwIf (isSumSafe (w32 (lva + n * 18)) (rd 4 sym 4) = false) .incorrectDebugDirectory
    let o := w32 (lva + n * 18 + rd 4 sym 4)
    throwIf (d.length < o) .incorrectDebugDirectory
    let t ← isNullTerminated (d.drop o) (d.length - o)
    throwIf (t = false) .incorrectDebugDirectory
    readCStr d o

/-- pe_debug.cpp:692-700: symbols that are listed beside file names: static ones of section 1 without auxiliary records, and external
    functions. `SectionNumber` is an `int16_t`. -/
def coffListed (sym : Bytes) : Bool :=
  (rd 1 sym 16 = 3 ∧ rd 1 sym 17 = 0 ∧ rd 2 sym 12 = 1) ∨
  (rd 1 sym 16 = 2 ∧ rd 2 sym 14 &&& 0x30 = 0x20 ∧ 0 < rd 2 sym 12 ∧ rd 2 sym 12 < 32768)

/-- pe_debug.cpp:660-745: the symbols from number `i` on. The offset of a file name (line 680) lacks `LvaToFirstSymbol`. For symbols that are
    not listed the auxiliary records are not skipped (the loop goes on with `++i`). -/
def coffLoop (d : Bytes) (n lva : Nat) (i : Nat) (acc : List CoffSym) : Res (List CoffSym) := do
  if i < n then
    let sym ← readN d (i * 18 + lva) 18
    let aux := rd 1 sym 17
    throwIf (isSumSafe i aux = false ∨ n < i + aux ∨ d.length < (i + 1) * 18 + lva + aux * 18) .incorrectDebugDirectory
    if rd 1 sym 16 = 103 then
      let x ← readN d ((i + 1) * 18) (aux * 18)
      coffLoop d n lva (i + aux + 1)
        (acc ++ [{ index := i, cls := rd 1 sym 16, type := rd 2 sym 14, isFile := true, name := stripNullbytes x }])
    else if coffListed sym then
      let x ← coffName d n lva sym
      coffLoop d n lva (i + aux + 1)
        (acc ++ [{ index := i, cls := rd 1 sym 16, type := rd 2 sym 14, sec := rd 2 sym 12, rva := rd 4 sym 8, isFile := false, name := x }])
    else coffLoop d n lva (i + 1) acc
  else .ok acc
termination_by n - i

/-- pe_debug.cpp:638-749: COFF information. -/
def debugCoff (d : Bytes) : Res AdvInfo := do
  throwIf (d.length < 32) .incorrectDebugDirectory
  let h ← readN d 0 32
  let n := rd 4 h 0
  let lva := rd 4 h 4
  throwIf (n ≥ 4294967295 / 18 ∨ isSumSafe (n * 18) lva = false) .incorrectDebugDirectory
  throwIf (d.length < n * 18 + lva) .incorrectDebugDirectory
  let l ← coffLoop d n lva 0 []
  .ok (.coff h l)

/-! ### CodeView and others -/

/-- "RSDS", "NB10", "NB09", "NB11", "NB05". -/
def sigRSDS : Bytes := [82, 83, 68, 83]
def sigNB10 : Bytes := [78, 66, 49, 48]
def sigNB09 : Bytes := [78, 66, 48, 57]
def sigNB11 : Bytes := [78, 66, 49, 49]
def sigNB05 : Bytes := [78, 66, 48, 53]

/-- pe_debug.cpp:763-771, 779-787: a file name at the end of the data. -/
def pdbName (d : Bytes) (o : Nat) : Res Bytes := do
  throwIf (d.length < o + 1) .incorrectDebugDirectory
  let t ← isNullTerminated (d.drop o) (d.length - o)
  throwIf (t = false) .incorrectDebugDirectory
  readCStr d o

/-- pe_debug.cpp:751-808: CodeView information. The first check is against the size of a pointer (8 bytes). -/
def debugCodeview (d : Bytes) : Res AdvInfo := do
  throwIf (d.length < 8) .incorrectDebugDirectory
  let sig ← readN d 0 4
  if sig = sigRSDS then do
    let name ← pdbName d 24
    let x ← readN d 0 25
    .ok (.pdb70 (slice x 4 16) (rd 4 x 20) name)
  else if sig = sigNB10 then do
    let name ← pdbName d 16
    let x ← readN d 0 17
    .ok (.pdb20 (rd 4 x 8) (rd 4 x 12) name)
  else if sig = sigNB09 then .ok (setAdvType .none .codeview40)
  else if sig = sigNB11 then .ok (setAdvType .none .codeview50)
  else if sig = sigNB05 then .ok (setAdvType .none .codeview)
  else .ok .none

/-- pe_debug.cpp:371-390: the constructor of `misc_debug_info` for the record with claimed length `len`. With `len < 12` the number of
    characters is a huge `size_t`, and there is no such range behind `Data`: undefined by the C++ standard. (The implementation in libstdc++
    notices it and throws `std::length_error`.) -/
def miscText (d : Bytes) (len : Nat) : Res Message :=
  if len < 12 then ubE .oobRead
  else if rd 1 d 8 ≠ 0 then do
    let x ← readN d 12 (2 * ((len - 12) / 2))
    let w ← fromUcs2 (decUnits x)
    .ok (.wide (stripWide w))
  else do
    let x ← readN d 12 (len - 12)
    .ok (.ansi (stripNullbytes x))

/-- pe_debug.cpp:810-826: information of type misc. -/
def debugMisc (d : Bytes) : Res AdvInfo := do
  throwIf (d.length < 13) .incorrectDebugDirectory
  let h ← readN d 0 13
  throwIf (d.length < rd 4 h 4) .incorrectDebugDirectory
  let t ← miscText d (rd 4 h 4)
  .ok (.misc (rd 4 h 0) t)

/-- pe_debug.cpp:630-828: what is known from the raw data of an entry of type `type`. -/
def debugAdv (type : Nat) (raw : Option Bytes) : Res AdvInfo :=
  match raw with
  | none => .ok .none
  | some d =>
    if type = 1 then debugCoff d
    else if type = 2 then debugCodeview d
    else if type = 4 then debugMisc d
    else .ok .none

/-- pe_debug.cpp:623-840: the entries from the one at `pos` on, whose bytes are `dir`; `fin` is the end of the directory. -/
def Image.debugLoop (p : Image) (fin pos : Nat) (dir : Bytes) (acc : List DebugInfo) : Res (List DebugInfo) := do
  if rd 4 dir 24 ≠ 0 ∧ pos < fin then
    let a ← debugAdv (rd 4 dir 12) (mapFind (rd 4 dir 24) p.debugData)
    throwIf (isSumSafe pos 28 = false) .incorrectDebugDirectory
    let d ← p.readT 28 (w32 (pos + 28)) .virt true
    if _h : pos < w32 (pos + 28) then p.debugLoop fin (w32 (pos + 28)) d (acc ++ [{ dir := dir, adv := a }])
    else ubE .hang
  else .ok acc
termination_by 4294967296 - pos
decreasing_by
  have : w32 (pos + 28) < 4294967296 := Nat.mod_lt _ (by decide)
  omega

/-- pe_debug.cpp:602-843 `get_debug_information`. -/
def Image.getDebug (p : Image) : Res (List DebugInfo) := do
  if ← p.hasDir dirDebug then do
    let rva ← p.nt.getDirRva dirDebug
    let len ← p.dataLenFrom rva rva .virt true
    throwIf (len < 28) .incorrectDebugDirectory
    let d ← p.readT 28 rva .virt true
    let size ← p.nt.getDirSize dirDebug
    throwIf (isSumSafe rva size = false) .incorrectDebugDirectory
    p.debugLoop (w32 (rva + size)) rva d []
  else .ok []

end PE
