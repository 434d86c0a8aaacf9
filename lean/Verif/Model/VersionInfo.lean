/-
Model of version information:
/repo/src/pe_lib/resource_version_info_reader.cpp, resource_version_info_writer.cpp, file_version_info.cpp, version_info_viewer.cpp,
version_info_editor.cpp, version_info_types.h, resource_internal.h
`version_info_block` (pe_structures.h:576-589) is packed: `Length` at 0, `ValueLength` at 2, `Type` at 4, `Key` at 6, size 8.
-/
import Verif.Model.ResourceData

namespace PE

/-! ### Types -/

/-- The order of `std::wstring`: lexicographic. -/
def wlt : WStr → WStr → Bool
  | [], [] => false
  | [], _ :: _ => true
  | _ :: _, [] => false
  | a :: x, b :: y => if a < b then true else if a = b then wlt x y else false

/-- version_info_types.h:9 `string_values_map`. -/
abbrev StrMap := List (WStr × WStr)
/-- version_info_types.h:13 `lang_string_values_map`. -/
abbrev LangMap := List (WStr × StrMap)
/-- version_info_types.h:16 `translation_values_map`, a `std::multimap<uint16_t, uint16_t>`: ascending by the first number. -/
abbrev TransMap := List (Nat × Nat)

/-- `std::multimap<uint16_t, uint16_t>::insert`: behind all the elements with keys that are not greater. -/
def multiAdd (x : Nat × Nat) : TransMap → TransMap
  | [] => [x]
  | y :: m => if x.1 < y.1 then x :: y :: m else y :: multiAdd x m

/-- `m[k] = v` for a `std::map`. -/
def mapPut {κ ν : Type} [DecidableEq κ] (lt : κ → κ → Bool) (k : κ) (v : ν) : List (κ × ν) → List (κ × ν)
  | [] => [(k, v)]
  | (k', v') :: m =>
    if k = k' then (k', v) :: m
    else if lt k k' then (k, v) :: (k', v') :: m
    else (k', v') :: mapPut lt k v m

/-- file_version_info.h `file_version_info`: the raw values. -/
structure FileVer where
  verMS : Nat := 0
  verLS : Nat := 0
  prodMS : Nat := 0
  prodLS : Nat := 0
  flags : Nat := 0
  os : Nat := 0
  type : Nat := 0
  subtype : Nat := 0
  dateMS : Nat := 0
  dateLS : Nat := 0
  deriving DecidableEq, Repr

/-- resource_version_info_reader.cpp:12 `version_info_key`: "VS_VERSION_INFO". -/
def keyRoot : WStr := [86, 83, 95, 86, 69, 82, 83, 73, 79, 78, 95, 73, 78, 70, 79]
/-- resource_internal.h:5: "StringFileInfo". -/
def keyStrings : WStr := [83, 116, 114, 105, 110, 103, 70, 105, 108, 101, 73, 110, 102, 111]
/-- resource_internal.h:7: "VarFileInfo". -/
def keyVar : WStr := [86, 97, 114, 70, 105, 108, 101, 73, 110, 102, 111]
/-- resource_internal.h:8: "Translation". -/
def keyTrans : WStr := [84, 114, 97, 110, 115, 108, 97, 116, 105, 111, 110]

/-! ### Reading -/

/-- resource_version_info_reader.cpp:19-32 `get_version_block_value_pos`. -/
def viValuePos (base : Nat) (key : WStr) : Res Nat := do
  let n := w32 ((w32 key.length + 1) * 2)
  let ret := alignUp (w32 (6 + base + n)) 4
  throwIf (ret < base ∨ ret < 6 ∨ ret < n) .resourceIncorrectVersionInfo
  .ok ret

/-- resource_version_info_reader.cpp:35-49 `get_version_block_first_child_pos`. -/
def viChildPos (base vlen : Nat) (key : WStr) : Res Nat := do
  let n := w32 ((w32 key.length + 1) * 2)
  let ret := w32 (alignUp (w32 (6 + base + n)) 4 + alignUp vlen 4)
  throwIf (ret < base ∨ ret < vlen ∨ ret < 6 ∨ ret < n) .resourceIncorrectVersionInfo
  .ok ret

/-- utils.h:13-24 `is_null_terminated<uint16_t>(block->Key, length - pos - 6)` and `u16string(block->Key)`, e.g.
    resource_version_info_reader.cpp:114-117. -/
def viKey (d : Bytes) (pos : Nat) : Res WStr := do
  let u := decUnits (d.drop (pos + 6))
  throwIf (u.all (· ≠ 0) = true) .resourceIncorrectVersionInfo
  .ok (u.takeWhile (· ≠ 0))

/-- resource_version_info_reader.cpp:98-117, 248 and the same in 122-138, 195; 143-159, 185; 200-216, 239: the blocks in `base`, `base + len`
    from `pos` on, with `body` for the contents of one block. `pos - base` is computed in 32 bits (for the children of the root, `base` is 0;
    the test `is_sum_safe(child_pos, 8)` in line 102 is left out, it holds as `child_pos` is below a 16-bit number). The next position is
    computed by `align_up<uint16_t>`, which gives 0 for lengths from 0xFFFD on: then the code loops forever with the same block. -/
def viWalk {σ : Type} (d : Bytes) (base len : Nat) (body : Nat → WStr → σ → Res σ) (pos : Nat) (s : σ) : Res σ := do
  if sub32 pos base < len then
    throwIf (d.length < pos + 8) .resourceIncorrectVersionInfo
    let l ← readU 2 d pos
    throwIf (l = 0) .resourceIncorrectVersionInfo
    let key ← viKey d pos
    let s ← body pos key s
    if _h : sub32 pos base < sub32 (w32 (pos + alignUp16 l 4)) base then
      viWalk d base len body (w32 (pos + alignUp16 l 4)) s
    else ubE .hang
  else .ok s
termination_by len - sub32 pos base
decreasing_by omega

/-- resource_version_info_reader.cpp:161-174: the value of a string block. Only `ValueLength` bytes are checked, but `ValueLength` words
    are read. (`std::string` has a readable zero byte behind the data, which the model does not count as part of the buffer.) -/
def viValue (d : Bytes) (pos : Nat) (key : WStr) (vlen : Nat) : Res WStr :=
  if vlen ≠ 0 then do
    let vp ← viValuePos pos key
    throwIf (d.length < w32 (vp + vlen)) .resourceIncorrectVersionInfo
    let x ← readN d vp (2 * vlen)
    .ok (stripWide (decUnits x))
  else .ok []

/-- resource_version_info_reader.cpp:161-182: one string block. -/
def viString (d : Bytes) (pos : Nat) (key : WStr) (m : StrMap) : Res StrMap := do
  let vlen ← readU 2 d (pos + 2)
  let v ← viValue d pos key vlen
  let k ← fromUcs2 key
  let v ← fromUcs2 v
  .ok (mapAdd wlt k v m)

/-- resource_version_info_reader.cpp:140-192: one string table. -/
def viTable (d : Bytes) (pos : Nat) (key : WStr) (m : LangMap) : Res LangMap := do
  let len ← readU 2 d pos
  let vlen ← readU 2 d (pos + 2)
  let first ← viChildPos pos vlen key
  let t ← viWalk d pos len (viString d) first []
  let k ← fromUcs2 key
  .ok (mapAdd wlt k t m)

/-- resource_version_info_reader.cpp:228-235: the pairs from byte `i` of the value on, `n` left. -/
def viPairs (d : Bytes) (vp : Nat) : (n i : Nat) → TransMap → Res TransMap
  | 0, _, m => .ok m
  | n + 1, i, m => do
    let a ← readU 2 d (vp + i)
    let b ← readU 2 d (vp + 2 + i)
    viPairs d vp n (i + 4) (multiAdd (a, b) m)

/-- resource_version_info_reader.cpp:218-236: one block in VarFileInfo. -/
def viVar (d : Bytes) (pos : Nat) (key : WStr) (m : TransMap) : Res TransMap := do
  let vlen ← readU 2 d (pos + 2)
  if key = keyTrans ∧ vlen ≠ 0 then do
    let vp ← viValuePos pos key
    throwIf (d.length < w32 (vp + vlen)) .resourceIncorrectVersionInfo
    viPairs d vp ((vlen + 3) / 4) 0 m
  else .ok m

/-- resource_version_info_reader.cpp:117-245: one child of the root block. -/
def viChild (d : Bytes) (pos : Nat) (key : WStr) (m : LangMap × TransMap) : Res (LangMap × TransMap) := do
  let len ← readU 2 d pos
  let vlen ← readU 2 d (pos + 2)
  if key = keyStrings then do
    let first ← viChildPos pos vlen key
    let s ← viWalk d pos len (viTable d) first m.1
    .ok (s, m.2)
  else if key = keyVar then do
    let first ← viChildPos pos vlen key
    let t ← viWalk d pos len (viVar d) first m.2
    .ok (m.1, t)
  else throwE .resourceIncorrectVersionInfo

/-- resource_version_info_reader.cpp:52-55, 78-95 and file_version_info.cpp:19-26: the fixed information. -/
def viFixed (d : Bytes) (key : WStr) (vlen : Nat) : Res FileVer :=
  if vlen ≠ 0 then do
    let vp ← viValuePos 0 key
    throwIf (d.length < vp + 52) .resourceIncorrectVersionInfo
    let x ← readN d vp 52
    throwIf (rd 4 x 0 ≠ 0xFEEF04BD ∨ rd 4 x 4 ≠ 0x00010000) .resourceIncorrectVersionInfo
    .ok { verMS := rd 4 x 8, verLS := rd 4 x 12, prodMS := rd 4 x 16, prodLS := rd 4 x 20, flags := rd 4 x 28, os := rd 4 x 32,
          type := rd 4 x 36, subtype := rd 4 x 40, dateMS := rd 4 x 44, dateLS := rd 4 x 48 }
  else .ok {}

/-- resource_version_info_reader.cpp:61-252 `get_version_info` for data. The maps are parameters by reference: `ss`, `ts` are their
    contents before, and the pairs that are read are inserted. (What they contain after an exception is not modelled.) -/
def viRead (d : Bytes) (ss : LangMap) (ts : TransMap) : Res (FileVer × LangMap × TransMap) := do
  throwIf (d.length < 8) .resourceIncorrectVersionInfo
  let key ← viKey d 0
  throwIf (key ≠ keyRoot) .resourceIncorrectVersionInfo
  let len ← readU 2 d 0
  let vlen ← readU 2 d 2
  let f ← viFixed d key vlen
  let first ← viChildPos 0 vlen key
  let m ← viWalk d 0 len (viChild d) first (ss, ts)
  .ok (f, m.1, m.2)

/-- pe_resource_viewer.h:31 `resource_version`. -/
def typeVersion : ResKey := .id 16

/-- resource_version_info_reader.cpp:258-270 `get_version_info_by_lang`. -/
def ResDir.versionInfo (r : ResDir) (lang : Nat) (ss : LangMap) (ts : TransMap) : Res (FileVer × LangMap × TransMap) := do
  let x ← r.getData typeVersion (.id 1) lang
  viRead x.2 ss ts

/-- resource_version_info_reader.cpp:276-289 `get_version_info` for an index. -/
def ResDir.versionInfoAt (r : ResDir) (index : Nat) (ss : LangMap) (ts : TransMap) : Res (FileVer × LangMap × TransMap) := do
  let x ← r.getDataAt typeVersion (.id 1) index
  viRead x.2 ss ts

/-! ### Writing -/

/-- `(s.length() + 1) * sizeof(uint16_t)` in 32 bits, e.g. resource_version_info_writer.cpp:129, 155. -/
def viKeyLen (s : WStr) : Nat := w32 ((s.length + 1) * 2)

/-- resource_version_info_writer.cpp:50-51: the size of one string. -/
def viStrSize (x : WStr × WStr) : Nat := w32 (alignUp (w32 (6 + (x.1.length + 1) * 2)) 4 + alignUp (w32 ((x.2.length + 1) * 2)) 4)

/-- resource_version_info_writer.cpp:45-52: the size of one table. -/
def viTableSize (x : WStr × StrMap) : Nat :=
  x.2.foldl (fun n y => w32 (n + viStrSize y)) (alignUp (w32 (6 + (x.1.length + 1) * 2)) 4)

/-- resource_version_info_writer.cpp:36-54. -/
def viStringsSize (ss : LangMap) : Nat := if ss = [] then 0 else ss.foldl (fun n y => w32 (n + viTableSize y)) 36

/-- resource_version_info_writer.cpp:56-63. -/
def viTransSize (ts : TransMap) : Nat := if ts = [] then 0 else w32 (64 + 4 * ts.length)

/-- resource_version_info_writer.cpp:30-63 `total_version_info_length`. -/
def viTotal (ss : LangMap) (ts : TransMap) : Nat := w32 (w32 (92 + viStringsSize ss) + viTransSize ts)

/-- The buffer `version_data` and `data_ptr`. -/
abbrev ViOut := Bytes × Nat

/-- `memcpy(&version_data[data_ptr], x, |x|); data_ptr += |x|`. -/
def viPut (w : ViOut) (x : Bytes) : Res ViOut := do
  let b ← writeAt w.1 w.2 x
  .ok (b, w32 (w.2 + x.length))

/-- The first 6 bytes of a `version_info_block`. -/
def viHdr (len vlen type : Nat) : Bytes := leBytes 2 len ++ leBytes 2 vlen ++ leBytes 2 type

/-- resource_version_info_writer.cpp:142-146, 174-178, 192-196: two zero bytes if `n` is not aligned. -/
def viPad (w : ViOut) (n : Nat) : Res ViOut := if n % 4 ≠ 0 then viPut w (zeros 2) else .ok w

/-- resource_version_info_writer.cpp:129-146, 163-178: a key, `to_ucs2(s).c_str()`, and its padding. -/
def viPutKey (w : ViOut) (s : WStr) : Res ViOut := do
  let u ← toUcs2 s
  let w ← viPut w ((encUnits u ++ zeros 2).take (viKeyLen s))
  viPad w (6 + viKeyLen s)

/-- resource_version_info_writer.cpp:151-196: one string. -/
def viPutString (w : ViOut) (x : WStr × WStr) : Res ViOut := do
  let vlen := w16 (x.2.length + 1)
  let w ← viPut w (viHdr (w16 (alignUp64 (6 + viKeyLen x.1) 4 + vlen * 2)) vlen 1)
  let w ← viPutKey w x.1
  let u ← toUcs2 x.2
  let w ← viPut w ((encUnits u ++ zeros 2).take (vlen * 2))
  viPad w (vlen * 2)

/-- `block_ptr->Length = data_ptr - old_ptr + 6` for the block at `pos` with `old_ptr` = `pos + 6`
    (resource_version_info_writer.cpp:200, 203, 249, 250). -/
def viSetLen (w : ViOut) (pos : Nat) : Res ViOut := do
  let b ← writeAt w.1 pos (leBytes 2 (w16 (sub32 w.2 (w32 (pos + 6)) + 6)))
  .ok (b, w.2)

/-- resource_version_info_writer.cpp:119-201: one table. -/
def viPutTable (w : ViOut) (x : WStr × StrMap) : Res ViOut := do
  let pos := w.2
  let w ← viPut w (viHdr 0 0 1)
  let w ← viPutKey w x.1
  let w ← x.2.foldlM viPutString w
  viSetLen w pos

/-- resource_version_info_writer.cpp:101-204: StringFileInfo. -/
def viPutStrings (w : ViOut) (ss : LangMap) : Res ViOut :=
  if ss = [] then .ok w else do
    let pos := w.2
    let w ← viPut w (viHdr 0 0 1)
    let w ← viPut w (encUnits keyStrings ++ zeros 2)
    let w ← ss.foldlM viPutTable w
    viSetLen w pos

/-- resource_version_info_writer.cpp:238-246: one pair. -/
def viPutPair (w : ViOut) (x : Nat × Nat) : Res ViOut := do
  let w ← viPut w (leBytes 2 x.1)
  viPut w (leBytes 2 x.2)

/-- resource_version_info_writer.cpp:207-251: VarFileInfo with Translation; `translation_block_ptr->ValueLength` is written in place. -/
def viPutTrans (w : ViOut) (ts : TransMap) : Res ViOut :=
  if ts = [] then .ok w else do
    let pos := w.2
    let w ← viPut w (viHdr 0 0 1)
    let w ← viPut w (encUnits keyVar ++ zeros 4)
    let pos2 := w.2
    let w ← viPut w (viHdr 0 0 0)
    let w ← viPut w (encUnits keyTrans ++ zeros 4)
    let b ← writeAt w.1 (pos2 + 2) (leBytes 2 (w16 (4 * ts.length)))
    let w ← ts.foldlM viPutPair (b, w.2)
    let w ← viSetLen w pos2
    viSetLen w pos

/-- resource_version_info_writer.cpp:74-87: `vs_fixedfileinfo`. -/
def viFixedBytes (f : FileVer) : Bytes :=
  leBytes 4 0xFEEF04BD ++ leBytes 4 0x00010000 ++ leBytes 4 f.verMS ++ leBytes 4 f.verLS ++ leBytes 4 f.prodMS ++ leBytes 4 f.prodLS ++
    leBytes 4 0x3F ++ leBytes 4 f.flags ++ leBytes 4 f.os ++ leBytes 4 f.type ++ leBytes 4 f.subtype ++ leBytes 4 f.dateMS ++ leBytes 4 f.dateLS

/-- resource_version_info_writer.cpp:28-251: `version_data`. -/
def viWrite (f : FileVer) (ss : LangMap) (ts : TransMap) : Res Bytes := do
  let total := viTotal ss ts
  let w ← viPut (zeros total, 0) (viHdr (w16 total) 52 0)
  let w ← viPut w (encUnits keyRoot ++ zeros 2)
  let w ← viPut w (zeros 2)
  let w ← viPut w (viFixedBytes f)
  let w ← viPutStrings w ss
  let w ← viPutTrans w ts
  .ok w.1

/-- resource_version_info_writer.cpp:21-255 `set_version_info`. -/
def ResDir.setVersionInfo (r : ResDir) (f : FileVer) (ss : LangMap) (ts : TransMap) (lang cp stamp : Nat) : ResDir × Res Unit :=
  match viWrite f ss ts with
  | .error e => (r, .error e)
  | .ok d => r.addResource d typeVersion (.id 1) lang cp stamp

/-- resource_version_info_writer.cpp:258-261 `remove_version_info`. -/
def ResDir.removeVersionInfo (r : ResDir) (lang : Nat) : ResDir × Res Bool := r.removeLang typeVersion (.id 1) lang

/-! ### version_info_viewer, version_info_editor -/

/-- The two maps that viewer and editor work on (version_info_viewer.cpp:14-16 stores them). -/
structure VerInfo where
  strings : LangMap
  trans : TransMap
  deriving DecidableEq, Repr

/-- version_info_viewer.cpp:9 `default_language_translation`: "041904b0". -/
def defaultLang : WStr := [48, 52, 49, 57, 48, 52, 98, 48]

/-- The digit of a number below 16 (`std::hex`, lower case). -/
def hexDigit (n : Nat) : Nat := if n < 10 then 48 + n else 87 + n

/-- `ss << std::hex << std::setw(4) << std::setfill(L'0') << n` for a `uint16_t`. -/
def hex4 (n : Nat) : WStr := [hexDigit (n / 4096 % 16), hexDigit (n / 256 % 16), hexDigit (n / 16 % 16), hexDigit (n % 16)]

/-- version_info_viewer.cpp:79-82, version_info_editor.cpp:142-145: the string for a translation. -/
def transName (x : Nat × Nat) : WStr := hex4 x.1 ++ hex4 x.2

/-- version_info_viewer.cpp:71-89 `get_translation_list`. -/
def VerInfo.transList (v : VerInfo) : List WStr := v.trans.map transName

/-- The value of a hexadecimal digit of either case. -/
def hexVal (c : Nat) : Option Nat :=
  if 48 ≤ c ∧ c ≤ 57 then some (c - 48)
  else if 97 ≤ c ∧ c ≤ 102 then some (c - 87)
  else if 65 ≤ c ∧ c ≤ 70 then some (c - 55)
  else none

/-- The hexadecimal digits at the beginning of a string. -/
def hexDigits : WStr → List Nat
  | [] => []
  | c :: s => match hexVal c with
    | some d => d :: hexDigits s
    | none => []

/-- A prefix "0x" or "0X". -/
def dropPrefix : WStr → WStr
  | 48 :: 120 :: s => s
  | 48 :: 88 :: s => s
  | s => s

/-- White space in the "C" locale. -/
def isBlank (c : Nat) : Bool := c == 32 || (decide (9 ≤ c) && decide (c ≤ 13))

/-- Digits to a `uint32_t` as the standard streams do: the greatest number if there are too many. -/
def hexNumber (s : WStr) : Nat := min ((hexDigits (dropPrefix s)).foldl (fun n d => 16 * n + d) 0) 4294967295

/-- version_info_viewer.cpp:146-158: `ss << std::hex << translation; ss >> translation_id`. The parsing by `std::wstringstream` in the "C"
    locale is an assumption of the model: white space, sign, prefix and digits as `std::num_get` of libstdc++ reads them; 0 if
    there are no digits. -/
def hexParse (s : WStr) : Nat :=
  match s.dropWhile isBlank with
  | 45 :: t => if (hexDigits (dropPrefix t)).foldl (fun n d => 16 * n + d) 0 < 4294967296 then sub32 0 (hexNumber t) else 4294967295
  | 43 :: t => hexNumber t
  | t => hexNumber t

/-- version_info_viewer.cpp:146-158 `translation_from_string`. -/
def transIds (s : WStr) : Nat × Nat := (hexParse s / 65536, hexParse s % 65536)

/-- version_info_viewer.cpp:108-127: the string table that is used. -/
def VerInfo.table (v : VerInfo) (tr : WStr) : Option StrMap :=
  if tr = [] then
    match mapFind defaultLang v.strings with
    | some t => some t
    | none => v.strings.head?.map Prod.snd
  else mapFind tr v.strings

/-- version_info_viewer.cpp:95-143 `get_property` (version_info_viewer.cpp:29-68: `get_company_name`, ... call it with a fixed name). -/
def VerInfo.get (v : VerInfo) (name tr : WStr) (thr : Bool) : Res WStr :=
  match (v.table tr).bind (mapFind name) with
  | some s => .ok s
  | none => if thr then throwE .versionInfoStringDoesNotExist else .ok []

/-- version_info_editor.cpp:116-129 `add_translation` with numbers. -/
def addTrans (x : Nat × Nat) (ts : TransMap) : TransMap := if x ∈ ts then ts else multiAdd x ts

/-- version_info_editor.cpp:88-90, 99-101: a new table, and its translation. -/
def VerInfo.addTable (v : VerInfo) (tr : WStr) : VerInfo :=
  { strings := mapAdd wlt tr [] v.strings, trans := addTrans (transIds tr) v.trans }

/-- version_info_editor.cpp:77-103: the key of the table to change, and the maps with a new table if it is needed. -/
def VerInfo.select (v : VerInfo) (tr : WStr) : WStr × VerInfo :=
  if tr = [] then
    match mapFind defaultLang v.strings, v.strings with
    | some _, _ => (defaultLang, v)
    | none, x :: _ => (x.1, v)
    | none, [] => (defaultLang, v.addTable defaultLang)
  else
    match mapFind tr v.strings with
    | some _ => (tr, v)
    | none => (tr, v.addTable tr)

/-- version_info_editor.cpp:75-107 `set_property` (version_info_editor.cpp:23-68: `set_company_name`, ... call it with a fixed name). -/
def VerInfo.set (v : VerInfo) (name value tr : WStr) : VerInfo :=
  let s := v.select tr
  { s.2 with strings := s.2.strings.map fun x => if x.1 = s.1 then (x.1, mapPut wlt name value x.2) else x }

/-- version_info_editor.cpp:110-114 `add_translation` with a string. -/
def VerInfo.addTranslation (v : VerInfo) (tr : WStr) : VerInfo := { v with trans := addTrans (transIds tr) v.trans }

/-- version_info_editor.cpp:138-162 `remove_translation` with numbers: the table with the name of the translation, and the first pair. -/
def VerInfo.removeIds (v : VerInfo) (x : Nat × Nat) : VerInfo :=
  { strings := v.strings.filter (fun y => y.1 ≠ transName x), trans := v.trans.erase x }

/-- version_info_editor.cpp:132-136 `remove_translation` with a string. -/
def VerInfo.removeTranslation (v : VerInfo) (tr : WStr) : VerInfo := v.removeIds (transIds tr)

end PE
