/-
Model of the readers and writers of bitmaps, string tables and message tables:
/repo/src/pe_lib/resource_bitmap_reader.cpp, resource_bitmap_writer.cpp, resource_string_table_reader.cpp,
resource_message_list_reader.cpp, message_table.cpp
-/
import Verif.Model.ResourceManager
import Verif.Model.Utils
import Verif.Model.Map

namespace PE

/-! ### Bitmaps -/

/-- pe_resource_viewer.h:19 `resource_bitmap`. -/
def typeBitmap : ResKey := .id 2

/-- resource_bitmap_reader.cpp:52-60: the offset of the bits in the file, computed from the header `bitmapinfoheader` (with
    `biBitCount` at 14 and `biClrUsed` at 32). `pow` gives exact results for the values up to 8. -/
def bitmapOffBits (d : Bytes) : Nat :=
  if rd 4 d 32 ≠ 0 then w32 (54 + w32 (4 * rd 4 d 32))
  else if rd 2 d 14 ≤ 8 then 54 + 4 * 2 ^ rd 2 d 14
  else 54

/-- resource_bitmap_reader.cpp:39-64 `create_bitmap`: 14 bytes of `bitmapfileheader` and the data. -/
def createBitmap (d : Bytes) : Res Bytes := do
  throwIf (d.length < 40) .resourceIncorrectBitmap
  .ok (leBytes 2 0x4d42 ++ leBytes 4 (w32 (14 + d.length)) ++ leBytes 2 0 ++ leBytes 2 0 ++ leBytes 4 (bitmapOffBits d) ++ d)

/-- resource_bitmap_reader.cpp:21-30 `get_bitmap_by_name`, `get_bitmap_by_id_lang` with a language. -/
def ResDir.getBitmap (r : ResDir) (k : ResKey) (lang : Nat) : Res Bytes := do
  let x ← r.getData typeBitmap k lang
  createBitmap x.2

/-- resource_bitmap_reader.cpp:15-18, 33-36: the same with an index. -/
def ResDir.getBitmapAt (r : ResDir) (k : ResKey) (index : Nat) : Res Bytes := do
  let x ← r.getDataAt typeBitmap k index
  createBitmap x.2

/-- resource_bitmap_writer.cpp:15-41 `add_bitmap`. -/
def ResDir.addBitmap (r : ResDir) (file : Bytes) (k : ResKey) (lang cp stamp : Nat) : ResDir × Res Unit :=
  if file.length < 14 then (r, throwE .resourceIncorrectBitmap)
  else r.addResource (file.drop 14) typeBitmap k lang cp stamp

/-- resource_bitmap_writer.cpp:44-53 `remove_bitmap`. -/
def ResDir.removeBitmap (r : ResDir) (k : ResKey) (lang : Nat) : ResDir × Res Bool := r.removeLang typeBitmap k lang

/-! ### String tables -/

/-- pe_resource_viewer.h:23 `resource_string`. -/
def typeString : ResKey := .id 6

/-- resource_string_table_reader.cpp:32-60: the strings from number `i` on, `n` left. `pos` is `passed_bytes`; `string_length * 2` and
    the sums stay below 2^32. -/
def stringList (id : Nat) (d : Bytes) : (n i pos : Nat) → (m : List (Nat × WStr)) → Res (List (Nat × WStr))
  | 0, _, _, m => .ok m
  | n + 1, i, pos, m => do
    throwIf (d.length < 2 + pos) .resourceIncorrectStringTable
    let len ← readU 2 d pos
    throwIf (d.length < len + (pos + 2)) .resourceIncorrectStringTable
    if len ≠ 0 then do
      let x ← readN d (pos + 2) (2 * len)
      let w ← fromUcs2 (decUnits x)
      stringList id d n (i + 1) (pos + 2 + 2 * len) (mapAdd (fun a b => decide (a < b)) (w16 (w32 (w32 (sub32 id 1 * 16) + i))) w m)
    else stringList id d n (i + 1) (pos + 2 + 2 * len) m

/-- resource_string_table_reader.cpp:23-63 `parse_string_list`. -/
def parseStringList (id : Nat) (d : Bytes) : Res (List (Nat × WStr)) := stringList id d 16 0 0 []

/-- resource_string_table_reader.cpp:17-20 `get_string_table_by_id_lang`. -/
def ResDir.stringTable (r : ResDir) (id lang : Nat) : Res (List (Nat × WStr)) := do
  let x ← r.getData typeString (.id id) lang
  parseStringList id x.2

/-- resource_string_table_reader.cpp:66-75 `get_string_by_id_lang`. -/
def ResDir.stringById (r : ResDir) (lang id : Nat) : Res WStr := do
  let m ← r.stringTable (id / 16 + 1) lang
  match mapFind id m with
  | some w => .ok w
  | none => throwE .resourceStringNotFound

/-! ### Message tables -/

/-- message_table.cpp:7-23 `message_table_item`: `strip_nullbytes` is applied to the strings. -/
inductive Message where
  | ansi (s : Bytes)
  | wide (w : WStr)
  deriving DecidableEq, Repr

/-- utils.h:27-32 `strip_nullbytes` for wide strings. -/
def stripWide (w : WStr) : WStr := (w.reverse.dropWhile (· == 0)).reverse

/-- resource_message_list_reader.cpp:61-89: the text of the entry at `pos` with the header values `len`, `flags`. -/
def messageText (d : Bytes) (pos len flags : Nat) : Res Message :=
  if flags % 2 = 1 then do
    throwIf (len % 2 = 1) .resourceIncorrectMessageTable
    let x ← readN d (pos + 4) (2 * ((len - 4) / 2))
    let w ← fromUcs2 (decUnits x)
    .ok (.wide (stripWide w))
  else do
    let x ← readN d (pos + 4) (len - 4)
    .ok (.ansi (stripNullbytes x))

/-- resource_message_list_reader.cpp:43-93: the entries of a block from `cur` on; `pos` is `current_pos`. In C++ `curr_id` wraps:
    with the last number 2^32-1 the loop does not end by itself. The condition `_h` always
    holds at that place (C40). -/
def messageEntries (d : Bytes) (off high : Nat) (cur pos : Nat) (m : List (Nat × Message)) : Res (List (Nat × Message)) := do
  if cur ≤ high then
    throwIf (isSumSafe off pos = false ∨ isSumSafe (off + pos) 4 = false ∨ d.length < off + pos + 4) .resourceIncorrectMessageTable
    let len ← readU 2 d (off + pos)
    let flags ← readU 2 d (off + pos + 2)
    throwIf (len < 4 ∨ isSumSafe (off + pos) len = false ∨ d.length < off + pos + len) .resourceIncorrectMessageTable
    let t ← messageText d (off + pos) len flags
    if _h : off + pos + len ≤ 4294967295 ∧ off + pos + len ≤ d.length ∧ 4 ≤ len then
      messageEntries d off high (w32 (cur + 1)) (w32 (pos + len)) (mapAdd (fun a b => decide (a < b)) cur t m)
    else ubE .hang
  else .ok m
termination_by d.length + 1 - pos
decreasing_by
  unfold w32
  omega

/-- resource_message_list_reader.cpp:32-94: the blocks from `i` on, `n` left; block `i` is at `4 + 12 * i`. -/
def messageBlocks (d : Bytes) : (n i : Nat) → (m : List (Nat × Message)) → Res (List (Nat × Message))
  | 0, _, m => .ok m
  | n + 1, i, m => do
    let low ← readU 4 d (4 + 12 * i)
    let high ← readU 4 d (4 + 12 * i + 4)
    let off ← readU 4 d (4 + 12 * i + 8)
    throwIf (d.length < off ∨ high < low) .resourceIncorrectMessageTable
    let m ← messageEntries d off high low 0 m
    messageBlocks d n (i + 1) m

/-- resource_message_list_reader.cpp:13-97 `parse_message_list`. -/
def parseMessageList (d : Bytes) : Res (List (Nat × Message)) := do
  throwIf (d.length < 16) .resourceIncorrectMessageTable
  let n ← readU 4 d 0
  throwIf (n ≥ 357913941 ∨ isSumSafe (w32 (n * 12)) 16 = false ∨ d.length < n * 12 + 16) .resourceIncorrectMessageTable
  messageBlocks d n 0 []

/-- pe_resource_viewer.h:28 `resource_message_table`. -/
def typeMessages : ResKey := .id 11

/-- resource_message_list_reader.cpp:106-109 `get_message_table_by_id_lang`. -/
def ResDir.messageTable (r : ResDir) (id lang : Nat) : Res (List (Nat × Message)) := do
  let x ← r.getData typeMessages (.id id) lang
  parseMessageList x.2

/-- resource_message_list_reader.cpp:100-103 `get_message_table_by_id`. -/
def ResDir.messageTableAt (r : ResDir) (id index : Nat) : Res (List (Nat × Message)) := do
  let x ← r.getDataAt typeMessages (.id id) index
  parseMessageList x.2

/-- resource_string_table_reader.cpp:11-14 `get_string_table_by_id`. -/
def ResDir.stringTableAt (r : ResDir) (id index : Nat) : Res (List (Nat × WStr)) := do
  let x ← r.getDataAt typeString (.id id) index
  parseStringList id x.2

/-- resource_string_table_reader.cpp:78-87 `get_string_by_id`. -/
def ResDir.stringByIdAt (r : ResDir) (id index : Nat) : Res WStr := do
  let m ← r.stringTableAt (id / 16 + 1) index
  match mapFind id m with
  | some w => .ok w
  | none => throwE .resourceStringNotFound

end PE
