/-
Model of reading and writing icons and cursors:
/repo/src/pe_lib/resource_cursor_icon_reader.cpp, resource_cursor_icon_writer.cpp
The functions for icons and for cursors have the same structure; here there is one function with a parameter `IcKind`. All structures
are packed (pe_structures.h:240-995): `ico_header`, `cursor_header` have 6 bytes with `Count` at 4; `icondirentry`, `cursordirentry`
have 16 bytes with `SizeInBytes` at 8 and `ImageOffset` at 12; `icon_group`, `cursor_group` have 14 bytes with `SizeInBytes` at 8 and
`Number` at 12.
-/
import Verif.Model.ResourceManager
import Verif.Model.Utils
import Verif.Model.Sort

namespace PE

/-- Icons or cursors. -/
inductive IcKind where
  | icon
  | cursor
  deriving DecidableEq, Repr

/-- pe_resource_viewer.h:18, 20 `resource_cursor`, `resource_icon`. -/
def IcKind.imgType : IcKind → ResKey
  | .icon => .id 3
  | .cursor => .id 1

/-- pe_resource_viewer.h:29-30 `resource_cursor_group`, `resource_icon_group`. -/
def IcKind.grpType : IcKind → ResKey
  | .icon => .id 14
  | .cursor => .id 12

def IcKind.err : IcKind → Err
  | .icon => .resourceIncorrectIcon
  | .cursor => .resourceIncorrectCursor

/-! ### Numbers for new images -/

/-- resource_cursor_icon_writer.cpp:132-137, 142-147: `for(uint16_t i = ..; i != stop; ++i)` with `push_back` and `break` when `count`
    numbers are present. The list is never longer than `count` there (C35), the other case is shown as `hang`. -/
def pushRange (stop count : Nat) (i : Nat) (acc : List Nat) : Res (List Nat) :=
  if i = stop then .ok acc
  else if acc.length + 1 = count then .ok (acc ++ [i])
  else if _h : acc.length < count then pushRange stop count (w16 (i + 1)) (acc ++ [i])
  else ubE .hang
termination_by count - acc.length
decreasing_by simp; omega

/-- resource_cursor_icon_writer.cpp:140-148: the gap between two elements. -/
def nextGap (count prev cur : Nat) (acc : List Nat) : Res (List Nat) :=
  if sub32 prev cur > 1 then pushRange (w16 cur) count (w16 (prev + 1)) acc else .ok acc

/-- resource_cursor_icon_writer.cpp:130-138: the gap before the first element. -/
def firstGap (count id : Nat) : Res (List Nat) := if id > 1 then pushRange id count 1 [] else .ok []

/-- resource_cursor_icon_writer.cpp:140-152: the gaps behind `prev` (all elements but the first). -/
def gapsFrom (count : Nat) : (prev : Nat) → List Nat → (acc : List Nat) → Res (List Nat)
  | _, [], acc => .ok acc
  | prev, cur :: ids, acc => do
    let acc ← nextGap count prev cur acc
    if acc.length = count then .ok acc else gapsFrom count cur ids acc

/-- resource_cursor_icon_writer.cpp:123-153: all gaps. -/
def gaps (count : Nat) : List Nat → Res (List Nat)
  | [] => .ok []
  | id :: ids => do
    let acc ← firstGap count id
    if acc.length = count then .ok acc else gapsFrom count id ids acc

/-- resource_cursor_icon_writer.cpp:157-158: `n` numbers behind `max`. -/
def pushAfter : (n max : Nat) → (acc : List Nat) → List Nat
  | 0, _, acc => acc
  | n + 1, max, acc => pushAfter n (w32 (max + 1)) (acc ++ [w16 (w32 (max + 1))])

/-- resource_cursor_icon_writer.cpp:162-163: `for(uint16_t i = 1; i != count + 1; ++i)`. After 65536 steps `i` has all its values
    behind it and the loop does not end. -/
def pushAll (stop : Nat) : (fuel i : Nat) → (acc : List Nat) → Res (List Nat)
  | 0, _, _ => ubE .hang
  | fuel + 1, i, acc => if i = stop then .ok acc else pushAll stop fuel (w16 (i + 1)) (acc ++ [i])

/-- resource_cursor_icon_writer.cpp:121-154: the numbers between existing ones, in that mode. -/
def freeBelow (free : Bool) (count : Nat) (ids : List Nat) : Res (List Nat) := if free then gaps count ids else .ok []

/-- resource_cursor_icon_writer.cpp:106-167 `get_icon_or_cursor_free_id_list`; `free` is the mode `icon_place_free_ids`. -/
def ResDir.freeIds (r : ResDir) (t : ResKey) (free : Bool) (count : Nat) : Res (List Nat) :=
  match r.listIds t with
  | .error _ => pushAll (count + 1) 65536 1 []
  | .ok ids => do
    let acc ← freeBelow free count (sortBy (fun a b => decide (a ≤ b)) ids)
    .ok (pushAfter (count - acc.length) ((sortBy (fun a b => decide (a ≤ b)) ids).foldl max 0) acc)

/-! ### Writing -/

/-- resource_cursor_icon_writer.cpp:27-36, 183-192: the checks of the entries from `i` on, `n` left. -/
def icCheckEntries (k : IcKind) (f : Bytes) (hdrs : Nat) : (n i : Nat) → Res Unit
  | 0, _ => .ok ()
  | n + 1, i => do
    let e ← readN f (6 + 16 * i) 16
    throwIf (rd 4 e 8 = 0 ∨ rd 4 e 12 < hdrs ∨ isSumSafe (rd 4 e 12) (rd 4 e 8) = false ∨ f.length < rd 4 e 12 + rd 4 e 8) k.err
    icCheckEntries k f hdrs n (i + 1)

/-- resource_cursor_icon_writer.cpp:16-36, 172-192: the checks of the file; the result is `Count`. -/
def icFileCheck (k : IcKind) (f : Bytes) : Res Nat := do
  throwIf (f.length < 6) k.err
  let n ← readU 2 f 4
  throwIf (f.length < 6 + n * 16 ∨ n = 0) k.err
  icCheckEntries k f (6 + n * 16) n 0
  .ok n

/-- resource_cursor_icon_writer.cpp:38-67, 194-223: code page, number of images that are in the group already, and the data of
    the group with room for `n` more. -/
def icGroupStart (k : IcKind) (f : Bytes) (n : Nat) (old : Option (Nat × Bytes)) (cp : Nat) : Res (Nat × Nat × Bytes) :=
  match old with
  | some (cp', d) => do
    throwIf (d.length < 6) k.err
    let c ← readU 2 d 4
    throwIf (d.length < 6 + c * 14) k.err
    .ok (cp', c, resize d (6 + (c + n) * 14))
  | none => do
    let h ← readN f 0 6
    .ok (cp, 0, h ++ zeros (n * 14))

/-- resource_cursor_icon_writer.cpp:76-86, 232-238: the entry of the group for the entry `e` of the file. For icons all fields are
    copied and they have the same places in both structures. -/
def IcKind.groupEntry (k : IcKind) (e : Bytes) (num : Nat) : Bytes :=
  match k with
  | .icon => slice e 0 12 ++ leBytes 2 num
  | .cursor => leBytes 2 (rd 1 e 0) ++ leBytes 2 (rd 1 e 1 * 2) ++ leBytes 2 0 ++ leBytes 2 0 ++ leBytes 4 (w32 (rd 4 e 8 + 4)) ++ leBytes 2 num

/-- resource_cursor_icon_writer.cpp:93, 247-251: the stored data of an image; `substr` throws if the place is outside of the file. -/
def IcKind.stored (k : IcKind) (f e : Bytes) : Res Bytes :=
  if f.length < rd 4 e 12 then throwE .stdOutOfRange
  else match k with
    | .icon => .ok (slice f (rd 4 e 12) (rd 4 e 8))
    | .cursor => .ok (slice e 4 4 ++ slice f (rd 4 e 12) (rd 4 e 8))

/-- resource_cursor_icon_writer.cpp:75-93, 231-251: what is done for image `i` up to `add_resource`: its number, the data of the group
    with its entry, its stored data. -/
def icOne (k : IcKind) (f : Bytes) (nums : List Nat) (base i : Nat) (g : Bytes) : Res (Nat × Bytes × Bytes) := do
  let e ← readN f (6 + 16 * i) 16
  match nums[i]? with
  | none => throwE .stdOutOfRange
  | some num => do
    let g ← writeAt g (6 + (base + i) * 14) (k.groupEntry e num)
    let x ← k.stored f e
    .ok (num, g, x)

/-- resource_cursor_icon_writer.cpp:73-94, 229-254: the images from `i` on, `n` left. -/
def icAddAll (k : IcKind) (f : Bytes) (nums : List Nat) (base lang cp stamp : Nat) : (n i : Nat) → ResDir → Bytes → ResDir × Res Bytes
  | 0, _, r, g => (r, .ok g)
  | n + 1, i, r, g =>
    match icOne k f nums base i g with
    | .error e => (r, .error e)
    | .ok (num, g, x) =>
      match r.addResource x k.imgType (.id num) lang cp stamp with
      | (r, .error e) => (r, .error e)
      | (r, .ok ()) => icAddAll k f nums base lang cp stamp n (i + 1) r g

/-- resource_cursor_icon_writer.cpp:96-97, 256-257: the new count of an existing group. -/
def icNewCount (old : Option (Nat × Bytes)) (base n : Nat) (g : Bytes) : Res Bytes :=
  match old with
  | some _ => writeAt g 4 (leBytes 2 (w16 (base + n)))
  | none => .ok g

/-- resource_cursor_icon_writer.cpp:274-282: the data of an existing group, if any. -/
def ResDir.groupData (r : ResDir) (k : IcKind) (key : ResKey) (lang : Nat) : Option (Nat × Bytes) :=
  match r.getData k.grpType key lang with
  | .ok x => some x
  | .error _ => none

/-- resource_cursor_icon_writer.cpp:14-103, 270-302, 170-263, 309-341 `add_icon`, `add_cursor`. -/
def ResDir.addIcons (r : ResDir) (k : IcKind) (f : Bytes) (key : ResKey) (lang : Nat) (free : Bool) (cp stamp : Nat) : ResDir × Res Unit :=
  match (do
    let n ← icFileCheck k f
    let s ← icGroupStart k f n (r.groupData k key lang) cp
    let nums ← r.freeIds k.imgType free n
    .ok (n, s, nums) : Res (Nat × (Nat × Nat × Bytes) × List Nat)) with
  | .error e => (r, .error e)
  | .ok (n, (cp, base, g), nums) =>
    match icAddAll k f nums base lang cp stamp n 0 r g with
    | (r1, .error e) => (r1, .error e)
    | (r1, .ok g1) =>
      match icNewCount (r.groupData k key lang) base n g1 with
      | .error e => (r1, .error e)
      | .ok g2 => r1.addResource g2 k.grpType key lang cp stamp

/-! ### Reading -/

/-- resource_cursor_icon_reader.cpp:39-48, 297-317 (and 194-203, 440-456): the entry of the file for the entry `g` of the group. For
    cursors `x` is the stored data, which begin with the hotspot. -/
def IcKind.fileEntry (k : IcKind) (g x : Bytes) : Bytes :=
  match k with
  | .icon => slice g 0 12
  | .cursor => leBytes 1 (rd 2 g 0 % 256) ++ leBytes 1 (rd 2 g 2 % 256 / 2) ++ leBytes 1 0 ++ leBytes 1 0 ++ slice x 0 4 ++
      leBytes 4 (sub32 (rd 4 g 8) 4)

/-- resource_cursor_icon_reader.cpp:305-309: the stored data of a cursor, needed for the hotspot. `get` looks up an image. -/
def IcKind.hotspot (k : IcKind) (get : Nat → Res Bytes) (num : Nat) : Res Bytes :=
  match k with
  | .icon => .ok []
  | .cursor => do
    let x ← get num
    throwIf (x.length < 4) .resourceIncorrectCursor
    .ok x

/-- resource_cursor_icon_reader.cpp:35-54, 293-323: the entries from `i` on, `n` left; `off` is `offset`. -/
def icHeaders (k : IcKind) (get : Nat → Res Bytes) (d : Bytes) : (n i off : Nat) → (acc : Bytes) → Res Bytes
  | 0, _, _, acc => .ok acc
  | n + 1, i, off, acc => do
    let g ← readN d (6 + i * 14) 14
    let x ← k.hotspot get (rd 2 g 12)
    icHeaders k get d n (i + 1) (w32 (off + rd 4 (k.fileEntry g x) 8)) (acc ++ k.fileEntry g x ++ leBytes 4 off)

/-- resource_cursor_icon_reader.cpp:99, 344: the image without the hotspot; `substr` throws if the data are too short. -/
def IcKind.image (k : IcKind) (x : Bytes) : Res Bytes :=
  match k with
  | .icon => .ok x
  | .cursor => if x.length < 4 then throwE .stdOutOfRange else .ok (x.drop 4)

/-- resource_cursor_icon_reader.cpp:96-100, 341-345: the images from `i` on, `n` left. -/
def icBodies (k : IcKind) (get : Nat → Res Bytes) (d : Bytes) : (n i : Nat) → (acc : Bytes) → Res Bytes
  | 0, _, acc => .ok acc
  | n + 1, i, acc => do
    let g ← readN d (6 + i * 14) 14
    let x ← get (rd 2 g 12)
    let x ← k.image x
    icBodies k get d n (i + 1) (acc ++ x)

/-- resource_cursor_icon_reader.cpp:16-58 `format_icon_headers`, 274-327 `format_cursor_headers` and the loops of the callers, as
    92-102: the file for the data `d` of a group. -/
def icRead (k : IcKind) (get : Nat → Res Bytes) (d : Bytes) : Res Bytes := do
  throwIf (d.length < 6) k.err
  let n ← readU 2 d 4
  throwIf (d.length < 6 + n * 14) k.err
  let h ← readN d 0 6
  let acc ← icHeaders k get d n 0 (6 + 16 * n) h
  icBodies k get d n 0 acc

/-- The data of image `num`. -/
def ResDir.imgData (r : ResDir) (k : IcKind) (lang num : Nat) : Res Bytes := do
  let x ← r.getData k.imgType (.id num) lang
  .ok x.2

/-- The data of image `num`, with an index. -/
def ResDir.imgDataAt (r : ResDir) (k : IcKind) (index num : Nat) : Res Bytes := do
  let x ← r.getDataAt k.imgType (.id num) index
  .ok x.2

/-- resource_cursor_icon_reader.cpp:106-145, 330-348, 372-390 `get_icon_by_name`, `get_icon_by_id_lang`, `get_cursor_by_name`,
    `get_cursor_by_id_lang`. -/
def ResDir.getIcons (r : ResDir) (k : IcKind) (key : ResKey) (lang : Nat) : Res Bytes := do
  let x ← r.getData k.grpType key lang
  icRead k (r.imgData k lang) x.2

/-- resource_cursor_icon_reader.cpp:85-103, 148-166, 351-369, 393-411: the same with an index in the directory of languages. (The index
    2^32-1, which `format_cursor_headers` takes as "no index", is never an index of an entry.) -/
def ResDir.getIconsAt (r : ResDir) (k : IcKind) (key : ResKey) (index : Nat) : Res Bytes := do
  let x ← r.getDataAt k.grpType key index
  icRead k (r.imgDataAt k index) x.2

/-! ### Single images -/

/-- resource_cursor_icon_reader.cpp:182-208, 427-463: the search in one group. -/
def icSearch (k : IcKind) (d raw : Bytes) (id : Nat) : (n i : Nat) → Res (Option Bytes)
  | 0, _ => .ok none
  | n + 1, i => do
    let g ← readN d (6 + i * 14) 14
    if rd 2 g 12 = id then do
      let x ← k.hotspot (fun _ => .ok raw) id
      let h ← readN d 0 4
      .ok (some (h ++ leBytes 2 1 ++ k.fileEntry g x ++ leBytes 4 22))
    else icSearch k d raw id n (i + 1)

/-- resource_cursor_icon_reader.cpp:179, 424: the size of the entries that is checked before the search. -/
def IcKind.searched (k : IcKind) (n : Nat) : Nat :=
  match k with
  | .icon => n * 14
  | .cursor => 14

/-- resource_cursor_icon_reader.cpp:169-211 `check_icon_presence`, 414-466 `check_cursor_presence`. The latter checks for one entry of
    the group only. -/
def icPresence (k : IcKind) (d raw : Bytes) (id : Nat) : Res (Option Bytes) := do
  throwIf (d.length < 6) k.err
  let n ← readU 2 d 4
  throwIf (d.length < 6 + k.searched n) k.err
  icSearch k d raw id n 0

/-- resource_cursor_icon_reader.cpp:222-228, 234-240, 477-483, 489-495: the search in the groups `keys`. -/
def ResDir.icLookup (r : ResDir) (k : IcKind) (raw : Bytes) (id lang : Nat) : List ResKey → Res (Option Bytes)
  | [] => .ok none
  | key :: keys => do
    let langs ← r.listLanguages k.grpType key
    if langs.contains lang then do
      let x ← r.getData k.grpType key lang
      match ← icPresence k x.2 raw id with
      | some h => .ok (some h)
      | none => r.icLookup k raw id lang keys
    else r.icLookup k raw id lang keys

def IcKind.noGroup : IcKind → Err
  | .icon => .noIconGroupFound
  | .cursor => .noCursorGroupFound

/-- resource_cursor_icon_reader.cpp:214-244 `lookup_icon_group_data_by_icon`, 469-499 `lookup_cursor_group_data_by_cursor`. -/
def ResDir.icGroupOf (r : ResDir) (k : IcKind) (raw : Bytes) (id lang : Nat) : Res Bytes := do
  let ids ← r.listIds k.grpType
  match ← r.icLookup k raw id lang (ids.map ResKey.id) with
  | some h => .ok h
  | none => do
    let names ← r.listNames k.grpType
    match ← r.icLookup k raw id lang (names.map ResKey.name) with
    | some h => .ok h
    | none => throwE k.noGroup

/-- resource_cursor_icon_reader.cpp:61-68, 247-255 `get_single_icon_by_id_lang`, `get_single_cursor_by_id_lang`. -/
def ResDir.getSingle (r : ResDir) (k : IcKind) (lang id : Nat) : Res Bytes :=
  match k with
  | .icon => do
    let h ← r.icGroupOf .icon [] id lang
    let x ← r.imgData .icon lang id
    .ok (h ++ x)
  | .cursor => do
    let x ← r.imgData .cursor lang id
    let h ← r.icGroupOf .cursor x id lang
    let b ← IcKind.image .cursor x
    .ok (h ++ b)

/-- resource_cursor_icon_reader.cpp:71-82, 258-270 `get_single_icon_by_id`, `get_single_cursor_by_id`. -/
def ResDir.getSingleAt (r : ResDir) (k : IcKind) (index id : Nat) : Res Bytes := do
  let langs ← r.listLanguages k.imgType (.id id)
  match langs[index]? with
  | none => throwE .resourceDataEntryNotFound
  | some lang =>
    match k with
    | .icon => do
      let h ← r.icGroupOf .icon [] id lang
      let x ← r.imgDataAt .icon index id
      .ok (h ++ x)
    | .cursor => do
      let x ← r.imgDataAt .cursor index id
      let h ← r.icGroupOf .cursor x id lang
      let b ← IcKind.image .cursor x
      .ok (h ++ b)

/-! ### Removing -/

/-- resource_cursor_icon_writer.cpp:360-364, 384-388: remove the images from `i` on, `n` left. -/
def icRemoveAll (k : IcKind) (d : Bytes) (lang : Nat) : (n i : Nat) → ResDir → ResDir × Res Unit
  | 0, _, r => (r, .ok ())
  | n + 1, i, r =>
    match readN d (6 + i * 14) 14 with
    | .error e => (r, .error e)
    | .ok g =>
      match r.removeLang k.imgType (.id (rd 2 g 12)) lang with
      | (r, .error e) => (r, .error e)
      | (r, .ok _) => icRemoveAll k d lang n (i + 1) r

/-- resource_cursor_icon_writer.cpp:392-425 `remove_icon_group`, `remove_cursor_group` with 344-389. -/
def ResDir.removeGroup (r : ResDir) (k : IcKind) (key : ResKey) (lang : Nat) : ResDir × Res Bool :=
  match (do
    let x ← r.getData k.grpType key lang
    throwIf (x.2.length < 6) k.err
    let n ← readU 2 x.2 4
    throwIf (x.2.length < 6 + n * 14) k.err
    .ok (x.2, n) : Res (Bytes × Nat)) with
  | .error e => (r, .error e)
  | .ok (d, n) =>
    match icRemoveAll k d lang n 0 r with
    | (r, .error e) => (r, .error e)
    | (r, .ok ()) => r.removeLang k.grpType key lang

end PE
