/-
Model of the thread local storage directory: /repo/src/pe_lib/pe_tls.cpp
-/
import Verif.Model.DirWrite
import Verif.Model.Header
import Verif.Model.Load
import Verif.Model.LoadConfig

namespace PE

/-- pe_tls.h:12-73 `tls_info` (members: 64-72). The addresses and sizes are `uint32_t`. -/
structure TlsInfo where
  start : Nat := 0
  stop : Nat := 0
  index : Nat := 0
  callbacksRva : Nat := 0
  zeroFill : Nat := 0
  chars : Nat := 0
  raw : Bytes := []
  callbacks : List Nat := []
  deriving DecidableEq, Repr

/-- pe_tls.cpp:83-86 `recalc_raw_data_end_rva`. -/
def TlsInfo.recalcStop (t : TlsInfo) : TlsInfo := { t with stop := w32 (t.start + t.raw.length) }

/-- sizeof(image_tls_directory32) and sizeof(image_tls_directory64) (pe_structures.h). -/
def Kind.sizeofTls : Kind → Nat
  | .pe32 => 24
  | .pe64 => 40

/-- pe_tls.cpp:163-171: `StartAddressOfRawData` and `EndAddressOfRawData` after the correction of equal addresses that
    are not in the image. -/
def Image.tlsFixed (p : Image) (st en : Nat) : Nat × Nat :=
  if en = st then
    match p.vaToRva en with
    | .ok _ => (st, en)
    | .error _ => (0, 0)
  else (st, en)

/-- pe_tls.cpp:174-178: the raw data have to lie in one section (or the headers). The difference of the addresses is
    computed in `BaseSize`. -/
def Image.tlsCheck (p : Image) (st en : Nat) : Res Unit :=
  if st ≠ 0 then do
    let r ← p.vaToRva st
    let len ← p.dataLenFrom r r .virt true
    throwIf (len < (256 ^ p.kind.ptr + en - st) % 256 ^ p.kind.ptr) .incorrectTlsDirectory
  else .ok ()

/-- pe_tls.cpp:182-185: `addr ? va_to_rva(addr) : 0`. -/
def Image.rvaOrZero (p : Image) (va : Nat) : Res Nat := if va ≠ 0 then p.vaToRva va else .ok 0

/-- pe_tls.cpp:189-195: the raw data. -/
def Image.tlsRaw (p : Image) (st en : Nat) : Res Bytes :=
  if st ≠ 0 ∧ st ≠ en then do
    let r ← p.vaToRva st
    let x ← p.ptrFromRva r .virt true
    readN x.1 x.2 (w32 ((256 ^ p.kind.ptr + en - st) % 256 ^ p.kind.ptr))
  else .ok []

/-- pe_tls.cpp:201-215: the `while(true)` loop. `current_tls_callback` is a `uint32_t`, so that after 2^32 rounds all
    its values repeat: running out of `fuel` (2^32 in `getTls`) stands for an infinite loop. -/
def Image.tlsLoop (p : Image) (table : Nat) : (fuel current : Nat) → Res (List Nat)
  | 0, _ => ubE .hang
  | fuel + 1, cur => do
    let r ← p.vaToRva ((table + cur) % 256 ^ p.kind.ptr)
    let va ← p.readInt p.kind.ptr r .virt true
    if va = 0 then .ok [] else do
      let rva ← p.vaToRva va false
      let l ← p.tlsLoop table fuel (w32 (cur + p.kind.ptr))
      .ok (rva :: l)

/-- pe_tls.cpp:198-216. -/
def Image.tlsCallbacks (p : Image) (rva table : Nat) : Res (List Nat) :=
  if rva ≠ 0 then p.tlsLoop table 4294967296 0 else .ok []

/-- pe_tls.cpp:131-136, 148-219 `get_tls_info`, `get_tls_info_base`. -/
def Image.getTls (p : Image) : Res TlsInfo := do
  let has ← p.hasDir dirTls
  throwIf (has = false) .directoryDoesNotExist
  let rva ← p.nt.getDirRva dirTls
  let b ← p.readT p.kind.sizeofTls rva .virt true
  let w := p.kind.ptr
  let fixed := p.tlsFixed (rd w b 0) (rd w b w)
  p.tlsCheck fixed.1 fixed.2
  let st ← p.rvaOrZero fixed.1
  let en ← p.rvaOrZero fixed.2
  let ix ← p.rvaOrZero (rd w b (2 * w))
  let cb ← p.rvaOrZero (rd w b (3 * w))
  let raw ← p.tlsRaw fixed.1 fixed.2
  let cbs ← p.tlsCallbacks cb (rd w b (3 * w))
  .ok { start := st, stop := en, index := ix, callbacksRva := cb, zeroFill := rd 4 b (4 * w),
        chars := rd 4 b (4 * w + 4), raw := raw, callbacks := cbs }

/-- What an exception in `expand_section` (pe_base.cpp:365-388) leaves behind: `recalculate_section_sizes` is called
    after the raw data were resized, and `prepare_section` (pe_base.cpp:437-444) sets the raw size before it throws. -/
def Image.expandLeft (p : Image) (i rva size : Nat) (e : ExpandType) : Image :=
  match p.secs[i]?, e with
  | some s, .raw =>
    match p.dataLenSec s rva .raw with
    | .ok len =>
      if i + 1 = p.secs.length ∧ len < size then
        let d := resize s.data (w32 (sub32 rva s.va + size))
        { p with secs := p.secs.set i { s with data := d, rawSize := w32 (alignUp64 d.length p.nt.fileAlign) } }
      else p
    | .error _ => p
  | _, _ => p

/-- pe_tls.cpp:291-299 and 325-334: expand the section of `rva` if possible; exceptions are swallowed. -/
def Image.expandQuiet (p : Image) (rva size : Nat) (e : ExpandType) : Res Image :=
  match p.secIdxFromRva rva with
  | .error _ => .ok p
  | .ok i =>
    match p.expandSection i rva size e with
    | .ok r => .ok r.1
    | .error (.ub u) => ubE u
    | .error (.exn _) => .ok (p.expandLeft i rva size e)

/-- pe_tls.cpp:306-315: how many bytes of the raw data are written. -/
def Image.tlsRoom (p : Image) (rva n : Nat) : Res Nat := do
  let avail ← p.dataLenFrom rva rva .raw true
  if avail < n then do
    let v ← p.dataLenFrom rva rva .virt true
    if v < n then throwE .insufficientSpace else .ok avail
  else .ok n

/-- pe_tls.cpp:289-319: the raw data. `memcpy` reads the bytes from the string with the raw data, whatever its length (the
    buffer of the string ends with one zero byte). -/
def Image.tlsPutData (p : Image) (t : TlsInfo) (e : ExpandType) : Res Image :=
  if t.start ≠ 0 ∧ t.start ≠ t.stop then do
    let p ← p.expandQuiet t.start (t.stop - t.start) e
    let size ← p.tlsRoom t.start (t.stop - t.start)
    if size = 0 then .ok p else do
      let l ← p.mutPtrFromRva t.start true
      let b ← readN (t.raw ++ [0]) 0 size
      p.writeLoc l b
  else .ok p

/-- pe_tls.cpp:346-350: the addresses of the callbacks. -/
def Image.tlsVas (p : Image) : List Nat → Res (List Nat)
  | [] => .ok []
  | r :: rs => do
    let va ← p.rvaToVa r
    let l ← p.tlsVas rs
    .ok (va :: l)

/-- pe_tls.cpp:323-357: the callbacks. `needed_callback_size - sizeof(BaseSize)` is computed in `size_t`. -/
def Image.tlsPutCallbacks (p : Image) (t : TlsInfo) : Res Image :=
  if t.callbacksRva ≠ 0 then do
    let need := w32 ((t.callbacks.length + 1) * p.kind.ptr)
    let p ← p.expandQuiet t.callbacksRva need .raw
    let a ← p.dataLenFrom t.callbacksRva t.callbacksRva .raw true
    throwIf (a < sub64 need p.kind.ptr) .insufficientSpace
    let v ← p.dataLenFrom t.callbacksRva t.callbacksRva .virt true
    throwIf (v < need) .insufficientSpace
    let vas ← p.tlsVas t.callbacks
    let l ← p.mutPtrFromRva t.callbacksRva true
    p.writeLoc l (((vas ++ [0]).flatMap (leBytes p.kind.ptr)).take need)
  else .ok p

/-- pe_tls.cpp:259-271: an address of the structure; the structure was zeroed before. -/
def Image.vaOrZero (p : Image) (rva : Nat) : Res Nat := if rva ≠ 0 then p.rvaToVa rva else .ok 0

/-- pe_tls.cpp:257-282: the structure. -/
def Image.tlsStruct (p : Image) (t : TlsInfo) : Res Bytes := do
  let st ← p.vaOrZero t.start
  let en ← p.vaOrZero t.stop
  let ix ← p.rvaToVa t.index
  let cb ← p.vaOrZero t.callbacksRva
  .ok (encFields [(p.kind.ptr, st), (p.kind.ptr, en), (p.kind.ptr, ix), (p.kind.ptr, cb),
    (4, if t.start ≠ 0 then t.zeroFill else 0), (4, t.chars)])

/-- pe_tls.cpp:286: raw data are written only on demand. -/
def Image.tlsPutDataIf (p : Image) (w : Bool) (t : TlsInfo) (e : ExpandType) : Res Image :=
  if w then p.tlsPutData t e else .ok p

/-- pe_tls.cpp:323: callbacks are written only on demand. -/
def Image.tlsPutCallbacksIf (p : Image) (w : Bool) (t : TlsInfo) : Res Image :=
  if w then p.tlsPutCallbacks t else .ok p

/-- pe_tls.cpp:361-373: the end of the rebuilder, on the section with position `i` as it is now. -/
def Image.tlsFinish (p : Image) (i pos : Nat) (save strip : Bool) : Res (Image × (Nat × Nat)) :=
  match p.secs[i]? with
  | none => ubE .badIter
  | some s => p.finishDir i s s.data strip save dirTls (w32 (s.va + pos), p.kind.sizeofTls)

/-- pe_tls.cpp:139-144, 228-374 `rebuild_tls_base`; the section is given by its position `i`. -/
def Image.rebuildTls (p : Image) (t : TlsInfo) (i off : Nat) (wcb wdata : Bool) (e : ExpandType) (save strip : Bool) :
    Res (Image × (Nat × Nat)) :=
  match p.secs[i]? with
  | none => throwE .sectionIsNotAttached
  | some s => do
    let pos := alignUp off p.kind.ptr
    let need := w32 (p.kind.sizeofTls + pos)
    p.spaceCheck i s need
    throwIf (t.stop < t.start ∨ t.index = 0) .incorrectTlsDirectory
    let b ← p.tlsStruct t
    let d ← writeAt (growTo s.data need) pos b
    let q ← ({ p with secs := p.secs.set i { s with data := d } } : Image).tlsPutDataIf wdata t e
    let q ← q.tlsPutCallbacksIf wcb t
    q.tlsFinish i pos save strip

end PE
