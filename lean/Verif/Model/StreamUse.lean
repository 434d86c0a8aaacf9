/-
Model of the functions that compute a value from a stream, with regard to the stream: /repo/src/pe_lib/pe_checksum.cpp,
entropy.cpp:17-39, utils.cpp:14-23.
-/
import Verif.Model.StreamState
import Verif.Model.Entropy
namespace PE

/-- `file.seekg(0, std::ios::end)`. -/
def Stream.seekEnd (f : Stream) : Stream :=
  if f.fail = true then { f with eof := false } else { f with eof := false, pos := f.data.length }

/-- utils.cpp:14-23 `get_file_size`: the size and the stream afterwards. -/
def Stream.fileSize (f : Stream) : Int × Stream :=
  let old := f.tellg
  let size := old.2.seekEnd.tellg
  (size.1, size.2.seekg old.1)

/-- pe_checksum.cpp:41-56: the loop over the stream. `dw` is zero before each read, so bytes that are not read count as
    zeros. -/
def csLoopS (pos fsize : Int) (i : Nat) (c : Nat) (f : Stream) : Nat × Stream :=
  if (i : Int) < fsize then
    let r := f.read 4
    let c := if (i : Int) = pos then c else csStep c (fromLE r.1)
    csLoopS pos fsize (i + 4) c r.2
  else (c, f)
termination_by fsize.toNat - i

/-- pe_checksum.cpp:21-64: the body of `calculate_checksum`. The DOS header is read at the current position. -/
def checksumBodyS : SM Nat := do
  let dos ← dosS
  SM.seekg 0
  let pos : Int := int32 (rd 4 dos 60) + 88
  fun f =>
    let s := f.fileSize
    let r := csLoopS pos s.1 0 0 s.2
    (.ok (w32 (csFinish r.1 + w32 s.1.toNat)), r.2)

/-- pe_checksum.cpp:10-81 `calculate_checksum` of a stream with the exception mask `m`. The file size is never negative
    here (the stream has just been read successfully). -/
def checksumS (m : Mask) : SM Nat := fun f =>
  let t := f.tellg
  if m.hits t.2 then (throwE .iosFailure, t.2)
  else
    let r := checksumBodyS t.2
    match r.1 with
    | .error (.ub u) => (.error (.ub u), r.2)
    | v =>
      let z := r.2.restore' m t.1
      match z.1 with
      | .ok _ => (v, z.2)
      | .error e => (.error e, z.2)

/-- `static_cast<unsigned char>(file.get())`: 255 if nothing can be read. -/
def Stream.get (f : Stream) : UInt8 × Stream :=
  let r := f.read 1
  (r.1.headD 255, r.2)

/-- entropy.cpp:32-34: the bytes that are counted. -/
def getBytesS : Nat → Stream → Bytes × Stream
  | 0, f => ([], f)
  | n + 1, f =>
    let r := f.get
    let q := getBytesS n r.2
    (r.1 :: q.1, q.2)

/-- entropy.cpp:17-39 `calculate_entropy(std::istream&)` for a stream without exception mask. A negative length makes the
    loop run until the counter overflows. -/
noncomputable def entropyS : SM ℝ := fun f =>
  let t := f.tellg
  let s := t.2.fileSize
  let u := s.2.tellg
  let length := s.1 - u.1
  if length = 0 then (throwE .dataIsEmpty, u.2)
  else if length < 0 then (ubE .hang, u.2)
  else
    let r := getBytesS length.toNat u.2
    (.ok (entropyOfCounts (byteCount r.1) length.toNat), r.2.seekg t.1)

end PE
