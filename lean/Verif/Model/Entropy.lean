/-
Model of /repo/src/pe_lib/entropy.cpp over the real numbers.
Simplification: `double` arithmetic is replaced by exact real arithmetic, `std::log` by the real logarithm
and the constant `log_2 = 1.44269504088896340736` (utils.cpp:11) by the number 1/ln 2 it approximates.
-/
import Verif.Model.Section
import Mathlib.Analysis.SpecialFunctions.Log.Basic
namespace PE

/-- entropy.cpp:46-51 byte counters: `byte_count[i]` after counting the bytes of `data` (`uint32_t`). -/
def byteCount (data : Bytes) (i : Nat) : Nat := w32 (data.countP (fun b => b.toNat == i))

/-- entropy.cpp:73-86 `calculate_entropy(byte_count, total_length)`: the loop over the 256 counters. -/
noncomputable def entropyOfCounts (count : Nat → Nat) (total : Nat) : ℝ :=
  ((List.range 256).map (fun i =>
    let temp : ℝ := (count i : ℝ) / (total : ℝ)
    if temp > 0 then |temp * (Real.log temp * (1 / Real.log 2))| else 0)).sum

/-- entropy.cpp:42-54 `calculate_entropy(const char*, size_t)`. -/
noncomputable def entropyOfData (data : Bytes) : Res ℝ :=
  if data.length = 0 then throwE .dataIsEmpty
  else .ok (entropyOfCounts (byteCount data) data.length)

/-- entropy.cpp:8-14 `calculate_entropy(const section&)`. -/
noncomputable def entropyOfSection (s : Sec) : Res ℝ :=
  if s.data = [] then throwE .sectionIsEmpty else entropyOfData s.data

/-- entropy.cpp:17-39 `calculate_entropy(std::istream&)` on a readable stream with contents `file` and position
`pos` (`pos ≤` file size). The stream position is restored at the end. -/
noncomputable def entropyOfStream (file : Bytes) (pos : Nat) : Res ℝ :=
  if file.length - pos = 0 then throwE .dataIsEmpty
  else .ok (entropyOfCounts (byteCount ((file.drop pos).take (file.length - pos))) (file.length - pos))

/-- entropy.cpp:64-71 the counters accumulated over the sections (`uint32_t` increments). -/
def imageByteCount (secs : List Sec) (i : Nat) : Nat :=
  secs.foldl (fun acc s => s.data.foldl (fun a b => if b.toNat == i then w32 (a + 1) else a) acc) 0

/-- entropy.cpp:57-74 `calculate_entropy(const pe_base&)`. With no data at all every quotient is NaN, which is
not `> 0`; the real quotient 0/0 = 0 of Lean is not `> 0` either, so both give 0. -/
noncomputable def entropyOfImage (secs : List Sec) : ℝ :=
  entropyOfCounts (imageByteCount secs) (secs.map (fun s => s.data.length)).sum

end PE
