/-
Wide strings: /repo/src/pe_lib/utils.cpp:26-76 (`to_ucs2`, `from_ucs2`, non-Windows branch).
-/
import Verif.Model.Basic

namespace PE

/-- `std::wstring` / `u16string`: the list of the character values. -/
abbrev WStr := List Nat

/-- A character that the encoding "UCS-2" of iconv can hold: 16 bits, not a surrogate. (The behaviour of `iconv` is an
    assumption of the model: UCS-2 in host byte order without byte order marks, other characters give an error, as
    glibc does.) -/
def isUcs2 (c : Nat) : Bool := decide (c < 0xD800) || (decide (0xE000 ≤ c) && decide (c < 0x10000))

/-- utils.cpp:26-50 `to_ucs2`. -/
def toUcs2 (s : WStr) : Res WStr := if s.all isUcs2 then .ok s else throwE .encodingConvertionError

/-- utils.cpp:52-76 `from_ucs2`. -/
def fromUcs2 (s : WStr) : Res WStr := if s.all isUcs2 then .ok s else throwE .encodingConvertionError

/-- The bytes of a string of 16-bit characters. -/
def encUnits (s : WStr) : Bytes := s.flatMap (leBytes 2)

/-- The 16-bit characters in memory (an odd byte at the end is not a character). -/
def decUnits : Bytes → WStr
  | a :: b :: r => fromLE [a, b] :: decUnits r
  | _ => []

end PE
