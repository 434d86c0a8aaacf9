/-
Common vocabulary of the model: outcomes, machine words, byte strings.
-/
namespace PE

/-- Byte strings: `std::string` contents / memory. -/
abbrev Bytes := List UInt8

/-- Ids of `pe_exception` that the modelled code throws (`get_id`, pe_exception.cpp:6-18).
    /repo/src/pe_lib/pe_exception.h:14-92 (`enum exception_id`), same names, camel case.
    `stdOutOfRange` is the standard library exception of `std::string::substr` / `vector::at`. -/
inductive Err where
  | unknownError | badPeFile | badDosHeader | imageNtHeadersNotFound | errorReadingImageNtHeaders
  | errorReadingDataDirectories | errorReadingFile | peSignatureIncorrect
  | incorrectNumberOfRvaAndSizes | errorChangingSectionVirtualSize | sectionNumberIncorrect
  | sectionTableIncorrect | incorrectSectionAlignment | incorrectFileAlignment
  | incorrectSizeOfImage | incorrectSizeOfHeaders | imageSectionHeadersNotFound
  | zeroSectionSizes | sectionIncorrectAddrOrSize | sectionNotFound | imageSectionDataNotFound
  | noSectionFound | imageSectionTableIncorrect | directoryDoesNotExist | rvaNotExists
  | errorReadingSectionHeader | errorReadingOverlay | incorrectAddressConversion
  | incorrectExportDirectory | incorrectImportDirectory | incorrectRelocationDirectory
  | incorrectTlsDirectory | incorrectConfigDirectory | incorrectBoundImportDirectory
  | incorrectResourceDirectory | incorrectExceptionDirectory | incorrectDebugDirectory
  | resourceDirectoryEntryError | resourceDirectoryEntryNotFound | resourceDataEntryNotFound
  | resourceIncorrectBitmap | resourceIncorrectIcon | resourceIncorrectCursor
  | resourceIncorrectStringTable | resourceStringNotFound | resourceIncorrectMessageTable
  | resourceIncorrectVersionInfo | advancedDebugInformationRequestError
  | imageDoesNotHaveManagedCode | sectionIsEmpty | dataIsEmpty | streamIsBad
  | sectionIsNotAttached | insufficientSpace | cannotRebaseRelocations | exportsListIsEmpty
  | duplicateExportedFunctionOrdinal | duplicateExportedFunctionName
  | versionInfoStringDoesNotExist | noMoreSectionsCanBeAdded | noIconGroupFound
  | noCursorGroupFound | encodingConvertionError | errorExpandingSection | cannotRebuildImage
  | stdOutOfRange | iosFailure
  deriving DecidableEq, Repr

/-- Kinds of undefined behaviour of the C++ code that the model makes visible. -/
inductive UB where
  | oobRead   -- a read outside the buffer the pointer points into
  | oobWrite  -- a write outside the buffer the pointer points into
  | oobIndex  -- an index outside a fixed size array (e.g. DataDirectory[16])
  | badIter   -- dereference of an end / invalid iterator
  | hang      -- the code would loop forever (also undefined in C++)
  | dangling  -- use or release of a null pointer or of an object that was released before
  | uninit    -- a decision on a value that was never set
  deriving DecidableEq, Repr

/-- Abnormal outcomes. -/
inductive Fault where
  | exn (e : Err)   -- a C++ exception is thrown
  | ub (u : UB)     -- undefined behaviour
  deriving DecidableEq, Repr

/-- Outcome of running a modelled function. -/
abbrev Res (α : Type) := Except Fault α

instance {ε α : Type} [DecidableEq ε] [DecidableEq α] : DecidableEq (Except ε α)
  | .ok a, .ok b => if h : a = b then .isTrue (by rw [h]) else .isFalse (by simpa using h)
  | .error a, .error b => if h : a = b then .isTrue (by rw [h]) else .isFalse (by simpa using h)
  | .ok _, .error _ => .isFalse (by simp)
  | .error _, .ok _ => .isFalse (by simp)

/-- `throw pe_exception(..., e)`. -/
def throwE {α : Type} (e : Err) : Res α := .error (.exn e)

/-- The run commits undefined behaviour. -/
def ubE {α : Type} (u : UB) : Res α := .error (.ub u)

/-- `if(c) throw pe_exception(..., e);` -/
def throwIf (c : Prop) [Decidable c] (e : Err) : Res Unit :=
  if c then throwE e else .ok ()

/-- Value reduced to `uint16_t`. -/
def w16 (x : Nat) : Nat := x % 65536
/-- Value reduced to `uint32_t`. -/
def w32 (x : Nat) : Nat := x % 4294967296
/-- Value reduced to `uint64_t`. -/
def w64 (x : Nat) : Nat := x % 18446744073709551616

/-- `a - b` computed in `uint32_t` (operands already 32-bit). -/
def sub32 (a b : Nat) : Nat := (a + (4294967296 - b)) % 4294967296
/-- `a - b` computed in `uint64_t`/`size_t` (operands already 64-bit). -/
def sub64 (a b : Nat) : Nat := (a + (18446744073709551616 - b)) % 18446744073709551616

/-- Little-endian encoding of `n` in `k` bytes (truncating), i.e. `memcpy` from an integer. -/
def leBytes : Nat → Nat → Bytes
  | 0, _ => []
  | k + 1, n => UInt8.ofNat n :: leBytes k (n / 256)

/-- Little-endian value of a byte string, i.e. `memcpy` into an integer. -/
def fromLE : Bytes → Nat
  | [] => 0
  | b :: bs => b.toNat + 256 * fromLE bs

/-- `n` zero bytes. -/
def zeros (n : Nat) : Bytes := List.replicate n 0

/-- The `n` bytes of `b` starting at `off` (shorter at the end of `b`). -/
def slice (b : Bytes) (off n : Nat) : Bytes := (b.drop off).take n

/-- Little-endian integer made of the `n` bytes of `b` at `off` (only meaningful inside `b`). -/
def rd (n : Nat) (b : Bytes) (off : Nat) : Nat := fromLE (slice b off n)

/-- Reading `n` bytes at offset `off` of a buffer: undefined outside of the buffer. -/
def readN (b : Bytes) (off n : Nat) : Res Bytes :=
  if off + n ≤ b.length then .ok (slice b off n) else ubE .oobRead

/-- Reading an `n`-byte integer at offset `off` of a buffer: undefined outside of the buffer. -/
def readU (n : Nat) (b : Bytes) (off : Nat) : Res Nat :=
  if off + n ≤ b.length then .ok (rd n b off) else ubE .oobRead

/-- Overwriting bytes inside a buffer (list level, only meaningful if it fits). -/
def patch (b : Bytes) (off : Nat) (d : Bytes) : Bytes :=
  b.take off ++ d ++ b.drop (off + d.length)

/-- `memcpy(&b[off], d, |d|)`: undefined outside of the buffer. -/
def writeAt (b : Bytes) (off : Nat) (d : Bytes) : Res Bytes :=
  if off + d.length ≤ b.length then .ok (patch b off d) else ubE .oobWrite

/-- `std::string::resize(n)`: truncate or extend with zero bytes. -/
def resize (b : Bytes) (n : Nat) : Bytes := b.take n ++ zeros (n - b.length)

/-- The C string at the beginning of `b` (up to, excluding, the first zero byte). -/
def cstr (b : Bytes) : Bytes := b.takeWhile (· ≠ 0)

/-- A zero byte occurs in `b`. -/
def hasNul (b : Bytes) : Bool := b.any (· == 0)

end PE
