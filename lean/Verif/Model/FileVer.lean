/-
Model of the accessors of fixed version information: /repo/src/pe_lib/file_version_info.cpp, file_version_info.h
(the raw values are `FileVer` of Model/VersionInfo).
-/
import Verif.Model.VersionInfo

namespace PE

/-- The six named flags (pe_structures.h:202-207 `vs_ff_*`). -/
inductive VerFlag where
  | debug | prerelease | patched | privateBuild | infoInferred | specialBuild
  deriving DecidableEq, Repr

/-- pe_structures.h:202-207. -/
def VerFlag.mask : VerFlag → Nat
  | .debug => 0x01 | .prerelease => 0x02 | .patched => 0x04 | .privateBuild => 0x08 | .infoInferred => 0x10 | .specialBuild => 0x20

/-- file_version_info.cpp:29-62 `is_debug`, `is_prerelease`, `is_patched`, `is_private_build`, `is_special_build`,
    `is_info_inferred`: which flag each of them tests. -/
def FileVer.isSet (v : FileVer) (f : VerFlag) : Bool := v.flags &&& f.mask != 0

/-- file_version_info.cpp:205-220 `set_file_flag`, `clear_file_flag` and file_version_info.cpp:223-256 `set_debug`, …: `~flag` is computed in
    32 bits. -/
def FileVer.setFlag (v : FileVer) (f : VerFlag) (b : Bool) : FileVer :=
  if b then { v with flags := v.flags ||| f.mask } else { v with flags := v.flags &&& (4294967295 - f.mask) }

/-- file_version_info.h:13-30 `file_os_type`. -/
inductive FileOs where
  | unknown | dos | os216 | os232 | nt | wince | win16 | pm16 | pm32 | win32 | dosWin16 | dosWin32 | os216Pm16 | os232Pm32 | ntWin32
  deriving DecidableEq, Repr

/-- file_version_info.cpp:101-150 `get_file_os` (constants: pe_structures.h:210-227). -/
def FileVer.getOs (v : FileVer) : FileOs :=
  match v.os with
  | 0x10000 => .dos
  | 0x20000 => .os216
  | 0x30000 => .os232
  | 0x40000 => .nt
  | 0x50000 => .wince
  | 1 => .win16
  | 2 => .pm16
  | 3 => .pm32
  | 4 => .win32
  | 0x10001 => .dosWin16
  | 0x10004 => .dosWin32
  | 0x20002 => .os216Pm16
  | 0x30003 => .os232Pm32
  | 0x40004 => .ntWin32
  | _ => .unknown

/-- file_version_info.cpp:295-359 `set_file_os`. -/
def FileVer.setOs (v : FileVer) : FileOs → FileVer
  | .dos => { v with os := 0x10000 }
  | .os216 => { v with os := 0x20000 }
  | .os232 => { v with os := 0x30000 }
  | .nt => { v with os := 0x40000 }
  | .wince => { v with os := 0x50000 }
  | .win16 => { v with os := 1 }
  | .pm16 => { v with os := 2 }
  | .pm32 => { v with os := 3 }
  | .win32 => { v with os := 4 }
  | .dosWin16 => { v with os := 0x10001 }
  | .dosWin32 => { v with os := 0x10004 }
  | .os216Pm16 => { v with os := 0x20002 }
  | .os232Pm32 => { v with os := 0x30003 }
  | .ntWin32 => { v with os := 0x40004 }
  | .unknown => v

/-- file_version_info.h:33-42 `file_type`. -/
inductive FileType where
  | unknown | application | dll | driver | font | vxd | staticLib
  deriving DecidableEq, Repr

/-- file_version_info.cpp:159-184 `get_file_type` (constants: pe_structures.h:230-236). -/
def FileVer.getType (v : FileVer) : FileType :=
  match v.type with
  | 1 => .application
  | 2 => .dll
  | 3 => .driver
  | 4 => .font
  | 5 => .vxd
  | 7 => .staticLib
  | _ => .unknown

/-- file_version_info.cpp:368-400 `set_file_type`. -/
def FileVer.setType (v : FileVer) : FileType → FileVer
  | .application => { v with type := 1 }
  | .dll => { v with type := 2 }
  | .driver => { v with type := 3 }
  | .font => { v with type := 4 }
  | .vxd => { v with type := 5 }
  | .staticLib => { v with type := 7 }
  | .unknown => v

/-- `std::basic_stringstream<T> << uint32_t` in the "C" locale: decimal digits. -/
def decimal (n : Nat) : List Nat :=
  if n < 10 then [48 + n] else decimal (n / 10) ++ [48 + n % 10]

/-- file_version_info.h:152-161 `get_version_string`. -/
def versionString (ms ls : Nat) : List Nat :=
  decimal (ms / 65536) ++ [46] ++ (decimal (ms &&& 0xFFFF) ++ [46] ++ (decimal (ls / 65536) ++ [46] ++ decimal (ls &&& 0xFFFF)))

/-- file_version_info.h:95-98 `get_file_version_string`. -/
def FileVer.fileString (v : FileVer) : List Nat := versionString v.verMS v.verLS
/-- file_version_info.h:102-105 `get_product_version_string`. -/
def FileVer.productString (v : FileVer) : List Nat := versionString v.prodMS v.prodLS

end PE
