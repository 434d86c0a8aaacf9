/-
Code shared (by copy) by the rebuilders of /repo/src/pe_lib: the space check at their beginning and the end that
adjusts section sizes and stores the directory.
-/
import Verif.Model.Edit

namespace PE

/-- The space check of pe_load_config.cpp:415-418, pe_bound_import.cpp:233-235, pe_tls.cpp:241-243, pe_exports.cpp:555-557,
    pe_imports.cpp:458-460, pe_resources.cpp:600-602: the section with position `i` is the last one, or it is not empty
    and its (aligned) raw size is enough for `need` bytes. -/
def Image.spaceCheck (p : Image) (i : Nat) (s : Sec) (need : Nat) : Res Unit :=
  throwIf (i + 1 ≠ p.secs.length ∧ (s.empty = true ∨ alignUp s.rawSize p.nt.fileAlign < need)) .insufficientSpace

/-- `if(raw_data.length() < need) raw_data.resize(need);` (pe_load_config.cpp:426-426 and the same places of the
    other rebuilders). -/
def growTo (d : Bytes) (need : Nat) : Bytes := if d.length < need then resize d need else d

/-- The end of the rebuilders (pe_load_config.cpp:521-531, pe_bound_import.cpp:276-286, pe_tls.cpp:361-371,
    pe_exports.cpp:665-675, pe_resources.cpp:616-626): the section with position `i`, whose raw data now are `d`, gets
    new sizes, and the directory `dir` is stored. -/
def Image.finishDir (p : Image) (i : Nat) (s : Sec) (d : Bytes) (strip save : Bool) (id : Nat) (dir : Nat × Nat) :
    Res (Image × (Nat × Nat)) := do
  let p ← ({ p with secs := p.secs.set i { s with data := d } } : Image).recalculateSectionSizes i strip
  if save then do
    let nt ← p.nt.setDirRva id dir.1
    let nt ← nt.setDirSize id dir.2
    .ok ({ p with nt := nt }, dir)
  else .ok (p, dir)

end PE
