/-
When a call fits: the conditions on the arguments of the functions that change an image, one for every function, under which no
memory is touched that does not belong to the image.
-/
import Verif.Spec.History
import Verif.Spec.Writers
import Verif.Spec.Exports
import Verif.Spec.Reloc
import Verif.Spec.Rebase
import Verif.Spec.Resources
import Verif.Spec.Arith
namespace PE

/-- `n` bytes can be written through the pointer for this address: they lie in the headers, or in the raw data of the first
    section that covers the address (or there is no such section, then the pointer is refused). -/
def PokeRoom (p : Image) (rva n : Nat) (headers : Bool) : Prop :=
  if headers = true ∧ rva < p.hdrData.length then rva + n ≤ p.hdrData.length
  else ∀ s, p.secs.find? (fun s => s.containsRva p.nt.secAlign rva) = some s → rva - s.va + n ≤ s.data.length

/-- The number of the byte behind the resources written at `off`. -/
def resourcesEnd (r : ResDir) (off : Nat) : Nat :=
  dataEndOf r.es (ceilTo off 4 + ((ceilTo off 4 - off) + (16 + 8 * r.es.length + tablesOf r.es) + namesIn r.es))

/-- The call fits the image. Most functions have no condition; those that write a directory need it to end below 4 GiB. -/
def Call.Fits : Call → Image → Prop
  | .removeDir id, p => id < 16 ∨ p.nt.numRva ≠ 0
  | .poke rva x headers, p => PokeRoom p rva x.length headers
  | .recalculate i _, p => i < p.secs.length
  | .rebuildExports info l _ off _ _, _ =>
    (l = [] ∧ info.base ≤ 1 ∧ off + 48 + info.name.length < 4294967296) ∨
      ∃ lo hi, OrdinalRange l lo hi ∧ hi < 65536 ∧ off + 3 + exportSize info l lo hi < 4294967296
  | .rebuildBound l _ off _ _, _ => off + 3 + boundSpace l < 4294967296
  | .rebuildResources r i off _ _, p => resourcesEnd r off + 3 < 4294967296 ∧
      (r.Ordered ∨ AllData (fun d => 4 ∣ d.length) r.es ∨ ∀ s, p.secs[i]? = some s → resourcesEnd r off + 3 ≤ s.data.length)
  | .rebuildRelocations l _ off _ _, p => Pow2 p.nt.fileAlign ∧ off + 6 + relocBytes l + p.nt.fileAlign ≤ 4294967296
  | .rebuildConfig c _ off wse wlock _ _, p => off + (p.kind.ptr - 1) + configSpace p.kind c wse wlock < 4294967296
  | .rebuildTls t _ off wcb wdata _ _ _, p => off + (p.kind.ptr - 1) + p.kind.sizeofTls < 4294967296 ∧
      (wdata = true → t.start ≠ 0 → t.stop ≤ t.start + t.raw.length + 1) ∧
      (wcb = true → t.callbacksRva ≠ 0 → CallbackRoom p t.callbacksRva (p.kind.ptr * (t.callbacks.length + 1)))
  | .rebuildImports ls _ _ off _ _ _, p => off + importSpace p.kind ls < 4294967296
  | .rebase _ _, p => HeadersBelow p
  | .rebuildPe _ _ _, p => (∀ s ∈ p.secs, s.rawSize ≤ s.data.length + 1) ∧
      ∀ d, p.nt.dirs[dirBoundImport]? = some d → d.1 ≠ 0 → d.2 ≠ 0
  | _, _ => True

/-- `q` is the image after some calls that fit. -/
inductive FitHistory (p : Image) : Image → Prop where
  | start : FitHistory p p
  | call {q : Image} (c : Call) : FitHistory p q → c.Legal → c.Fits q → FitHistory p (c.run q).2

end PE
