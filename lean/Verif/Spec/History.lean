/-
Histories: what a program can have done to an image before it reads from it.
-/
import Verif.Model.Failing
import Verif.Model.Accessors
import Verif.Model.Stub
namespace PE

/-- A call of a member function that changes the image, or one of the changes that are possible through a reference that the
    library hands out. -/
inductive Call where
  /-- a setter of a header value, also `set_characteristics_flags` and the like -/
  | setValue (a : Acc) (v : Nat)
  | setDirRva (id v : Nat)
  | setDirSize (id v : Nat)
  | removeDir (id : Nat)
  | stripDirs (minCount : Nat) (stripIat : Bool)
  /-- the stub overlay is replaced -/
  | stub (b : Bytes)
  /-- `get_image_sections()` returns a reference: any change of the list of sections -/
  | sections (f : List Sec → List Sec)
  /-- `section_data_from_rva` returns a pointer: a write through it -/
  | poke (rva : Nat) (x : Bytes) (headers : Bool)
  | addSection (s : Sec) (autoupdate : Bool)
  | setVirtualSize (i vsize : Nat)
  | recalculate (i : Nat) (strip : Bool)
  | expand (i rva size : Nat) (e : ExpandType)
  | setFileAlignment (a : Nat)
  | realignSection (i : Nat)
  | realignFile (a : Nat)
  | rebuildExports (info : ExportInfo) (l : List ExportFn) (i off : Nat) (save strip : Bool)
  | rebuildBound (l : List BoundMod) (i off : Nat) (save strip : Bool)
  | rebuildResources (r : ResDir) (i off : Nat) (save strip : Bool)
  | rebuildRelocations (l : List RelocTable) (i off : Nat) (save strip : Bool)
  | rebuildConfig (c : ConfigInfo) (i off : Nat) (wse wlock save strip : Bool)
  | rebuildTls (t : TlsInfo) (i off : Nat) (wcb wdata : Bool) (e : ExpandType) (save strip : Bool)
  | rebuildImports (ls : List ImportLib) (i : Nat) (c : ImportCfg) (off : Nat) (save zeroIat strip : Bool)
  | rebase (tables : List RelocTable) (newBase : Nat)
  | rebuildPe (strip changeSize saveBound : Bool)

/-- The result of a call is not used. -/
def IM.drop {α : Type} (m : IM α) : IM Unit := do
  let _ ← m
  pure ()

/-- What the call does. -/
def Call.run : Call → IM Unit
  | .setValue a v => IM.modify fun p => p.setAcc a v
  | .setDirRva id v => setDirM fun h => h.setDirRva id v
  | .setDirSize id v => setDirM fun h => h.setDirSize id v
  | .removeDir id => setDirM fun h => h.removeDirectory id
  | .stripDirs n b => setDirM fun h => do
      let r ← h.stripDataDirectories n b
      .ok r.1
  | .stub b => IM.modify fun p => { p with stub := b }
  | .sections f => IM.modify fun p => { p with secs := f p.secs }
  | .poke rva x hdrs => do
      let p ← IM.image
      let l ← IM.lift (p.mutPtrFromRva rva hdrs)
      writeLocM l x
  | .addSection s b => addSectionM s b
  | .setVirtualSize i n => setVirtualSizeM i n
  | .recalculate i b => recalculateM i b
  | .expand i rva size e => (expandM i rva size e).drop
  | .setFileAlignment a => setFileAlignmentM a
  | .realignSection i => realignSectionM i
  | .realignFile a => realignFileM a
  | .rebuildExports info l i off save strip => (rebuildExportsM info l i off save strip).drop
  | .rebuildBound l i off save strip => (rebuildBoundM l i off save strip).drop
  | .rebuildResources r i off save strip => (rebuildResourcesM r i off save strip).drop
  | .rebuildRelocations l i off save strip => (rebuildRelocationsM l i off save strip).drop
  | .rebuildConfig c i off wse wlock save strip => (rebuildConfigM c i off wse wlock save strip).drop
  | .rebuildTls t i off wcb wdata e save strip => (rebuildTlsM t i off wcb wdata e save strip).drop
  | .rebuildImports ls i c off save zeroIat strip => (rebuildImportsM ls i c off save zeroIat strip).drop
  | .rebase tables b => rebaseM tables b
  | .rebuildPe a b c => (rebuildPeM a b c).drop

/-- The arguments of the call: addresses of directories are 32-bit numbers, and the number of directories is not set to more
    than the 16 that the headers have room for. -/
def Call.Legal : Call → Prop
  | .setValue .numRva v => w32 v ≤ 16
  | .setDirRva _ v => v < 4294967296
  | .stripDirs n _ => n < 2147483648
  | _ => True

/-- The calls that write the list of sections or the number of sections by hand. -/
def Call.ByHand : Call → Prop
  | .setValue .numSections _ => True
  | .sections _ => True
  | _ => False

/-- `q` is the image after some calls with the property `P`; each of them returned or threw an exception that the program
    caught (a call that runs into undefined behaviour has no image afterwards). -/
inductive History (P : Call → Prop) (p : Image) : Image → Prop where
  | start : History P p p
  | call {q : Image} (c : Call) : History P p q → P c → (∀ u, (c.run q).1 ≠ ubE u) → History P p (c.run q).2

/-- The sections that have addresses end below 4 GiB. -/
def Image.Below4G (p : Image) : Prop :=
  ∀ s ∈ p.secs, ∀ rva, s.containsRva p.nt.secAlign rva = true →
    s.va + s.data.length < 4294967296 ∧ s.va + s.alignedVS p.nt.secAlign < 4294967296

/-- The same section but for the raw data, the sizes and the place in the file. -/
structure SameSec (t s : Sec) : Prop where
  name : t.name = s.name
  va : t.va = s.va
  relPtr : t.relPtr = s.relPtr
  linePtr : t.linePtr = s.linePtr
  nReloc : t.nReloc = s.nReloc
  nLine : t.nLine = s.nLine
  chars : t.chars = s.chars

/-- The values of the headers that no function of the library changes. -/
structure SameFixed (b a : NtHdr) : Prop where
  signature : b.signature = a.signature
  magic : b.magic = a.magic
  secAlign : b.secAlign = a.secAlign
  ptrSymTab : b.ptrSymTab = a.ptrSymTab
  numSyms : b.numSyms = a.numSyms
  majorLinker : b.majorLinker = a.majorLinker
  minorLinker : b.minorLinker = a.minorLinker
  sizeCode : b.sizeCode = a.sizeCode
  sizeInitData : b.sizeInitData = a.sizeInitData
  sizeUninitData : b.sizeUninitData = a.sizeUninitData
  baseOfData : b.baseOfData = a.baseOfData
  majorImage : b.majorImage = a.majorImage
  minorImage : b.minorImage = a.minorImage
  win32Version : b.win32Version = a.win32Version
  loaderFlags : b.loaderFlags = a.loaderFlags
  slots : b.dirs.length = a.dirs.length

/-- What no function of the library changes. -/
structure SameFrame (q p : Image) : Prop where
  kind : q.kind = p.kind
  dos : q.dos = p.dos
  lfanew : q.lfanew = p.lfanew
  overlay : q.hasOverlay = p.hasOverlay
  debug : q.debugData = p.debugData
  hdr : q.hdrData.length = p.hdrData.length
  nt : SameFixed q.nt p.nt

end PE
