/-
Vocabulary: calls of the directory rebuilders as values, so that sequences of them can be spoken about.
-/
import Verif.Model.BoundImport
import Verif.Model.Exports
import Verif.Model.Imports
import Verif.Model.LoadConfig
import Verif.Model.Reloc
import Verif.Model.Resources
import Verif.Model.Tls
namespace PE

/-- A call of one of the rebuilders on the section with position `i` (first argument). -/
inductive DirEdit where
  | exports (i : Nat) (info : ExportInfo) (l : List ExportFn) (off : Nat) (save strip : Bool)
  | imports (i : Nat) (ls : List ImportLib) (c : ImportCfg) (off : Nat) (save zeroIat strip : Bool)
  | relocs (i : Nat) (l : List RelocTable) (off : Nat) (save strip : Bool)
  | config (i : Nat) (c : ConfigInfo) (off : Nat) (wse wlock save strip : Bool)
  | resources (i : Nat) (r : ResDir) (off : Nat) (save strip : Bool)
  | bound (i : Nat) (l : List BoundMod) (off : Nat) (save strip : Bool)
  | tls (i : Nat) (t : TlsInfo) (off : Nat) (wcb wdata : Bool) (e : ExpandType) (save strip : Bool)

/-- The call: pe_exports.cpp:479, pe_imports.cpp:264, pe_relocations.cpp:171, pe_load_config.cpp:328, pe_resources.cpp:575,
    pe_bound_import.cpp:203, pe_tls.cpp:139 (the modelled rebuilders). -/
def DirEdit.run (p : Image) : DirEdit → Res (Image × (Nat × Nat))
  | .exports i info l off save strip => p.rebuildExports info l i off save strip
  | .imports i ls c off save zeroIat strip => p.rebuildImports ls i c off save zeroIat strip
  | .relocs i l off save strip => p.rebuildRelocations l i off save strip
  | .config i c off wse wlock save strip => p.rebuildConfig c i off wse wlock save strip
  | .resources i r off save strip => p.rebuildResources r i off save strip
  | .bound i l off save strip => p.rebuildBound l i off save strip
  | .tls i t off wcb wdata e save strip => p.rebuildTls t i off wcb wdata e save strip

/-- The section a call works on. -/
def DirEdit.sec : DirEdit → Nat
  | .exports i .. => i
  | .imports i .. => i
  | .relocs i .. => i
  | .config i .. => i
  | .resources i .. => i
  | .bound i .. => i
  | .tls i .. => i

/-- The directories a call stores: one if `save_to_pe_header` is set; `rebuild_imports` may clear the entry of the IAT, too. -/
def DirEdit.stores : DirEdit → List Nat
  | .exports _ _ _ _ save _ => if save then [0] else []
  | .imports _ _ _ _ save zeroIat _ => if save then (if zeroIat then [1, 12] else [1]) else []
  | .relocs _ _ _ save _ => if save then [5] else []
  | .config _ _ _ _ _ save _ => if save then [10] else []
  | .resources _ _ _ save _ => if save then [2] else []
  | .bound _ _ _ save _ => if save then [11] else []
  | .tls _ _ _ _ _ _ save _ => if save then [9] else []

/-- The call writes into its own section only: imports without rewriting of existing tables elsewhere, TLS without data and
    callbacks. -/
def DirEdit.Inside : DirEdit → Prop
  | .imports _ _ c _ _ _ _ => c.rewrite = false
  | .tls _ _ _ wcb wdata _ _ _ => wcb = false ∧ wdata = false
  | _ => True

instance DirEdit.decInside (e : DirEdit) : Decidable e.Inside := by
  cases e <;> unfold DirEdit.Inside <;> infer_instance

/-- The calls work on different sections and store different directories. -/
structure DirEdit.Apart (a b : DirEdit) : Prop where
  sec : a.sec ≠ b.sec
  stores : ∀ x ∈ a.stores, x ∉ b.stores

instance DirEdit.decApart (a b : DirEdit) : Decidable (a.Apart b) :=
  decidable_of_iff (a.sec ≠ b.sec ∧ ∀ x ∈ a.stores, x ∉ b.stores) ⟨fun h => ⟨h.1, h.2⟩, fun h => ⟨h.1, h.2⟩⟩

/-- The calls one after the other, with the directories they return; an exception ends the sequence. -/
def runEdits (p : Image) : List DirEdit → Res (Image × List (Nat × Nat))
  | [] => .ok (p, [])
  | e :: es => do
    let (q, d) ← e.run p
    let (r, ds) ← runEdits q es
    .ok (r, d :: ds)

end PE
