/-
Vocabulary for import directories (independent of the code that reads and writes them).
-/
import Verif.Model.Imports
import Verif.Spec.Layout

namespace PE

/-- A function entry that the format can hold, when it is written by an import rebuilder: names are C strings, a function is
    imported by name (with a 16-bit hint) or by number. With a lookup table of its own (`orig`) the IAT holds the address of
    the function, which then must not be 0 (this ends the table); without one, numbers are not supported
    (`C29_ordinal_without_original`). -/
structure ImportFn.Ok (f : ImportFn) (ptr : Nat) (orig : Bool) : Prop where
  name : ∀ x ∈ f.name, x ≠ 0
  named : f.name ≠ [] → f.hint < 2 ^ 16 ∧ f.ordinal = 0
  unnamed : f.name = [] → f.hint = 0 ∧ f.ordinal < 2 ^ 16 ∧ orig = true
  iat : orig = true → f.iatVa ≠ 0 ∧ f.iatVa < 256 ^ ptr

/-- A library keeps its tables if this is asked for and it has an IAT. -/
def ImportLib.Kept (l : ImportLib) (save : Bool) : Prop := save = true ∧ l.rvaIat ≠ 0

instance (l : ImportLib) (save : Bool) : Decidable (l.Kept save) := inferInstanceAs (Decidable (_ ∧ _))

/-- The bytes of the names of a list of libraries: zero terminated, function names with a two byte hint. -/
def importNames (ls : List ImportLib) : Nat :=
  (ls.map (fun l => (l.name.length + 1) +
    (l.funcs.map (fun f => if f.name = [] then 0 else f.name.length + 3)).sum)).sum

/-- The thunks (with the final one of every library) of the libraries of a list. -/
def thunkCount (ls : List ImportLib) : Nat := (ls.map (fun l => l.funcs.length + 1)).sum

/-- What is asked of one library: a time stamp of 32 bits, a name that is a C string; if its tables are written anew, its
    functions have to be writable; if they are kept, they must be readable in the image without the section number `i`
    (so the new data do not overwrite them) and give the functions of the list. -/
structure ImportLib.Ok (l : ImportLib) (p : Image) (i : Nat) (save orig : Bool) : Prop where
  name : ∀ x ∈ l.name, x ≠ 0
  stamp : l.stamp < 2 ^ 32
  fresh : ¬ l.Kept save → ∀ f ∈ l.funcs, f.Ok p.kind.ptr orig
  kept : l.Kept save → l.rvaIat < 2 ^ 32 ∧ l.rvaOrig < 2 ^ 32 ∧
    ({ p with secs := p.secs.eraseIdx i } : Image).importTables l.rvaIat (if orig then l.rvaOrig else 0) = .ok l.funcs

/-- What the reader returns for the library `l`: the same name and time stamp; for kept tables the same addresses and
    the same functions; for new ones the same functions, with the same IAT values if there is a lookup table. -/
structure ImportLib.Same (l l' : ImportLib) (save orig : Bool) : Prop where
  name : l'.name = l.name
  stamp : l'.stamp = l.stamp
  kept : l.Kept save → l'.rvaIat = l.rvaIat ∧ l'.rvaOrig = (if orig then l.rvaOrig else 0) ∧ l'.funcs = l.funcs
  fresh : ¬ l.Kept save → l'.funcs.map (fun f => (f.name, f.hint, f.ordinal)) = l.funcs.map (fun f => (f.name, f.hint, f.ordinal)) ∧
    (orig = true → l'.funcs = l.funcs)

/-- The libraries that get new tables. -/
def freshLibs (save : Bool) (ls : List ImportLib) : List ImportLib := ls.filter (fun l => decide (¬ l.Kept save))

/-- Sums and products of the layout of `rebuild_imports`: where the tables start, where the data end, and the size that is
    asked for. -/
structure ImportSizes (ptr off : Nat) (c : ImportCfg) (ls : List ImportLib) (iat fin need : Nat) : Prop where
  hiat : iat = ceilTo (off + importNames ls + 20 * (ls.length + 1)) ptr
  hfin : fin = iat + ptr * thunkCount ls + (if c.buildOrig then ptr * thunkCount (freshLibs c.save ls) else 0)
  hneed : need = importNames ls + 20 * (ls.length + 1) + (if c.buildOrig then 2 else 1) * (ptr * thunkCount ls) + ptr

end PE
