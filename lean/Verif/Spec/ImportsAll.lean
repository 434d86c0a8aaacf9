/-
Vocabulary for import directories with all settings of the rebuilder, including those that overwrite kept tables or add lookup
tables to kept ones (independent of the code that reads and writes them).
-/
import Verif.Spec.Imports
import Verif.Spec.Host

namespace PE

/-- A function entry that can be written: names are C strings, a function is imported by name (with a 16-bit hint) or by
    number. -/
structure ImportFn.Shape (f : ImportFn) : Prop where
  name : ∀ x ∈ f.name, x ≠ 0
  named : f.name ≠ [] → f.hint < 2 ^ 16 ∧ f.ordinal = 0
  unnamed : f.name = [] → f.hint = 0 ∧ f.ordinal < 2 ^ 16

/-- The library has a lookup table of its own afterwards: one is asked for, and it gets a new one, or it keeps the one it has,
    or a missing one is filled in. -/
def ImportLib.Looked (l : ImportLib) (c : ImportCfg) : Prop :=
  c.buildOrig = true ∧ (¬ l.Kept c.save ∨ l.rvaOrig ≠ 0 ∨ c.fill = true)

instance (l : ImportLib) (c : ImportCfg) : Decidable (l.Looked c) := inferInstanceAs (Decidable (_ ∧ _))

/-- Its IAT is written: a new one, or the kept one is overwritten. -/
def ImportLib.Written (l : ImportLib) (c : ImportCfg) : Prop := ¬ l.Kept c.save ∨ c.rewrite = true

instance (l : ImportLib) (c : ImportCfg) : Decidable (l.Written c) := inferInstanceAs (Decidable (_ ∨ _))

/-- A kept library gets a new lookup table. -/
def ImportLib.Filled (l : ImportLib) (c : ImportCfg) : Prop :=
  l.Kept c.save ∧ c.buildOrig = true ∧ c.fill = true ∧ l.rvaOrig = 0

instance (l : ImportLib) (c : ImportCfg) : Decidable (l.Filled c) := inferInstanceAs (Decidable (_ ∧ _))

/-- Its old lookup table is overwritten. -/
def ImportLib.Relooked (l : ImportLib) (c : ImportCfg) : Prop :=
  l.Kept c.save ∧ c.rewrite = true ∧ c.buildOrig = true ∧ l.rvaOrig ≠ 0

instance (l : ImportLib) (c : ImportCfg) : Decidable (l.Relooked c) := inferInstanceAs (Decidable (_ ∧ _))

/-- Lookup values are written into the new data (with `fill` even if the library keeps its lookup table: nothing refers to them
    then). -/
def ImportLib.NewLook (l : ImportLib) (c : ImportCfg) : Prop :=
  ¬ l.Relooked c ∧ ((¬ l.Kept c.save ∧ c.buildOrig = true) ∨ c.fill = true)

instance (l : ImportLib) (c : ImportCfg) : Decidable (l.NewLook c) := inferInstanceAs (Decidable (_ ∧ _))

/-- The old tables of the library that are overwritten, with their sizes. -/
def ImportLib.tables (ptr : Nat) (c : ImportCfg) (l : ImportLib) : List (Nat × Nat) :=
  (if l.Kept c.save ∧ c.rewrite = true then [(l.rvaIat, ptr * (l.funcs.length + 1))] else []) ++
    (if l.Relooked c then [(l.rvaOrig, ptr * (l.funcs.length + 1))] else [])

def importTabs (ptr : Nat) (c : ImportCfg) (ls : List ImportLib) : List (Nat × Nat) := ls.flatMap (ImportLib.tables ptr c)

/-- Two ranges of addresses have nothing in common. -/
def TabsApart (a b : Nat × Nat) : Prop := a.1 + a.2 ≤ b.1 ∨ b.1 + b.2 ≤ a.1

instance (a b : Nat × Nat) : Decidable (TabsApart a b) := inferInstanceAs (Decidable (_ ∨ _))

/-- The address lies in one of the ranges. -/
def InTabs (ts : List (Nat × Nat)) (x : Nat) : Prop := ∃ t ∈ ts, t.1 ≤ x ∧ x < t.1 + t.2

/-- There is room for `n` bytes at the address `a` in the raw data of section `j`, which is not the section number `i`; at least
    one more byte follows (without it the rebuilder refuses, see `C29_table_at_end`). -/
def TabRoom (p : Image) (i j a n : Nat) : Prop :=
  j ≠ i ∧ ∃ s, p.secs[j]? = some s ∧ p.hdrData.length ≤ s.va ∧ s.va ≤ a ∧ a + n < s.va + s.data.length ∧
    s.data.length ≤ s.span p.nt.secAlign

/-- `p'` differs from `p` in the raw data of sections other than the one with number `i`, and there only at addresses in `R`. -/
structure Retabled (p p' : Image) (i : Nat) (R : Nat → Prop) : Prop where
  rest : p' = { p with secs := p'.secs }
  own : p'.secs[i]? = p.secs[i]?
  count : p'.secs.length = p.secs.length
  secs : ∀ (j : Nat) (s : Sec), p.secs[j]? = some s → ∃ d, p'.secs[j]? = some { s with data := d } ∧ d.length = s.data.length ∧
    ∀ k, ¬ R (s.va + k) → d[k]? = s.data[k]?

/-- What is asked of one library, for all settings. Functions that are written must be writable; the ones of a new library
    without a lookup table must have names (`C29_ordinal_without_original`). With a lookup table the IAT holds the addresses of
    the functions, which must not be 0. Lookup tables must not be filled in without being asked for
    (`C29_fill_without_build`). Kept tables that are not written must be readable in the image without section `i` and give the
    functions of the list; kept ones that are written must have room. -/
structure ImportLib.AllOk (l : ImportLib) (p : Image) (i : Nat) (c : ImportCfg) : Prop where
  name : ∀ x ∈ l.name, x ≠ 0
  stamp : l.stamp < 2 ^ 32
  shape : l.Written c ∨ l.Filled c → ∀ f ∈ l.funcs, f.Shape
  iat : l.Written c → l.Looked c → ∀ f ∈ l.funcs, f.iatVa ≠ 0 ∧ f.iatVa < 256 ^ p.kind.ptr
  fill : l.Written c → c.fill = true → c.buildOrig = true
  fresh : ¬ l.Kept c.save → ¬ l.Looked c → ∀ f ∈ l.funcs, f.name ≠ []
  kept : ¬ l.Written c → l.rvaIat < 2 ^ 32 ∧ l.rvaOrig < 2 ^ 32 ∧
    ({ p with secs := p.secs.eraseIdx i } : Image).importTables l.rvaIat (if c.buildOrig then l.rvaOrig else 0) = .ok l.funcs
  room : ∀ t ∈ l.tables p.kind.ptr c, ∃ j, TabRoom p i j t.1 t.2

/-- What the reader returns for the library `l`: the same name and time stamp, and the same functions (with the same IAT
    values, if these are kept or there is a lookup table). A kept IAT has the same address, and so has a kept lookup table. -/
structure ImportLib.AllSame (l l' : ImportLib) (c : ImportCfg) : Prop where
  name : l'.name = l.name
  stamp : l'.stamp = l.stamp
  kept : l.Kept c.save → l'.rvaIat = l.rvaIat
  orig : l.Kept c.save → ¬ l.Filled c → l'.rvaOrig = (if c.buildOrig then l.rvaOrig else 0)
  filled : l.Filled c → l'.rvaOrig ≠ 0
  shown : l'.funcs.map (fun f => (f.name, f.hint, f.ordinal)) = l.funcs.map (fun f => (f.name, f.hint, f.ordinal))
  exact : ¬ l.Written c ∨ l.Looked c → l'.funcs = l.funcs

/-- Sums and products of the layout. -/
structure ImportAllSizes (ptr off : Nat) (c : ImportCfg) (ls : List ImportLib) (iat fin need : Nat) : Prop where
  hiat : iat = ceilTo (off + importNames ls + 20 * (ls.length + 1)) ptr
  hfin : fin = iat + ptr * thunkCount ls + ptr * thunkCount (ls.filter (fun l => decide (l.NewLook c)))
  hneed : need = importNames ls + 20 * (ls.length + 1) +
    (if c.buildOrig = true ∨ c.fill = true then 2 else 1) * (ptr * thunkCount ls) + ptr

end PE
