/-
Arithmetic vocabulary for the property statements (independent of the model).
-/
namespace PE

/-- `a` is a power of two representable in 32 bits. -/
def Pow2 (a : Nat) : Prop := ∃ k, k < 32 ∧ a = 2 ^ k

/-- Least multiple of `a` that is at least `x` (mathematical, unbounded). -/
def ceilTo (x a : Nat) : Nat := if x % a = 0 then x else (x / a + 1) * a

end PE
