/-
What it means that bytes have been written to a stream.
-/
import Verif.Model.SaveStream
namespace PE

/-- A medium that takes everything. -/
def Medium.Unlimited (md : Medium) : Prop := ∀ k n, n ≤ md k n

/-- The stream `o` after `b` was to be written at position `k` of a stream with contents `old`: some prefix of `b` is there,
    nothing else has changed, the position is behind it, and `badbit` tells whether something is missing. -/
def Wrote (old : Bytes) (k : Nat) (b : Bytes) (o : OStream) : Prop :=
  ∃ n, n ≤ b.length ∧ o.data = overwrite old k (b.take n) ∧ o.pos = k + n ∧ (o.bad = true ↔ n < b.length) ∧
    (o.fail = true → o.bad = true) ∧ o.eof = false ∧ o.mask = 0

end PE
