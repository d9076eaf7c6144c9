import Verif.Py.Err
/-! # Specification of small-world networks -/

namespace Verif.Spec

/-- What the random generator yields are nodes. -/
def DrawsNodes (n : Nat) (luck : Nat × Nat → Option (Nat × List Nat)) : Prop :=
  ∀ p w ds, luck p = some (w, ds) → ∀ x ∈ w :: ds, x < n

/-- The nodes that are at most `d` steps apart on the ring of `n` nodes (`d < n`: and different). -/
def WithinRing (n d a b : Nat) : Prop := a < n ∧ b < n ∧ ∃ j, 1 ≤ j ∧ j ≤ d ∧ (b = (a + j) % n ∨ a = (b + j) % n)

end Verif.Spec
