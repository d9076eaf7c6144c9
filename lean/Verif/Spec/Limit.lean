/-! # Limits of sequences of rational numbers -/

namespace Verif.Spec

/-- The sequence `a` tends to `l`. -/
def Tends (a : Nat → Rat) (l : Rat) : Prop := ∀ ε, 0 < ε → ∃ N, ∀ t, N ≤ t → l - ε < a t ∧ a t < l + ε

end Verif.Spec
