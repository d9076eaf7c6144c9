import Verif.Spec.Elementary
/-! # Traffic jams on a ring of cells -/

namespace Verif

/-- Two neighbouring cells of the ring are both in state `v`. -/
def Paired (n v : Nat) (s : Nat → Nat) : Prop := ∃ x, x < n ∧ s x = v ∧ s ((x + 1) % n) = v

/-- All cells of the row are in state `v`. -/
def Uniform (n v : Nat) (s : Nat → Nat) : Prop := ∀ x, x < n → s x = v

end Verif
