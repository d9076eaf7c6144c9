import Verif.Spec.Elementary
/-! # Order-preserving rules (used by C160) -/

namespace Verif.Spec

/-- One step of the rule `g`, on rows of values from 0 to `K`, stays within these values and takes greater rows to greater rows. -/
structure OrderPreserving {L : Type} (ls : List L) (nb : L → List L) (K : Nat) (g : L → Int → List Int → Int) : Prop where
  range : ∀ x ∈ ls, ∀ v : Int, 0 ≤ v → v ≤ K → ∀ l : List Int, l.length = (nb x).length → (∀ u ∈ l, 0 ≤ u ∧ u ≤ K) → 0 ≤ g x v l ∧ g x v l ≤ K
  mono : ∀ p q : L → Int, (∀ x ∈ ls, 0 ≤ p x ∧ p x ≤ q x ∧ q x ≤ K) → ∀ x ∈ ls, g x (p x) ((nb x).map p) ≤ g x (q x) ((nb x).map q)

/-- The elementary rule `R` takes greater rows of `n` cells to greater rows. -/
def KeepsOrder (n R : Nat) : Prop :=
  ∀ s s', BinaryRow n s → BinaryRow n s' → (∀ x, x < n → s x ≤ s' x) → ∀ x, x < n → eca n R s 1 x ≤ eca n R s' 1 x

end Verif.Spec
