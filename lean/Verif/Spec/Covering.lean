/-! # Coverings of networks (used by C159) -/

namespace Verif.Spec

/-- The neighbours of a node of the second network lie over the neighbours of the node of the first network that it lies over, in the same
order, or in any order if the rule does not look at the order. -/
def LiesOver {L L' V : Type} (ls : List L') (nb' : L' → List L') (nb : L → List L) (φ : L' → L) (g : V → List V → V) : Prop :=
  (∀ x ∈ ls, (nb' x).map φ = nb (φ x)) ∨
  ((∀ v l l', l.Perm l' → g v l = g v l') ∧ ∀ x ∈ ls, ((nb' x).map φ).Perm (nb (φ x)))

end Verif.Spec
