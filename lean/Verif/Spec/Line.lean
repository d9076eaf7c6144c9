import Verif.Spec.CA
/-! # Elementary cellular automata on the unbounded line; times at which a sequence is greater than ever before -/

namespace Verif.Spec

/-- The state of cell `x` of the line after `t` steps of elementary automaton number `R` from `s`. -/
def lineEca (R : Nat) (s : Int → Nat) : Nat → Int → Nat
  | 0, x => s x
  | t + 1, x => ecaRule R (lineEca R s t (x - 1)) (lineEca R s t x) (lineEca R s t (x + 1))

/-- The word `v` at the positions `0, 1, ...` and 0 elsewhere. -/
def onLine (v : List Nat) (x : Int) : Nat := if 0 ≤ x then v[x.toNat]?.getD 0 else 0

/-- The times before `T` at which `f` is greater than 0 and than all values before. -/
def records (f : Nat → Nat) (T : Nat) : List Nat := (List.range T).filter (fun t => decide (0 < f t ∧ ∀ s, s < t → f s < f t))

end Verif.Spec
