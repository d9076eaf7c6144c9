import Verif.Spec.Density
import Verif.Spec.RuleTables
import Verif.Spec.Topology
/-! # Mirror images and backgrounds on a ring; rules given by tables and by sums (used by C147, C148) -/

namespace Verif.Spec

/-- The mirror image of cell `x` on a ring of `n` cells, where cell 0 and cell `m` are swapped. -/
def reflectCell (n m x : Nat) : Nat := (m + n - x) % n

/-- All cells at most `d` places to the left or right of cell `x` show `v`. -/
def QuietAround (n : Nat) (s : Nat → Nat) (v : Nat) (x d : Nat) : Prop :=
  ∀ j : Int, -(d : Int) ≤ j → j ≤ d → s (ringCell n x j) = v

/-- The table has an entry in `0..k-1` for every neighbourhood of `2r + 1` cells with states in `0..k-1`. -/
def CompleteTable (k r : Nat) (t : Table) : Prop :=
  ∀ s, IsNbhd k (2 * r + 1) s → ∃ v, t.get? s = some v ∧ 0 ≤ v ∧ v < (k : Int)

/-- Every neighbourhood of cells in one state is mapped to that state. -/
def StrongTable (k r : Nat) (t : Table) : Prop := ∀ d, d < k → t.get? (uniformNbhd (2 * r + 1) d) = some (d : Int)

/-- The table `t'` comes from `t` by any number of calls of `table_walk_through` with `k` states, radius `r` and quiescent state `q`, whose
arguments satisfy `P`. -/
inductive Walked (k r : Nat) (q : Int) (P : WalkArgs → Prop) (t : Table) : Table → Prop
  | refl : Walked k r q P t t
  | step {t' t'' : Table} {fuel : Nat} {a : WalkArgs} {lam : Rat} : Walked k r q P t t' → a.k = k → a.r = r → a.quiescent = q → P a →
      tableWalkThrough fuel a t' = .ok (t'', lam) → Walked k r q P t t''

/-- The entry of a window of cells, written with one digit per cell. -/
def tableEntry (t : Table) (l : List Nat) : Nat := ((t.get? (l.map digitChar)).getD 0).toNat

/-- The totalistic rule number `R` with `k` states: digit number `l.sum` of `R` in base `k`. -/
def totalRule (k R : Nat) (l : List Nat) : Nat := digit k R l.sum

end Verif.Spec
