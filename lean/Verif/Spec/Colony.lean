import Verif.Spec.Fungal
/-! # Specification of the colony of the fungal growth model

`s t x` is the resource of node `x` at timestep `t`, and `as t` are the directed edges at timestep `t`. -/

namespace Verif.Spec

/-- `x` can be reached from a node of `P` along at most `k` links. -/
inductive InReach (E : Nat → Nat → Prop) (P : Nat → Prop) : Nat → Nat → Prop where
  | start {k x} : P x → InReach E P k x
  | link {k x y} : InReach E P k x → E x y → InReach E P (k + 1) y

/-- The colony of a run with `T` states: a node is alive when its resource is positive. -/
structure Colony (n : Nat) (E : Nat → Nat → Prop) (T : Nat) (s : Nat → Nat → Rat) (as : Nat → List (Nat × Nat)) : Prop where
  /-- Nobody dies. -/
  survive : ∀ t u x, t ≤ u → u < T → 0 < s t x → 0 < s u x
  /-- No edge is lost or turned round. -/
  permanent : ∀ t u p, t ≤ u → u < T → p ∈ as t → p ∈ as u
  /-- Both ends of an edge are alive. -/
  ends : ∀ t p, t < T → p ∈ as t → 0 < s t p.1 ∧ 0 < s t p.2
  /-- A node comes to life exactly when a node that is alive takes a link to it. -/
  born : ∀ t x, t + 1 < T → s t x ≤ 0 → (0 < s (t + 1) x ↔ ∃ y, E y x ∧ 0 < s t y ∧ (y, x) ∈ as (t + 1))
  /-- A node that is not alive has had no incoming edge and still has its initial resource. -/
  dormant : ∀ t x, t < T → s t x ≤ 0 → s t x = s 0 x ∧ ∀ y, (y, x) ∉ as t
  /-- The link between two nodes that are alive carries one edge at the next timestep. -/
  joined : ∀ t i j, t + 1 < T → E i j → 0 < s t i → 0 < s t j →
    ((i, j) ∈ as (t + 1) ∧ (j, i) ∉ as (t + 1)) ∨ ((j, i) ∈ as (t + 1) ∧ (i, j) ∉ as (t + 1))
  /-- Life spreads by at most one link at each timestep. -/
  spread : ∀ t x, t < T → 0 < s t x → InReach E (fun y => 0 < s 0 y) t x
  /-- When all nodes are alive, the network is complete one timestep later, and does not change any more. -/
  settled : ∀ t u, t < u → u < T → (∀ x, x < n → 0 < s t x) →
    (∀ i j, E i j → (i, j) ∈ as u ∨ (j, i) ∈ as u) ∧ ∀ p, p ∈ as u ↔ p ∈ as (t + 1)

end Verif.Spec
