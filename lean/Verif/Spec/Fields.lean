/-! # Specification of finite difference schemes on a ring -/

namespace Verif.Spec

/-- The cell to the left of `x` on a ring of `n` cells. -/
def leftOf (n x : Nat) : Nat := (x + n - 1) % n

/-- The cell to the right of `x` on a ring of `n` cells. -/
def rightOf (n x : Nat) : Nat := (x + 1) % n

/-- Value of cell `x` after `t` steps from `s`; `φ` gives the new value from the left, the own and the right value. -/
def ringField (n : Nat) (φ : Rat → Rat → Rat → Rat) (s : Nat → Rat) : Nat → Nat → Rat
  | 0, x => s x
  | t + 1, x => φ (ringField n φ s t (leftOf n x)) (ringField n φ s t x) (ringField n φ s t (rightOf n x))

/-- Upwind scheme of `∂u/∂t + k ∂u/∂x = 0`, `c = k dt / dx`. -/
def convect (c l m _r : Rat) : Rat := m - c * (m - l)

/-- Upwind scheme of `∂u/∂t + u ∂u/∂x = 0`, `c = dt / dx`. -/
def convectSelf (c l m _r : Rat) : Rat := m - c * m * (m - l)

/-- Forward scheme of `∂u/∂t = ν ∂²u/∂x²`, `b = ν dt / dx²`. -/
def diffuse (b l m r : Rat) : Rat := m + b * (r - 2 * m + l)

/-- Scheme of `∂u/∂t + u ∂u/∂x = ν ∂²u/∂x²`. -/
def burgers (c b l m r : Rat) : Rat := m - c * m * (m - l) + b * (r - 2 * m + l)

/-- Value of cell `x` after `t` steps of the wave equation from `s`, `p` before that; `c = (dt / dx)²`. -/
def waveField (n : Nat) (c : Rat) (s p : Nat → Rat) : Nat → Nat → Rat
  | 0, x => s x
  | 1, x => c * (s (rightOf n x) - 2 * s x + s (leftOf n x)) + 2 * s x - p x
  | t + 2, x => c * (waveField n c s p (t + 1) (rightOf n x) - 2 * waveField n c s p (t + 1) x + waveField n c s p (t + 1) (leftOf n x)) +
      2 * waveField n c s p (t + 1) x - waveField n c s p t x

/-- Sum of `f` over the cells. -/
def ringTotal : Nat → (Nat → Rat) → Rat
  | 0, _ => 0
  | n + 1, f => ringTotal n f + f n

/-- Energy of two successive states of the wave equation: kinetic part and potential part. -/
def waveEnergy (n : Nat) (c : Rat) (u v : Nat → Rat) : Rat :=
  ringTotal n (fun x => (v x - u x) ^ 2) + c * ringTotal n (fun x => (v (rightOf n x) - v x) * (u (rightOf n x) - u x))

end Verif.Spec
