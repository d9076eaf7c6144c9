import Verif.Spec.Fields
/-! # Sums over a ring -/

namespace Verif
open Spec

theorem ringTotal_congr {n : Nat} {f g : Nat → Rat} (h : ∀ x, x < n → f x = g x) : ringTotal n f = ringTotal n g := by
  induction n with
  | zero => rfl
  | succ n ih =>
    simp only [ringTotal]
    rw [ih (fun x hx => h x (by omega)), h n (by omega)]

theorem ringTotal_add (n : Nat) (f g : Nat → Rat) : ringTotal n (fun x => f x + g x) = ringTotal n f + ringTotal n g := by
  induction n with
  | zero => simp only [ringTotal]; grind
  | succ n ih => simp only [ringTotal, ih]; grind

theorem ringTotal_sub (n : Nat) (f g : Nat → Rat) : ringTotal n (fun x => f x - g x) = ringTotal n f - ringTotal n g := by
  induction n with
  | zero => simp only [ringTotal]; grind
  | succ n ih => simp only [ringTotal, ih]; grind

theorem ringTotal_mul (n : Nat) (c : Rat) (f : Nat → Rat) : ringTotal n (fun x => c * f x) = c * ringTotal n f := by
  induction n with
  | zero => simp [ringTotal]
  | succ n ih => simp only [ringTotal, ih]; grind

theorem ringTotal_front (n : Nat) (f : Nat → Rat) : ringTotal (n + 1) f = f 0 + ringTotal n (fun x => f (x + 1)) := by
  induction n with
  | zero => simp [ringTotal]; grind
  | succ n ih =>
    rw [ringTotal, ih]
    simp only [ringTotal]
    grind

/-- A sum over the ring does not change when all cells are replaced by their right neighbours. -/
theorem ringTotal_right (n : Nat) (f : Nat → Rat) : ringTotal n (fun x => f (rightOf n x)) = ringTotal n f := by
  cases n with
  | zero => rfl
  | succ n =>
    rw [ringTotal_front n f, ringTotal]
    have h1 : ringTotal n (fun x => f (rightOf (n + 1) x)) = ringTotal n (fun x => f (x + 1)) :=
      ringTotal_congr (fun x hx => by unfold rightOf; rw [Nat.mod_eq_of_lt (by omega)])
    have h2 : rightOf (n + 1) n = 0 := by unfold rightOf; exact Nat.mod_self _
    rw [h1, h2]
    grind

theorem leftOf_rightOf {n x : Nat} (hx : x < n) : leftOf n (rightOf n x) = x := by
  unfold leftOf rightOf
  by_cases h : x + 1 < n
  · rw [Nat.mod_eq_of_lt h, show x + 1 + n - 1 = x + n by omega, Nat.add_mod_right, Nat.mod_eq_of_lt hx]
  · rw [show x + 1 = n by omega, Nat.mod_self, Nat.mod_eq_of_lt (by omega)]
    omega

theorem rightOf_leftOf {n x : Nat} (hx : x < n) : rightOf n (leftOf n x) = x := by
  unfold leftOf rightOf
  by_cases h : x = 0
  · subst h
    rw [show 0 + n - 1 = n - 1 by omega, Nat.mod_eq_of_lt (a := n - 1) (by omega), show n - 1 + 1 = n by omega, Nat.mod_self]
  · rw [show x + n - 1 = (x - 1) + n by omega, Nat.add_mod_right, Nat.mod_eq_of_lt (a := x - 1) (by omega), show x - 1 + 1 = x by omega,
      Nat.mod_eq_of_lt hx]

/-- The same for the left neighbours. -/
theorem ringTotal_left (n : Nat) (f : Nat → Rat) : ringTotal n (fun x => f (leftOf n x)) = ringTotal n f := by
  rw [← ringTotal_right n (fun x => f (leftOf n x))]
  exact ringTotal_congr (fun x hx => by rw [leftOf_rightOf hx])

theorem leftOf_lt {n x : Nat} (hn : 0 < n) : leftOf n x < n := Nat.mod_lt _ hn
theorem rightOf_lt {n x : Nat} (hn : 0 < n) : rightOf n x < n := Nat.mod_lt _ hn

/-- Summation by parts. -/
theorem ringTotal_parts (n : Nat) (m w : Nat → Rat) :
    ringTotal n (fun x => (m (rightOf n x) - m x) * (w (rightOf n x) - w x)) =
      - ringTotal n (fun x => w x * (m (rightOf n x) - 2 * m x + m (leftOf n x))) := by
  have h1 : ringTotal n (fun x => (m (rightOf n x) - m x) * w (rightOf n x)) = ringTotal n (fun x => (m x - m (leftOf n x)) * w x) := by
    rw [← ringTotal_right n (fun x => (m x - m (leftOf n x)) * w x)]
    exact ringTotal_congr (fun x hx => by rw [leftOf_rightOf hx])
  have h2 : ringTotal n (fun x => (m (rightOf n x) - m x) * (w (rightOf n x) - w x)) =
      ringTotal n (fun x => (m (rightOf n x) - m x) * w (rightOf n x)) - ringTotal n (fun x => (m (rightOf n x) - m x) * w x) := by
    rw [← ringTotal_sub]
    exact ringTotal_congr (fun x _ => by grind)
  have h3 : - ringTotal n (fun x => w x * (m (rightOf n x) - 2 * m x + m (leftOf n x))) =
      ringTotal n (fun x => (m x - m (leftOf n x)) * w x) - ringTotal n (fun x => (m (rightOf n x) - m x) * w x) := by
    rw [← ringTotal_sub]
    have : ∀ a : Rat, -a = (-1) * a := by intro a; grind
    rw [this, ← ringTotal_mul]
    exact ringTotal_congr (fun x _ => by grind)
  rw [h2, h1, h3]

/-- The total of the discrete Laplacian is 0. -/
theorem ringTotal_laplace (n : Nat) (m : Nat → Rat) : ringTotal n (fun x => m (rightOf n x) - 2 * m x + m (leftOf n x)) = 0 := by
  rw [ringTotal_add, ringTotal_sub, ringTotal_right, ringTotal_left, ringTotal_mul]
  grind

/-- One step of the wave equation keeps the energy. -/
theorem wave_energy_step {n : Nat} {c : Rat} {p m q : Nat → Rat}
    (h : ∀ x, x < n → q x = c * (m (rightOf n x) - 2 * m x + m (leftOf n x)) + 2 * m x - p x) :
    waveEnergy n c m q = waveEnergy n c p m := by
  unfold waveEnergy
  have k1 : ringTotal n (fun x => (q x - m x) ^ 2) - ringTotal n (fun x => (m x - p x) ^ 2) =
      c * ringTotal n (fun x => (q x - p x) * (m (rightOf n x) - 2 * m x + m (leftOf n x))) := by
    rw [← ringTotal_sub, ← ringTotal_mul]
    apply ringTotal_congr
    intro x hx
    have := h x hx
    grind
  have k2 : ringTotal n (fun x => (q (rightOf n x) - q x) * (m (rightOf n x) - m x)) -
      ringTotal n (fun x => (m (rightOf n x) - m x) * (p (rightOf n x) - p x)) =
      - ringTotal n (fun x => (q x - p x) * (m (rightOf n x) - 2 * m x + m (leftOf n x))) := by
    rw [← ringTotal_parts n m (fun x => q x - p x), ← ringTotal_sub]
    exact ringTotal_congr (fun x _ => by grind)
  grind

end Verif
