import Verif.Props.Dynamics
import Verif.Props.FlockMargins
import Verif.Spec.Limit
/-! # Where the population of the logistic map demos goes: C156 -/

namespace Verif
open Spec

/-! ## Geometric sequences -/

/-- Bernoulli's inequality, the other way up. -/
theorem power_small {q : Rat} (h0 : 0 ≤ q) (n : Nat) : 0 ≤ q ^ n ∧ q ^ n * (1 + (n : Rat) * (1 - q)) ≤ 1 := by
  induction n with
  | zero => constructor <;> grind
  | succ n ih =>
    have hn : (0 : Rat) ≤ (n : Rat) := by exact_mod_cast Nat.zero_le n
    have e : ((n + 1 : Nat) : Rat) = (n : Rat) + 1 := by push_cast; rfl
    have a := Rat.mul_nonneg ih.1 (Rat.mul_nonneg (show (0 : Rat) ≤ (n : Rat) + 1 by grind) (rat_sq_nonneg (1 - q)))
    refine ⟨?_, ?_⟩
    · rw [Rat.pow_succ]; exact Rat.mul_nonneg ih.1 h0
    · rw [e, Rat.pow_succ]
      grind

theorem power_below {q : Rat} (h0 : 0 ≤ q) (h1 : q < 1) {b ε : Rat} (he : 0 < ε) : ∃ N, ∀ n : Nat, N ≤ n → q ^ n * b < ε := by
  have hd : 0 < ε * (1 - q) := Rat.mul_pos he (by grind)
  obtain ⟨N, hN⟩ := rat_le_nat (b / (ε * (1 - q)))
  refine ⟨N, fun n hn => ?_⟩
  have hp := power_small h0 n
  have hnN : (N : Rat) ≤ (n : Rat) := by exact_mod_cast hn
  have h2 : b ≤ (n : Rat) * (ε * (1 - q)) := by
    have h3 : b / (ε * (1 - q)) * (ε * (1 - q)) = b := Rat.div_mul_cancel (by grind)
    have h4 := Rat.mul_nonneg (show 0 ≤ (n : Rat) - b / (ε * (1 - q)) by grind) (show 0 ≤ ε * (1 - q) by grind)
    grind
  have h5 := Rat.mul_nonneg hp.1 (show 0 ≤ (n : Rat) * (ε * (1 - q)) - b by grind)
  have h6 := Rat.mul_nonneg (show 0 ≤ 1 - q ^ n * (1 + (n : Rat) * (1 - q)) by grind) (show 0 ≤ ε by grind)
  by_cases hq : q ^ n = 0
  · rw [hq]; grind
  · have : 0 < q ^ n := by have := hp.1; grind
    have h7 := Rat.mul_pos this he
    grind

/-- A sequence whose distance to `l` is multiplied by factors between 0 and `q` tends to `l`. -/
theorem tends_of_factors {a k : Nat → Rat} {l q : Rat} (h0 : 0 ≤ q) (h1 : q < 1) (ha : ∀ n, a (n + 1) - l = (a n - l) * k n)
    (hk : ∀ n, 0 ≤ k n ∧ k n ≤ q) : Tends a l := by
  obtain ⟨b, hb, hb1, hb2⟩ : ∃ b : Rat, 0 ≤ b ∧ a 0 - l ≤ b ∧ -b ≤ a 0 - l := by
    rcases Rat.le_total (a := 0) (b := a 0 - l) with h | h
    · exact ⟨a 0 - l, h, Rat.le_refl, by grind⟩
    · exact ⟨-(a 0 - l), by grind, by grind, by grind⟩
  have key : ∀ n, a n - l ≤ q ^ n * b ∧ -(q ^ n * b) ≤ a n - l := by
    intro n
    induction n with
    | zero => rw [Rat.pow_zero, Rat.one_mul]; exact ⟨hb1, hb2⟩
    | succ n ih =>
      rw [ha n, Rat.pow_succ]
      have hq := Rat.mul_nonneg (power_small h0 n).1 hb
      have p1 := Rat.mul_nonneg (show 0 ≤ q ^ n * b - (a n - l) by grind) (hk n).1
      have p2 := Rat.mul_nonneg (show 0 ≤ q ^ n * b + (a n - l) by grind) (hk n).1
      have p3 := Rat.mul_nonneg hq (show 0 ≤ q - k n by have := (hk n).2; grind)
      constructor <;> grind
  intro ε he
  obtain ⟨N, hN⟩ := power_below h0 h1 (b := b) he
  refine ⟨N, fun t ht => ?_⟩
  have h2 := hN t ht
  have h3 := key t
  constructor <;> grind

theorem tends_shift {a : Nat → Rat} {l : Rat} (N : Nat) (h : Tends (fun n => a (N + n)) l) : Tends a l := by
  intro ε he
  obtain ⟨M, hM⟩ := h ε he
  refine ⟨N + M, fun t ht => ?_⟩
  have := hM (t - N) (by omega)
  simp only [show N + (t - N) = t by omega] at this
  exact this

theorem tends_two {a : Nat → Rat} {l : Rat} (h0 : Tends (fun n => a (2 * n)) l) (h1 : Tends (fun n => a (2 * n + 1)) l) : Tends a l := by
  intro ε he
  obtain ⟨M, hM⟩ := h0 ε he
  obtain ⟨K, hK⟩ := h1 ε he
  refine ⟨2 * M + 2 * K + 1, fun t ht => ?_⟩
  rcases Nat.mod_two_eq_zero_or_one t with h | h
  · have := hM (t / 2) (by omega)
    simp only [show 2 * (t / 2) = t by omega] at this
    exact this
  · have := hK (t / 2) (by omega)
    simp only [show 2 * (t / 2) + 1 = t by omega] at this
    exact this

/-! ## The logistic map -/

/-- One step multiplies the distance to `1 - 1/g` by `1 - g x`. -/
theorem logistic_distance {g : Rat} (hg : g ≠ 0) (x : Rat) (t : Nat) :
    logistic g x (t + 1) - (1 - 1 / g) = (logistic g x t - (1 - 1 / g)) * (1 - g * logistic g x t) := by
  simp only [logistic]
  have : g * (1 / g) = 1 := by grind
  grind

theorem logistic_add (g x : Rat) (s t : Nat) : logistic g x (s + t) = logistic g (logistic g x s) t := by
  induction t with
  | zero => rfl
  | succ t ih => rw [← Nat.add_assoc]; simp only [logistic, ih]

theorem logistic_inside {g x : Rat} (hg : 0 < g) (hg4 : g < 4) (hx : 0 < x) (hx1 : x < 1) (t : Nat) :
    0 < logistic g x t ∧ logistic g x t < 1 := by
  induction t with
  | zero => exact ⟨hx, hx1⟩
  | succ t ih =>
    have h1 := Rat.mul_pos (Rat.mul_pos hg ih.1) (show 0 < 1 - logistic g x t by grind)
    have h2 := (C103_unit (g := g) (x := logistic g x t) (by grind) (by grind) (by grind) (by grind) 0).2.2
    simp only [logistic] at h2 ⊢
    exact ⟨h1, by grind⟩

/-- C156: with a rate of at most 1 the population dies out: after `t` timesteps it is at most `1 / (t + 1)`. -/
theorem C156_extinct {g x : Rat} (hg : 0 ≤ g) (hg1 : g ≤ 1) (hx : 0 ≤ x) (hx1 : x ≤ 1) (t : Nat) :
    logistic g x t * ((t : Rat) + 1) ≤ 1 := by
  have key : ∀ t, 0 ≤ logistic g x t ∧ logistic g x t * ((t : Rat) + 1) ≤ 1 := by
    intro t
    induction t with
    | zero => exact ⟨hx, by simp only [logistic]; grind⟩
    | succ t ih =>
      have hu := C103_unit hg (by grind) hx hx1 t
      have hu' := (C103_unit hg (by grind) hx hx1 (t + 1)).1
      refine ⟨hu', ?_⟩
      have hn : (0 : Rat) ≤ (t : Rat) := by exact_mod_cast Nat.zero_le t
      have e : ((t + 1 : Nat) : Rat) = (t : Rat) + 1 := by push_cast; rfl
      rw [e]
      simp only [logistic] at hu' ⊢
      generalize logistic g x t = y at *
      have a1 : g * y * (1 - y) ≤ y * (1 - y) := by
        have := Rat.mul_nonneg (show 0 ≤ 1 - g by grind) (Rat.mul_nonneg hu.1 (show 0 ≤ 1 - y by grind))
        grind
      have a2 := Rat.mul_nonneg (show 0 ≤ y * (1 - y) - g * y * (1 - y) by grind) (show 0 ≤ (t : Rat) + 1 + 1 by grind)
      have a3 : y * (1 - y) * ((t : Rat) + 1 + 1) ≤ 1 := by
        have b1 := Rat.mul_nonneg (show 0 ≤ 1 - y * ((t : Rat) + 1) by grind) (show 0 ≤ 1 - y by grind)
        have b2 := rat_sq_nonneg y
        have b3 := rat_sq_nonneg (1 - y)
        grind
      grind
  exact (key t).2

/-- With a rate from 1 to 2 every population tends to the fixed point. -/
theorem logistic_slow {g x : Rat} (hg : 1 < g) (hg2 : g ≤ 2) (hx : 0 < x) (hx1 : x < 1) : Tends (logistic g x) (1 - 1 / g) := by
  have hgi : g * (1 / g) = 1 := by grind
  have hp : 0 < 1 - 1 / g := by
    have := Rat.mul_pos (show 0 < g by grind) (show 0 < g - 1 by grind)
    by_cases h : 0 < 1 - 1 / g
    · exact h
    · have := Rat.mul_nonneg (show 0 ≤ g by grind) (show 0 ≤ -(1 - 1 / g) by grind)
      grind
  refine tends_shift 1 ?_
  have hin := fun t => logistic_inside (by grind) (by grind) hx hx1 (g := g) (1 + t)
  have hq : ∀ t, logistic g x (1 + t) ≤ g / 4 := fun t => by
    rw [Nat.add_comm]; exact (C103_unit (by grind) (by grind) (by grind) (by grind) t).2.2
  obtain ⟨m, hm0, hmp, hmx⟩ : ∃ m : Rat, 0 < m ∧ m ≤ 1 - 1 / g ∧ m ≤ logistic g x 1 := by
    rcases Rat.le_total (a := 1 - 1 / g) (b := logistic g x 1) with h | h
    · exact ⟨_, hp, Rat.le_refl, h⟩
    · exact ⟨_, (hin 0).1, h, Rat.le_refl⟩
  have hd := fun t => logistic_distance (show g ≠ 0 by grind) x (1 + t)
  have hk0 : ∀ t, 0 ≤ 1 - g * logistic g x (1 + t) := by
    intro t
    have h1 := Rat.mul_nonneg (show 0 ≤ g by grind) (show 0 ≤ g / 4 - logistic g x (1 + t) by have := hq t; grind)
    have h2 := Rat.mul_nonneg (show 0 ≤ 2 - g by grind) (show 0 ≤ 2 + g by grind)
    grind
  have hm : ∀ t, m ≤ logistic g x (1 + t) := by
    intro t
    induction t with
    | zero => exact hmx
    | succ t ih =>
      have h1 := hd t
      have h2 := hk0 t
      rw [show 1 + (t + 1) = 1 + t + 1 by omega]
      rcases Rat.le_total (a := 1 - 1 / g) (b := logistic g x (1 + t)) with h | h
      · have := Rat.mul_nonneg (show 0 ≤ logistic g x (1 + t) - (1 - 1 / g) by grind) h2
        grind
      · have := Rat.mul_nonneg (show 0 ≤ (1 - 1 / g) - logistic g x (1 + t) by grind)
          (Rat.mul_nonneg (show 0 ≤ g by grind) (show 0 ≤ logistic g x (1 + t) by have := (hin t).1; grind))
        grind
  have hgm : 0 < g * m := Rat.mul_pos (by grind) hm0
  refine tends_of_factors (q := 1 - g * m) (k := fun t => 1 - g * logistic g x (1 + t)) ?_ (by grind) hd ?_
  · have h1 := Rat.mul_nonneg (show 0 ≤ g by grind) (show 0 ≤ logistic g x (1 + 0) - m from by have := hm 0; grind)
    have := hk0 0
    grind
  · intro t
    have h1 := Rat.mul_nonneg (show 0 ≤ g by grind) (show 0 ≤ logistic g x (1 + t) - m from by have := hm t; grind)
    exact ⟨hk0 t, by grind⟩

/-- With a rate of more than 2 and at most 3 every population comes to the interval from `1/2` to `g/4`. -/
theorem logistic_enters {g x : Rat} (hg : 2 < g) (hg3 : g ≤ 3) (hx : 0 < x) (hx1 : x < 1) :
    ∃ N, 1 / 2 ≤ logistic g x N ∧ logistic g x N ≤ g / 4 := by
  by_cases hall : ∃ n, 1 / 2 ≤ logistic g x (1 + n)
  · obtain ⟨n, hn⟩ := hall
    exact ⟨1 + n, hn, by rw [Nat.add_comm]; exact (C103_unit (by grind) (by grind) (by grind) (by grind) n).2.2⟩
  · exfalso
    have hlow : ∀ n, logistic g x (1 + n) < 1 / 2 := fun n => Rat.not_le.1 fun h => hall ⟨n, h⟩
    have hin := fun t => logistic_inside (by grind) (by grind) hx hx1 (g := g) (1 + t)
    have hgi : g * (2 / g) = 2 := by grind
    have hq0 : 0 ≤ 2 / g := by
      by_cases h : 0 ≤ 2 / g
      · exact h
      · have := Rat.mul_pos (show 0 < g by grind) (show 0 < -(2 / g) by grind)
        grind
    have hq1 : 2 / g < 1 := by
      by_cases h : 2 / g < 1
      · exact h
      · have := Rat.mul_nonneg (show 0 ≤ g by grind) (show 0 ≤ 2 / g - 1 by grind)
        grind
    have key : ∀ n, logistic g x 1 ≤ (2 / g) ^ n * logistic g x (1 + n) := by
      intro n
      induction n with
      | zero => rw [Rat.pow_zero, Rat.one_mul]; exact Rat.le_refl
      | succ n ih =>
        have h1 : logistic g x (1 + n) ≤ 2 / g * logistic g x (1 + (n + 1)) := by
          rw [show 1 + (n + 1) = 1 + n + 1 by omega]
          simp only [logistic]
          have h2 := Rat.mul_nonneg (show 0 ≤ logistic g x (1 + n) by have := (hin n).1; grind)
            (show 0 ≤ 1 - 2 * logistic g x (1 + n) by have := hlow n; grind)
          have h3 : 2 / g * (g * logistic g x (1 + n) * (1 - logistic g x (1 + n))) =
              g * (2 / g) * (logistic g x (1 + n) * (1 - logistic g x (1 + n))) := by grind
          rw [h3, hgi]
          grind
        have h4 := Rat.mul_nonneg (power_small hq0 n).1 (show 0 ≤ 2 / g * logistic g x (1 + (n + 1)) - logistic g x (1 + n) by grind)
        rw [Rat.pow_succ]
        grind
    obtain ⟨N, hN⟩ := power_below hq0 hq1 (b := 1 / 2) (hin 0).1
    have h1 := hN N (Nat.le_refl _)
    have h2 := key N
    have h3 := Rat.mul_nonneg (power_small hq0 N).1 (show 0 ≤ 1 / 2 - logistic g x (1 + N) by have := hlow N; grind)
    simp only [Nat.add_zero] at h1
    grind

/-- The interval from `1/2` to `g/4` is kept. -/
theorem logistic_stays {g x : Rat} (hg : 2 ≤ g) (hg3 : g ≤ 3) (h1 : 1 / 2 ≤ x) (h2 : x ≤ g / 4) (t : Nat) :
    1 / 2 ≤ logistic g x t ∧ logistic g x t ≤ g / 4 := by
  induction t with
  | zero => exact ⟨h1, h2⟩
  | succ t ih =>
    simp only [logistic]
    generalize logistic g x t = y at *
    refine ⟨?_, ?_⟩
    · -- `g y (1 - y)` is least at `y = g/4`
      have a1 := Rat.mul_nonneg (show 0 ≤ g by grind) (Rat.mul_nonneg (show 0 ≤ g / 4 - y by grind) (show 0 ≤ y - (1 - g / 4) by grind))
      have a2 : (1 : Rat) / 2 ≤ g * (g / 4) * (1 - g / 4) := by
        have b1 := Rat.mul_nonneg (Rat.mul_nonneg (show 0 ≤ g - 2 by grind) (show 0 ≤ g by grind)) (show 0 ≤ 3 - g by grind)
        have b2 := Rat.mul_nonneg (show 0 ≤ g - 2 by grind) (show 0 ≤ 3 - g by grind)
        grind
      grind
    · have := Rat.mul_nonneg (show 0 ≤ g by grind) (rat_sq_nonneg (1 - 2 * y))
      grind

/-- Two steps multiply the distance to the fixed point by a factor that is not negative and less than a number less than 1. -/
theorem logistic_two {g y : Rat} (hg : 2 < g) (hg3 : g < 3) (h1 : 1 / 2 ≤ y) (h2 : y ≤ g / 4) :
    0 ≤ (1 - g * y) * (1 - g * (g * y * (1 - y))) ∧
    (1 - g * y) * (1 - g * (g * y * (1 - y))) ≤ 1 - g / 2 * ((g + 1) * (3 - g) / 4) := by
  have h3 := logistic_stays (by grind) (by grind) h1 h2 1
  simp only [logistic] at h3
  have a1 : 0 ≤ g * y - 1 := by
    have := Rat.mul_nonneg (show 0 ≤ g by grind) (show 0 ≤ y - 1 / 2 by grind)
    grind
  have a2 : 0 ≤ g * (g * y * (1 - y)) - 1 := by
    have := Rat.mul_nonneg (show 0 ≤ g by grind) (show 0 ≤ g * y * (1 - y) - 1 / 2 by grind)
    grind
  refine ⟨?_, ?_⟩
  · have := Rat.mul_nonneg a1 a2
    grind
  · have b0 : 0 ≤ (g + 1) * (3 - g) / 4 := by
      have := Rat.mul_nonneg (show 0 ≤ g + 1 by grind) (show 0 ≤ 3 - g by grind)
      grind
    have b1 := Rat.mul_nonneg (show 0 ≤ g * y - g / 2 by
      have := Rat.mul_nonneg (show 0 ≤ g by grind) (show 0 ≤ y - 1 / 2 by grind)
      grind) b0
    have b2 := Rat.mul_nonneg (show 0 ≤ g * y by grind) (rat_sq_nonneg (g * y - (g + 1) / 2))
    grind

theorem logistic_fast {g x : Rat} (hg : 2 < g) (hg3 : g < 3) (hx : 0 < x) (hx1 : x < 1) : Tends (logistic g x) (1 - 1 / g) := by
  obtain ⟨N, hN1, hN2⟩ := logistic_enters hg (by grind) hx hx1
  have hs : ∀ t, 1 / 2 ≤ logistic g x (N + t) ∧ logistic g x (N + t) ≤ g / 4 := by
    intro t
    rw [logistic_add]
    exact logistic_stays (by grind) (by grind) hN1 hN2 t
  have hd := logistic_distance (show g ≠ 0 by grind) x
  have h2 : ∀ t, logistic g x (N + t + 1 + 1) - (1 - 1 / g) = (logistic g x (N + t) - (1 - 1 / g)) *
      ((1 - g * logistic g x (N + t)) * (1 - g * (g * logistic g x (N + t) * (1 - logistic g x (N + t))))) := by
    intro t
    rw [hd, hd, Rat.mul_assoc]
    rfl
  have hb : 0 < g / 2 * ((g + 1) * (3 - g) / 4) := by
    have := Rat.mul_pos (show 0 < g by grind) (Rat.mul_pos (show 0 < g + 1 by grind) (show 0 < 3 - g by grind))
    grind
  have hb1 : 0 ≤ 1 - g / 2 * ((g + 1) * (3 - g) / 4) := by
    have := logistic_two hg hg3 hN1 hN2
    grind
  refine tends_shift N (tends_two ?_ ?_)
  · exact tends_of_factors hb1 (by grind) (fun n => by
      have := h2 (2 * n)
      simp only [show N + 2 * (n + 1) = N + 2 * n + 1 + 1 by omega]
      exact this) (fun n => logistic_two hg hg3 (hs (2 * n)).1 (hs (2 * n)).2)
  · exact tends_of_factors hb1 (by grind) (fun n => by
      have := h2 (2 * n + 1)
      simp only [show N + (2 * (n + 1) + 1) = N + (2 * n + 1) + 1 + 1 by omega]
      exact this) (fun n => logistic_two hg hg3 (hs (2 * n + 1)).1 (hs (2 * n + 1)).2)

/-- A sequence that is not negative and falls by at least its square tends to 0. -/
theorem falls {z : Nat → Rat} (h0 : ∀ n, 0 ≤ z n) (h1 : ∀ n, z (n + 1) ≤ z n * (1 - z n)) (n : Nat) : z n * (n : Rat) ≤ 1 := by
  induction n with
  | zero => grind
  | succ n ih =>
    have hn : (0 : Rat) ≤ (n : Rat) := by exact_mod_cast Nat.zero_le n
    have e : ((n + 1 : Nat) : Rat) = (n : Rat) + 1 := by push_cast; rfl
    rw [e]
    have a0 := h0 n
    have a0' := h0 (n + 1)
    have a1 := h1 n
    generalize z n = a at *
    generalize z (n + 1) = b at *
    have hz1 : a ≤ 1 := by
      by_cases h : a ≤ 1
      · exact h
      · have := Rat.mul_pos (show 0 < a by grind) (show 0 < a - 1 by grind)
        grind
    have b3 := Rat.mul_nonneg (show 0 ≤ a * (1 - a) - b by grind) (show 0 ≤ (n : Rat) + 1 by grind)
    have b4 := Rat.mul_nonneg (show 0 ≤ 1 - a * (n : Rat) by grind) (show 0 ≤ 1 - a by grind)
    have b5 := rat_sq_nonneg (1 - a)
    have b6 := rat_sq_nonneg a
    grind

theorem tends_of_squares {a : Nat → Rat} {l c : Rat} (hc : 0 < c)
    (h : ∀ n, (a (n + 1) - l) ^ 2 ≤ (a n - l) ^ 2 * (1 - c * (a n - l) ^ 2)) : Tends a l := by
  intro ε he
  have h1 := falls (z := fun n => c * (a n - l) ^ 2) (fun n => Rat.mul_nonneg (by grind) (rat_sq_nonneg _)) (fun n => by
    have := Rat.mul_nonneg (show 0 ≤ c by grind) (show 0 ≤ (a n - l) ^ 2 * (1 - c * (a n - l) ^ 2) - (a (n + 1) - l) ^ 2 by have := h n; grind)
    grind)
  have he2 : 0 < ε ^ 2 := by rw [Rat.pow_succ, Rat.pow_succ, Rat.pow_zero, Rat.one_mul]; exact Rat.mul_pos he he
  have hd : 0 < c * ε ^ 2 := Rat.mul_pos hc he2
  obtain ⟨N, hN⟩ := rat_le_nat (1 / (c * ε ^ 2))
  refine ⟨N + 1, fun t ht => ?_⟩
  have h2 := h1 t
  have hNt : (N : Rat) + 1 ≤ (t : Rat) := by exact_mod_cast ht
  have h3 : 1 / (c * ε ^ 2) * (c * ε ^ 2) = 1 := Rat.div_mul_cancel (by grind)
  have h4 := Rat.mul_pos (show 0 < (t : Rat) - 1 / (c * ε ^ 2) by grind) hd
  have key : (a t - l) ^ 2 < ε ^ 2 := by
    by_cases h : (a t - l) ^ 2 < ε ^ 2
    · exact h
    · have ht0 : 0 ≤ c * (t : Rat) := Rat.mul_nonneg (by grind) (by exact_mod_cast Nat.zero_le t)
      have := Rat.mul_nonneg (show 0 ≤ (a t - l) ^ 2 - ε ^ 2 by grind) ht0
      grind
  generalize hda : a t - l = d at *
  have k1 : d < ε := by
    by_cases h : d < ε
    · exact h
    · have := Rat.mul_nonneg (show 0 ≤ d - ε by grind) (show 0 ≤ d + ε by grind)
      grind
  have k2 : -ε < d := by
    by_cases h : -ε < d
    · exact h
    · have := Rat.mul_nonneg (show 0 ≤ -d - ε by grind) (show 0 ≤ ε - d by grind)
      grind
  constructor <;> grind

theorem logistic_three {x : Rat} (hx : 0 < x) (hx1 : x < 1) : Tends (logistic 3 x) (2 / 3) := by
  obtain ⟨N, hN1, hN2⟩ := logistic_enters (show (2 : Rat) < 3 by decide +kernel) (by decide +kernel) hx hx1
  have hs : ∀ t, 1 / 2 ≤ logistic 3 x (N + t) ∧ logistic 3 x (N + t) ≤ 3 / 4 := by
    intro t
    rw [logistic_add]
    exact logistic_stays (by decide +kernel) (by decide +kernel) hN1 hN2 t
  have h2 : ∀ t, (logistic 3 x (N + t + 1 + 1) - 2 / 3) ^ 2 ≤
      (logistic 3 x (N + t) - 2 / 3) ^ 2 * (1 - 27 / 2 * (logistic 3 x (N + t) - 2 / 3) ^ 2) := by
    intro t
    have hst := hs t
    have hst1 := hs (t + 1)
    rw [← Nat.add_assoc] at hst1
    simp only [logistic] at hst1 ⊢
    generalize logistic 3 x (N + t) = y at *
    have e : 3 * (3 * y * (1 - y)) * (1 - 3 * y * (1 - y)) - 2 / 3 = (y - 2 / 3) * (1 - 27 * y * (y - 2 / 3) ^ 2) := by grind
    rw [e]
    have k0 : 0 ≤ 1 - 27 * y * (y - 2 / 3) ^ 2 := by
      have := Rat.mul_nonneg (show 0 ≤ 3 * y - 1 by grind) (show 0 ≤ 3 * (3 * y * (1 - y)) - 1 by grind)
      grind
    have k1 : 1 - 27 * y * (y - 2 / 3) ^ 2 ≤ 1 - 27 / 2 * (y - 2 / 3) ^ 2 := by
      have := Rat.mul_nonneg (rat_sq_nonneg (y - 2 / 3)) (show 0 ≤ y - 1 / 2 by grind)
      grind
    have k2 : 1 - 27 * y * (y - 2 / 3) ^ 2 ≤ 1 := by
      have := Rat.mul_nonneg (rat_sq_nonneg (y - 2 / 3)) (show 0 ≤ y by grind)
      grind
    generalize 1 - 27 * y * (y - 2 / 3) ^ 2 = k at *
    have s0 := rat_sq_nonneg (y - 2 / 3)
    have m1 := Rat.mul_nonneg s0 (Rat.mul_nonneg k0 (show 0 ≤ 1 - k by grind))
    have m2 := Rat.mul_nonneg s0 (show 0 ≤ 1 - 27 / 2 * (y - 2 / 3) ^ 2 - k by grind)
    generalize hd : y - 2 / 3 = d at *
    grind
  refine tends_shift N (tends_two ?_ ?_)
  · exact tends_of_squares (c := 27 / 2) (by decide +kernel) (fun n => by
      have := h2 (2 * n)
      simp only [show N + 2 * (n + 1) = N + 2 * n + 1 + 1 by omega]
      exact this)
  · exact tends_of_squares (c := 27 / 2) (by decide +kernel) (fun n => by
      have := h2 (2 * n + 1)
      simp only [show N + (2 * (n + 1) + 1) = N + (2 * n + 1) + 1 + 1 by omega]
      exact this)

/-- C156: with a rate of more than 1 and at most 3 every population between 0 and 1 tends to `1 - 1/g`. -/
theorem C156_converges {g x : Rat} (hg : 1 < g) (hg3 : g ≤ 3) (hx : 0 < x) (hx1 : x < 1) : Tends (logistic g x) (1 - 1 / g) := by
  by_cases h : g ≤ 2
  · exact logistic_slow hg h hx hx1
  · by_cases h3 : g < 3
    · exact logistic_fast (by grind) h3 hx hx1
    · obtain rfl : g = 3 := by grind
      rw [show (1 : Rat) - 1 / 3 = 2 / 3 by decide +kernel]
      exact logistic_three hx hx1

/-! ## Rates above 3 -/

/-- A limit of populations is a fixed point. -/
theorem logistic_limit {g x l : Rat} (hg : 0 ≤ g) (hg4 : g ≤ 4) (hx : 0 ≤ x) (hx1 : x ≤ 1) (h : Tends (logistic g x) l) :
    g * l * (1 - l) = l := by
  have hu := fun t => C103_unit hg hg4 hx hx1 t
  have hl0 : 0 ≤ l := by
    by_cases h0 : 0 ≤ l
    · exact h0
    · obtain ⟨N, hN⟩ := h (-l) (by grind)
      have := hN N (Nat.le_refl _)
      have := (hu N).1
      grind
  have hl1 : l ≤ 1 := by
    by_cases h0 : l ≤ 1
    · exact h0
    · obtain ⟨N, hN⟩ := h (l - 1) (by grind)
      have := hN N (Nat.le_refl _)
      have := (hu N).2.1
      grind
  have key : ∀ ε, 0 < ε → g * l * (1 - l) - l ≤ (g + 1) * ε ∧ -((g + 1) * ε) ≤ g * l * (1 - l) - l := by
    intro ε he
    obtain ⟨N, hN⟩ := h ε he
    have h1 := hN N (Nat.le_refl _)
    have h2 := hN (N + 1) (by omega)
    have h3 := hu N
    simp only [logistic] at h2
    generalize logistic g x N = a at *
    have p1 := Rat.mul_nonneg (show 0 ≤ ε - (a - l) by grind) (show 0 ≤ 1 - (1 - a - l) by grind)
    have p2 := Rat.mul_nonneg (show 0 ≤ ε + (a - l) by grind) (show 0 ≤ 1 + (1 - a - l) by grind)
    have p3 := Rat.mul_nonneg (show 0 ≤ ε - (a - l) by grind) (show 0 ≤ 1 + (1 - a - l) by grind)
    have p4 := Rat.mul_nonneg (show 0 ≤ ε + (a - l) by grind) (show 0 ≤ 1 - (1 - a - l) by grind)
    have q1 := Rat.mul_nonneg hg (show 0 ≤ ε + (a - l) * (1 - a - l) by grind)
    have q2 := Rat.mul_nonneg hg (show 0 ≤ ε - (a - l) * (1 - a - l) by grind)
    have e : g * a * (1 - a) - g * l * (1 - l) = g * ((a - l) * (1 - a - l)) := by grind
    constructor <;> grind
  have hgp : 0 < g + 1 := by grind
  have hdiv : ∀ d : Rat, (g + 1) * (d / (2 * (g + 1))) = d / 2 := by intro d; grind
  have hpos : ∀ d : Rat, 0 < d → 0 < d / (2 * (g + 1)) := by
    intro d hd
    rw [Rat.div_def]
    exact Rat.mul_pos hd (Rat.inv_pos.2 (by grind))
  generalize hd : g * l * (1 - l) - l = d at *
  by_cases h0 : d = 0
  · grind
  rcases Rat.le_total (a := 0) (b := d) with h1 | h1
  · have := key _ (hpos d (by grind))
    rw [hdiv] at this
    grind
  · have := key _ (hpos (-d) (by grind))
    rw [hdiv] at this
    grind

/-- A sequence whose distance to `l` is not made smaller near `l` reaches `l` if it tends to `l`. -/
theorem tends_reaches {a k : Nat → Rat} {l c : Rat} (hc : 0 < c) (ha : ∀ n, a (n + 1) - l = (a n - l) * k n)
    (hk : ∀ n, l - c < a n → a n < l + c → 1 ≤ k n ∨ k n ≤ -1) (h : Tends a l) : ∃ N, a N = l := by
  obtain ⟨N, hN⟩ := h c hc
  refine ⟨N, ?_⟩
  have key : ∀ t, (a N - l) ^ 2 ≤ (a (N + t) - l) ^ 2 := by
    intro t
    induction t with
    | zero => exact Rat.le_refl
    | succ t ih =>
      have h1 := hN (N + t) (by omega)
      have h2 : 1 ≤ k (N + t) ^ 2 := by
        rcases hk (N + t) h1.1 h1.2 with h | h
        · have := Rat.mul_nonneg (show 0 ≤ k (N + t) - 1 by grind) (show 0 ≤ k (N + t) + 1 by grind)
          grind
        · have := Rat.mul_nonneg (show 0 ≤ -1 - k (N + t) by grind) (show 0 ≤ 1 - k (N + t) by grind)
          grind
      have h3 := Rat.mul_nonneg (rat_sq_nonneg (a (N + t) - l)) (show 0 ≤ k (N + t) ^ 2 - 1 by grind)
      rw [← Nat.add_assoc, ha (N + t)]
      grind
  have hfar : ∀ e, 0 < e → e ^ 2 ≤ (a N - l) ^ 2 → False := by
    intro e he h2
    obtain ⟨M, hM⟩ := h e he
    have h3 := hM (N + M) (by omega)
    have h4 := key M
    generalize a (N + M) - l = d at *
    have h5 := Rat.mul_pos (show 0 < e - (a (N + M) - l) by grind) (show 0 < e + (a (N + M) - l) by grind)
    grind
  rcases Rat.le_total (a := a N) (b := l) with h1 | h1
  · by_cases h2 : a N = l
    · exact h2
    · exact (hfar (l - a N) (by grind) (by grind)).elim
  · by_cases h2 : a N = l
    · exact h2
    · exact (hfar (a N - l) (by grind) Rat.le_refl).elim

/-- With a rate between 3 and 4 a population that tends to anything reaches 0 or the fixed point exactly. -/
theorem logistic_reaches {g x l : Rat} (hg : 3 < g) (hg4 : g ≤ 4) (hx : 0 ≤ x) (hx1 : x ≤ 1) (h : Tends (logistic g x) l) :
    (∃ N, logistic g x N = 0) ∨ ∃ N, logistic g x N = 1 - 1 / g := by
  have hf := logistic_limit (by grind) hg4 hx hx1 h
  have hgi : g * (1 / g) = 1 := by grind
  have hl : l * (g * (1 - l) - 1) = 0 := by grind
  rcases Rat.mul_eq_zero.1 hl with rfl | hl
  · left
    refine tends_reaches (c := 1 / 2) (k := fun n => g * (1 - logistic g x n)) (by decide +kernel) ?_ ?_ h
    · intro n; simp only [logistic]; grind
    · intro n _ h2
      left
      have := Rat.mul_nonneg (show 0 ≤ g by grind) (show 0 ≤ 1 / 2 - logistic g x n by grind)
      grind
  · right
    have hl' : l = 1 - 1 / g := by
      have h2 : g * (l - (1 - 1 / g)) = 0 := by grind
      have := (Rat.mul_eq_zero.1 h2).resolve_left (by grind)
      grind
    subst hl'
    have hpos : 0 < (g - 3) / g := by
      rw [Rat.div_def]
      exact Rat.mul_pos (by grind) (Rat.inv_pos.2 (by grind))
    have hgc : g * ((g - 3) / g) = g - 3 := by grind
    refine tends_reaches hpos (logistic_distance (by grind) x) ?_ h
    intro n h1 _
    right
    have := Rat.mul_pos (show 0 < g by grind) (show 0 < logistic g x n - (1 - 1 / g - (g - 3) / g) by grind)
    grind

theorem rat_mul_den (g : Rat) : g * (g.den : Rat) = (g.num : Rat) := by
  have h : g = (g.num : Rat) / (g.den : Rat) := by
    conv => lhs; rw [← Rat.num_divInt_den g]
    rw [Rat.divInt_eq_div]
    rfl
  have hd : (g.den : Rat) ≠ 0 := by
    have := g.den_nz
    exact_mod_cast this
  conv => lhs; lhs; rw [h]
  exact Rat.div_mul_cancel hd

/-- From `1/2`, with a rate `a / b` in lowest terms, the denominators contain `b`, and nothing of it cancels. -/
theorem logistic_fraction (g : Rat) (t : Nat) : ∃ A D : Int, D ≠ 0 ∧ (g.den : Int) ∣ D ∧ (∀ k, (g.den : Int) ∣ A * k → (g.den : Int) ∣ k) ∧
    logistic g (1 / 2) (t + 1) * (D : Rat) = (A : Rat) := by
  have hden : (g.den : Int) ≠ 0 := by exact_mod_cast g.den_nz
  have hg : g * ((g.den : Int) : Rat) = (g.num : Rat) := by
    have := rat_mul_den g
    exact_mod_cast this
  have hnum : ∀ k, (g.den : Int) ∣ g.num * k → (g.den : Int) ∣ k := by
    intro k hk
    have hc := g.reduced
    rw [Int.ofNat_dvd_left] at hk ⊢
    rw [Int.natAbs_mul] at hk
    exact (Nat.Coprime.symm hc).dvd_of_dvd_mul_left hk
  induction t with
  | zero =>
    refine ⟨g.num, 4 * (g.den : Int), by omega, ⟨4, by rw [Int.mul_comm]⟩, hnum, ?_⟩
    simp only [logistic]
    rw [← hg]
    push_cast
    grind
  | succ t ih =>
    obtain ⟨A, D, hD, hdvd, hA, hx⟩ := ih
    refine ⟨g.num * (A * (D - A)), (g.den : Int) * (D * D), ?_, ⟨D * D, rfl⟩, ?_, ?_⟩
    · exact Int.mul_ne_zero hden (Int.mul_ne_zero hD hD)
    · intro k hk
      rw [Int.mul_assoc] at hk
      have h1 := hnum _ hk
      rw [Int.mul_assoc] at h1
      have h2 := hA _ h1
      have h3 : (g.den : Int) ∣ A * k := by
        have h4 : A * k = D * k - (D - A) * k := by grind
        rw [h4]
        exact Int.dvd_sub (Int.dvd_trans hdvd ⟨k, rfl⟩) h2
      exact hA k h3
    · rw [show t + 1 + 1 = (t + 1) + 1 from rfl]
      rw [logistic]
      push_cast
      rw [← hx, ← hg]
      push_cast
      grind

/-- C156: with a rate between 3 and 4 the population that starts with `1/2` does not tend to anything. -/
theorem C156_wanders {g : Rat} (hg : 3 < g) (hg4 : g < 4) : ¬ ∃ l, Tends (logistic g (1 / 2)) l := by
  rintro ⟨l, h⟩
  have hone : ¬ (g.den : Int) ∣ 1 := by
    intro hd
    have h1 : g.den = 1 := by
      have : g.den ∣ 1 := by exact_mod_cast hd
      exact Nat.dvd_one.1 this
    have h2 : g = (g.num : Rat) := by
      have := rat_mul_den g
      rw [h1] at this
      grind
    rw [h2] at hg hg4
    have a1 : (3 : Int) < g.num := by exact_mod_cast hg
    have a2 : g.num < (4 : Int) := by exact_mod_cast hg4
    omega
  have hstep : ∀ {v N}, logistic g (1 / 2) N = v → (g * v * (1 - v) = v) → logistic g (1 / 2) (N + 1) = v := by
    intro v N h1 h2
    simp only [logistic, h1, h2]
  rcases logistic_reaches hg (by grind) (by decide +kernel) (by decide +kernel) h with ⟨N, hN⟩ | ⟨N, hN⟩
  · have hN' := hstep hN (by grind)
    obtain ⟨A, D, hD, hdvd, hA, hx⟩ := logistic_fraction g N
    rw [hN', Rat.zero_mul] at hx
    have hA0 : A = 0 := by exact_mod_cast hx.symm
    exact hone (hA 1 (by rw [hA0]; simp))
  · have hgi : g * (1 / g) = 1 := by grind
    have hN' := hstep hN (by grind)
    obtain ⟨A, D, hD, hdvd, hA, hx⟩ := logistic_fraction g N
    rw [hN'] at hx
    have h1 : g * (A : Rat) = (g - 1) * (D : Rat) := by rw [← hx]; grind
    have hgd : g * ((g.den : Int) : Rat) = (g.num : Rat) := by
      have := rat_mul_den g
      exact_mod_cast this
    have h2 : (g.num : Rat) * (A : Rat) = ((g.num : Rat) - ((g.den : Int) : Rat)) * (D : Rat) := by rw [← hgd]; grind
    have h3 : A * g.num = (g.num - (g.den : Int)) * D := by
      have : ((A * g.num : Int) : Rat) = (((g.num - (g.den : Int)) * D : Int) : Rat) := by
        push_cast
        push_cast at h2
        grind
      exact_mod_cast this
    have h4 : (g.den : Int) ∣ A * g.num := by
      rw [h3]
      exact Int.dvd_trans hdvd ⟨g.num - g.den, by rw [Int.mul_comm]⟩
    have h5 := hA _ h4
    have h6 : g.den ∣ g.num.natAbs := by rw [← Int.ofNat_dvd_left]; exact h5
    have h7 : g.den = 1 := by
      have := Nat.Coprime.eq_one_of_dvd (Nat.Coprime.symm g.reduced) h6
      exact this
    exact hone (by rw [h7]; exact ⟨1, rfl⟩)

/-- C156: with the rate 4 the population that starts with `1/2` is dead from the second timestep on. -/
theorem C156_four (t : Nat) : logistic 4 (1 / 2) 1 = 1 ∧ logistic 4 (1 / 2) (t + 2) = 0 := by
  have h1 : logistic 4 (1 / 2) 1 = 1 := by decide +kernel
  refine ⟨h1, ?_⟩
  induction t with
  | zero => decide +kernel
  | succ t ih =>
    rw [show t + 1 + 2 = (t + 2) + 1 by omega, logistic, ih]
    decide +kernel

section
variable {I σ κ : Type} [DecidableEq κ]

/-- C156: what the nodes of the three demos show, whatever the growth rates from 0 to 4, when every population starts with `1/2`: a node
with a rate of at most 1 is below `1 / (t + 1)` at timestep `t`; for a rate of more than 1 and at most 3 there is for each `ε` a timestep,
which depends on the rate alone, from which on the node is closer than `ε` to `1 - 1/g`; for a rate between 3 and 4 there is an `ε` for each
value such that the node is again and again farther than `ε` from it; and with the rate 4 it shows 0 from timestep 2 on. -/
theorem C156_demos {cfg : Config Nat Rat Rat I σ κ} {T : Nat} (hT : 1 ≤ T) (h : cfg.Ordinary logisticRule T) (hm : cfg.memoize = false)
    (hn : cfg.natLabel = id) {rates : List Rat} (hne : rates ≠ []) (hrates : ∀ g ∈ rates, 0 ≤ g ∧ g ≤ 4) {r : Nat} {w : World Nat Rat σ}
    (hr : w.heap[r]? = some (logisticNetwork rates)) {fuel : Nat} (hfu : T ≤ fuel) :
    ∃ res, ∃ pop : Rat → Nat → Rat, evolve fuel cfg (some (.list (List.replicate rates.length (1 / 2)))) r w = .ok res ∧
      ShowsRun cfg res T rates.length (fun t x => pop (rates.getD x 0) t) ∧
      (∀ g ∈ rates, pop g 0 = 1 / 2 ∧
        (g ≤ 1 → ∀ t, 0 ≤ pop g t ∧ pop g t * ((t : Rat) + 1) ≤ 1) ∧
        (1 < g → g ≤ 3 → Tends (pop g) (1 - 1 / g)) ∧
        (3 < g → g < 4 → ∀ l, ∃ ε, 0 < ε ∧ ∀ N, ∃ t, N ≤ t ∧ (pop g t ≤ l - ε ∨ l + ε ≤ pop g t)) ∧
        (g = 4 → ∀ t, pop g (t + 2) = 0)) := by
  obtain ⟨i1, i2, i3⟩ := initDict_list hn (cfg := cfg) (List.replicate rates.length (1 / 2 : Rat))
  obtain ⟨res, h1, h2⟩ := C103_run hT h hm hne (s := fun _ => 1 / 2) (init := some (.list (List.replicate rates.length (1 / 2))))
    (by rw [i1]; simp) (by
      intro x hx
      rw [i3 x (by simpa using hx)]
      simp [hx]) hr hfu
  refine ⟨res, fun g => logistic g (1 / 2), h1, h2, ?_⟩
  intro g hg
  have hb := hrates g hg
  refine ⟨rfl, ?_, ?_, ?_, ?_⟩
  · intro hg1 t
    exact ⟨(C103_unit hb.1 hb.2 (by decide +kernel) (by decide +kernel) t).1,
      C156_extinct hb.1 hg1 (by decide +kernel) (by decide +kernel) t⟩
  · intro h1 h3
    exact C156_converges h1 h3 (by decide +kernel) (by decide +kernel)
  · intro h3 h4 l
    have hw := C156_wanders h3 h4
    by_cases hall : ∃ ε, 0 < ε ∧ ∀ N, ∃ t, N ≤ t ∧ (logistic g (1 / 2) t ≤ l - ε ∨ l + ε ≤ logistic g (1 / 2) t)
    · exact hall
    · exfalso
      refine hw ⟨l, ?_⟩
      intro ε he
      by_cases hN : ∃ N, ∀ t, N ≤ t → l - ε < logistic g (1 / 2) t ∧ logistic g (1 / 2) t < l + ε
      · exact hN
      · exfalso
        refine hall ⟨ε, he, fun N => ?_⟩
        by_cases ht : ∃ t, N ≤ t ∧ (logistic g (1 / 2) t ≤ l - ε ∨ l + ε ≤ logistic g (1 / 2) t)
        · exact ht
        · exact (hN ⟨N, fun t hNt => ⟨Rat.not_le.1 fun h' => ht ⟨t, hNt, .inl h'⟩, Rat.not_le.1 fun h' => ht ⟨t, hNt, .inr h'⟩⟩⟩).elim
  · rintro rfl t
    exact (C156_four t).2

end

/-- The three demos: the growth rates of the first, and those of `np.linspace` in the other two. -/
example (rates : List Rat) (hr : rates = [1/2, 1, 3/2, 2, 5/2, 3, 7/2] ∨ rates = (List.range 1000).map (fun i : Nat => 4 * (i : Rat) / 999) ∨
    rates = (List.range 50).map (fun i : Nat => 18/5 + 2/5 * (i : Rat) / 49)) (T : Nat) (hT : 1 ≤ T) :
    ∃ res, ∃ pop : Rat → Nat → Rat, evolve T (Ex.dynCall id 0 logisticRule T false) (some (.list (List.replicate rates.length (1 / 2)))) 0
        ⟨[logisticNetwork rates], ()⟩ = .ok res ∧
      ShowsRun (Ex.dynCall id 0 logisticRule T false) res T rates.length (fun t x => pop (rates.getD x 0) t) ∧
      ∀ g ∈ rates, (1 < g → g ≤ 3 → Tends (pop g) (1 - 1 / g)) ∧ (g = 4 → ∀ t, pop g (t + 2) = 0) := by
  have hb : rates ≠ [] ∧ ∀ g ∈ rates, 0 ≤ g ∧ g ≤ 4 := by
    rcases hr with hr | hr | hr
    · rw [hr]; decide +kernel
    · refine ⟨fun h => ?_, fun g hg => ?_⟩
      · have := congrArg List.length (hr.symm.trans h)
        simp only [List.length_map, List.length_range, List.length_nil] at this
        omega
      rw [hr] at hg
      obtain ⟨i, hi, rfl⟩ := List.mem_map.1 hg
      have h1 : (0 : Rat) ≤ (i : Rat) := by exact_mod_cast Nat.zero_le i
      have h2 : (i : Rat) ≤ 999 := by
        have : i ≤ 999 := by have := List.mem_range.1 hi; omega
        exact_mod_cast this
      constructor <;> grind
    · rw [hr]; decide +kernel
  obtain ⟨res, pop, h1, h2, h3⟩ := C156_demos hT (Ex.dynCall_ordinary id 0 logisticRule T false) rfl rfl hb.1 hb.2 (r := 0)
    (w := ⟨[logisticNetwork rates], ()⟩) rfl (Nat.le_refl T)
  exact ⟨res, pop, h1, h2, fun g hg => ⟨(h3 g hg).2.2.1, (h3 g hg).2.2.2.2⟩⟩

/-- The last node of the second and of the third demo has the rate 4. -/
example : ((List.range 1000).map (fun i : Nat => 4 * (i : Rat) / 999))[999]? = some 4 ∧
    ((List.range 50).map (fun i : Nat => 18/5 + 2/5 * (i : Rat) / 49))[49]? = some 4 := by
  refine ⟨?_, ?_⟩ <;> (rw [List.getElem?_map, List.getElem?_range (by omega)]; decide +kernel)

/-- The rate 7/2 of the first demo: the first populations. -/
example : (List.range 4).map (logistic (7/2) (1/2)) = [1/2, 7/8, 49/128, 27097/32768] := by decide +kernel

end Verif
