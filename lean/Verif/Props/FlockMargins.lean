import Verif.Props.Flock
/-! # Property C153: whether boids come back at the margins -/

namespace Verif
open Spec

/-! ## Lone boids -/

theorem wish_alone (p : FlockParams) (a : Boid) :
    wish p a [] = (a.vx + turning p.low p.high p.turn a.x, a.vy + turning p.low p.high p.turn a.y) := by
  unfold wish cohesion
  simp [Rat.add_zero]

/-- The factor is positive. -/
theorem limitFactor_pos {lo hi s : Rat} (hlo : 0 < lo) (hlh : lo ≤ hi) (hs : 0 < s) : 0 < limitFactor lo hi s := by
  have hd : ∀ q : Rat, 0 < q → 0 < q / s := fun q hq => by
    rw [Rat.div_def]
    exact Rat.mul_pos hq (Rat.inv_pos.2 hs)
  unfold limitFactor
  split
  · exact hd _ hlo
  · split
    · exact hd _ (by grind)
    · decide

/-- A speed times its factor is at least the lower limit and at most the upper one. -/
theorem limitFactor_speed {lo hi s : Rat} (hlh : lo ≤ hi) (hs : 0 < s) :
    lo ≤ limitFactor lo hi s * s ∧ limitFactor lo hi s * s ≤ hi := by
  have hd : ∀ q : Rat, q / s * s = q := fun q => Rat.div_mul_cancel (by grind)
  unfold limitFactor
  split
  · rw [hd]; grind
  · split
    · rw [hd]; grind
    · rw [Rat.one_mul]; grind

/-! ## Turning -/

theorem rat_le_nat (q : Rat) : ∃ n : Nat, q ≤ (n : Rat) := by
  refine ⟨(q.floor + 1).toNat, ?_⟩
  have h1 := Rat.lt_floor_add_one q
  have h2 : ((q.floor + 1 : Int) : Rat) ≤ (((q.floor + 1).toNat : Int) : Rat) := by
    rw [Rat.intCast_le_intCast]
    omega
  have h3 : ((((q.floor + 1).toNat : Nat) : Int) : Rat) = (((q.floor + 1).toNat : Nat) : Rat) := rfl
  grind

/-- A velocity `v` to which `turn` is added in every step before it is scaled becomes positive in the end, and the position passes every
bound, provided the other component of the velocity is not 0. -/
theorem comes_back {turn lo hi : Rat} (ht : 0 < turn) (hlo : 0 < lo) (hhi : 0 < hi) {x v w k : Nat → Rat} (hk : ∀ t, 0 < k t)
    (hv : ∀ t, v (t + 1) = k t * (v t + turn)) (hw : ∀ t, w (t + 1) = k t * w t) (hx : ∀ t, x (t + 1) = x t + v (t + 1))
    (hw0 : ∀ t, 0 < w t) (hw1 : ∀ t, w t ≤ hi) (hs : ∀ t, lo ^ 2 ≤ v t ^ 2 + w t ^ 2) (b : Rat) : ∃ t, b ≤ x t := by
  have hmul : ∀ a b : Rat, 0 ≤ a → 0 ≤ b → 0 ≤ a * b := fun a b => Rat.mul_nonneg
  obtain ⟨m, hm⟩ : ∃ m : Rat, m = turn / hi := ⟨_, rfl⟩
  have hmh : m * hi = turn := by rw [hm]; exact Rat.div_mul_cancel (by grind)
  have hm0 : 0 < m := by
    rw [hm, Rat.div_def]
    exact Rat.mul_pos ht (Rat.inv_pos.2 hhi)
  obtain ⟨r, hr⟩ : ∃ r : Rat, v 0 = r * w 0 := ⟨v 0 / w 0, (Rat.div_mul_cancel (by have := hw0 0; grind)).symm⟩
  have key : ∀ t : Nat, (r + m * t) * w t ≤ v t := by
    intro t
    induction t with
    | zero => rw [hr]; simp [Rat.add_zero]
    | succ t ih =>
      rw [hv, hw]
      have h1 := hmul (k t) (v t - (r + m * t) * w t) (by have := hk t; grind) (by grind)
      have h2 := hmul (k t * m) (hi - w t) (hmul _ _ (by have := hk t; grind) (by grind)) (by have := hw1 t; grind)
      have h3 : ((t + 1 : Nat) : Rat) = t + 1 := by simp
      have h4 : k t * (m * hi) = k t * turn := by rw [hmh]
      rw [h3]
      clear hv hw hx hk hw0 hw1 hs hr hm hmh
      generalize k t = K at *
      generalize w t = W at *
      generalize v t = V at *
      generalize (t : Rat) = T at *
      grind
  -- from some step on the velocity is at least `lo / 2`
  obtain ⟨n, hn⟩ : ∃ n : Nat, 1 ≤ r + m * n := by
    obtain ⟨n, hn⟩ := rat_le_nat ((1 - r) / m)
    refine ⟨n, ?_⟩
    have h1 : (1 - r) / m * m = 1 - r := Rat.div_mul_cancel (by grind)
    have h2 := hmul m ((n : Rat) - (1 - r) / m) (by grind) (by grind)
    grind
  have fast : ∀ t, n ≤ t → lo / 2 ≤ v t := by
    intro t htn
    have h0 : (n : Rat) ≤ t := by exact_mod_cast htn
    have h1 : w t ≤ v t := by
      have h1 := hmul (r + m * t - 1) (w t) (by have := hmul m ((t : Rat) - n) (by grind) (by grind); grind) (by have := hw0 t; grind)
      have := key t
      grind
    have hw := hw0 t
    have hvp : 0 < v t := by grind
    apply Classical.byContradiction
    intro hc
    have hc : v t < lo / 2 := by grind
    have h2 := hmul (v t - w t) (v t + w t) (by grind) (by grind)
    have h3 := hmul (lo / 2 - v t) (lo / 2 + v t) (by grind) (by grind)
    have h4 := Rat.mul_pos hlo hlo
    have := hs t
    grind
  have far : ∀ j : Nat, x n + lo / 2 * j ≤ x (n + j) := by
    intro j
    induction j with
    | zero => simp [Rat.add_zero]
    | succ j ih =>
      have h1 := fast (n + j + 1) (by omega)
      have h2 : ((j + 1 : Nat) : Rat) = j + 1 := by simp
      rw [h2, show n + (j + 1) = (n + j) + 1 by omega, hx]
      grind
  obtain ⟨j, hj⟩ := rat_le_nat ((b - x n) / (lo / 2))
  refine ⟨n + j, ?_⟩
  have h1 : (b - x n) / (lo / 2) * (lo / 2) = b - x n := Rat.div_mul_cancel (by grind)
  have h2 := hmul (lo / 2) ((j : Rat) - (b - x n) / (lo / 2)) (by grind) (by grind)
  have := far j
  grind

/-- `root` is the square root up to a factor `c`. -/
def ApproxRoot (c : Rat) (root : Rat → Rat) : Prop := ∀ q, 0 < q → 0 < root q ∧ root q ^ 2 ≤ c ^ 2 * q ∧ q ≤ c ^ 2 * root q ^ 2

/-- The limits of the speed, with a root that is not exact. -/
theorem boidStep_speed {p : FlockParams} {root : Rat → Rat} {c : Rat} (hc : 0 < c) (hroot : ApproxRoot c root) (hlo : 0 < p.minSpeed)
    (hlh : p.minSpeed ≤ p.maxSpeed) (a : Boid) (nbs : List Boid) (h0 : (boidStep p root a nbs).vx ≠ 0 ∨ (boidStep p root a nbs).vy ≠ 0) :
    0 < wishSpeed p root a nbs ∧ (p.minSpeed / c) ^ 2 ≤ (boidStep p root a nbs).vx ^ 2 + (boidStep p root a nbs).vy ^ 2 ∧
      (boidStep p root a nbs).vx ^ 2 + (boidStep p root a nbs).vy ^ 2 ≤ (p.maxSpeed * c) ^ 2 := by
  have sqn : ∀ q : Rat, 0 ≤ q * q := by
    intro q
    by_cases h : 0 ≤ q
    · exact Rat.mul_nonneg h h
    · have := Rat.mul_nonneg (a := -q) (b := -q) (by grind) (by grind)
      grind
  have sqp : ∀ q : Rat, q ≠ 0 → 0 < q * q := by
    intro q h
    by_cases h' : 0 < q
    · exact Rat.mul_pos h' h'
    · have := Rat.mul_pos (a := -q) (b := -q) (by grind) (by grind)
      grind
  have hq : 0 < (wish p a nbs).1 * (wish p a nbs).1 + (wish p a nbs).2 * (wish p a nbs).2 := by
    have e1 := sqn (wish p a nbs).1
    have e2 := sqn (wish p a nbs).2
    rcases h0 with h0 | h0
    · have := sqp (wish p a nbs).1 (fun e => h0 (by unfold boidStep; simp only [e, Rat.mul_zero]))
      grind
    · have := sqp (wish p a nbs).2 (fun e => h0 (by unfold boidStep; simp only [e, Rat.mul_zero]))
      grind
  obtain ⟨r1, r2, r3⟩ := hroot _ hq
  have hw : wishSpeed p root a nbs = root ((wish p a nbs).1 * (wish p a nbs).1 + (wish p a nbs).2 * (wish p a nbs).2) := rfl
  rw [← hw] at r1 r2 r3
  refine ⟨r1, ?_⟩
  obtain ⟨l1, l2⟩ := limitFactor_speed hlh r1
  unfold boidStep
  simp only
  generalize limitFactor p.minSpeed p.maxSpeed (wishSpeed p root a nbs) = k at *
  generalize wishSpeed p root a nbs = S at *
  generalize (wish p a nbs).1 = X at *
  generalize (wish p a nbs).2 = Y at *
  have hmc : p.minSpeed / c * c = p.minSpeed := Rat.div_mul_cancel (by grind)
  have hmp : 0 ≤ p.minSpeed / c := by
    rw [Rat.div_def]
    exact Rat.le_of_lt (Rat.mul_pos hlo (Rat.inv_pos.2 hc))
  generalize p.minSpeed / c = M at *
  have hkk := sqn k
  have g1 := Rat.mul_nonneg hkk (show 0 ≤ c ^ 2 * (X * X + Y * Y) - S ^ 2 by grind)
  have g2 := Rat.mul_nonneg hkk (show 0 ≤ c ^ 2 * S ^ 2 - (X * X + Y * Y) by grind)
  have g3 : p.minSpeed * p.minSpeed ≤ (k * S) * (k * S) := by
    have := Rat.mul_nonneg (a := k * S - p.minSpeed) (b := k * S + p.minSpeed) (by grind) (by grind)
    grind
  have g4 : (k * S) * (k * S) ≤ p.maxSpeed * p.maxSpeed := by
    have := Rat.mul_nonneg (a := p.maxSpeed - k * S) (b := k * S + p.maxSpeed) (by grind) (by grind)
    grind
  constructor
  · have h1 : (M * c) * (M * c) ≤ c * c * ((k * X) ^ 2 + (k * Y) ^ 2) := by
      rw [hmc]
      grind
    apply Classical.byContradiction
    intro hcon
    have h2 := Rat.mul_pos (a := c * c) (b := M ^ 2 - ((k * X) ^ 2 + (k * Y) ^ 2)) (Rat.mul_pos hc hc) (by grind)
    grind
  · have h1 := Rat.mul_nonneg (a := c * c) (b := p.maxSpeed * p.maxSpeed - (k * S) * (k * S)) (sqn c) (by grind)
    grind

theorem sq_le_of_sq {a b hi : Rat} (ha : 0 ≤ a) (hhi : 0 ≤ hi) (h : a ^ 2 + b ^ 2 ≤ hi ^ 2) : a ≤ hi := by
  apply Classical.byContradiction
  intro hc
  have h1 := Rat.mul_nonneg (a := a - hi) (b := a) (by grind) ha
  have h2 := Rat.mul_nonneg (a := a - hi) (b := hi) (by grind) hhi
  have h3 : 0 < (a - hi) * (a - hi) := Rat.mul_pos (by grind) (by grind)
  have h4 : 0 ≤ b * b := by
    by_cases hb : 0 ≤ b
    · exact Rat.mul_nonneg hb hb
    · have := Rat.mul_nonneg (a := -b) (b := -b) (by grind) (by grind)
      grind
  grind

/-- A boid that sees nobody and is turned in one direction all the time, with another component of its velocity. -/
theorem lone_passes {p : FlockParams} {root : Rat → Rat} {c : Rat} (hc : 0 < c) (hroot : ApproxRoot c root) (ht : 0 < p.turn)
    (hlo : 0 < p.minSpeed) (hlh : p.minSpeed ≤ p.maxSpeed)
    {b : Nat → Boid} (hstep : ∀ t, b (t + 1) = boidStep p root (b t) [])
    (hlim : (p.minSpeed / c) ^ 2 ≤ (b 0).vx ^ 2 + (b 0).vy ^ 2 ∧ (b 0).vx ^ 2 + (b 0).vy ^ 2 ≤ (p.maxSpeed * c) ^ 2)
    {e : Rat} (he : e = 1 ∨ e = -1) :
    ((b 0).vy ≠ 0 → (∀ t, turning p.low p.high p.turn (b t).x = e * p.turn ∧ turning p.low p.high p.turn (b t).y = 0) →
      ∀ B, ∃ t, B ≤ e * (b t).x) ∧
    ((b 0).vx ≠ 0 → (∀ t, turning p.low p.high p.turn (b t).y = e * p.turn ∧ turning p.low p.high p.turn (b t).x = 0) →
      ∀ B, ∃ t, B ≤ e * (b t).y) := by
  have hlo' : 0 < p.minSpeed / c := by
    rw [Rat.div_def]
    exact Rat.mul_pos hlo (Rat.inv_pos.2 hc)
  have hhi' : 0 < p.maxSpeed * c := Rat.mul_pos (by grind) hc
  have hkpos : ∀ a : Boid, 0 < (wish p a []).1 * (wish p a []).1 + (wish p a []).2 * (wish p a []).2 →
      0 < limitFactor p.minSpeed p.maxSpeed (wishSpeed p root a []) := fun a h => limitFactor_pos hlo hlh (hroot _ h).1
  have sqn : ∀ q : Rat, 0 ≤ q * q := by
    intro q
    by_cases h : 0 ≤ q
    · exact Rat.mul_nonneg h h
    · have := Rat.mul_nonneg (a := -q) (b := -q) (by grind) (by grind)
      grind
  have hee : e * e = 1 := by rcases he with rfl | rfl <;> grind
  have sgn : ∀ q : Rat, q ≠ 0 → ∃ d : Rat, d * d = 1 ∧ 0 < d * q := by
    intro q hq
    by_cases h : 0 < q
    · exact ⟨1, by grind, by grind⟩
    · exact ⟨-1, by grind, by grind⟩
  have sq : ∀ d q : Rat, d * d = 1 → (d * q) ^ 2 = q ^ 2 := by
    intro d q hd
    have : (d * q) ^ 2 = (d * d) * q ^ 2 := by grind
    rw [this, hd, Rat.one_mul]
  constructor
  · intro h0 hturn B
    obtain ⟨d, hd, hd0⟩ := sgn _ h0
    have hvx : ∀ t, (b (t + 1)).vx = limitFactor p.minSpeed p.maxSpeed (wishSpeed p root (b t) []) * ((b t).vx + e * p.turn) := by
      intro t
      rw [hstep, boidStep, wish_alone]
      simp only [(hturn t).1]
    have hvy : ∀ t, (b (t + 1)).vy = limitFactor p.minSpeed p.maxSpeed (wishSpeed p root (b t) []) * (b t).vy := by
      intro t
      rw [hstep, boidStep, wish_alone]
      simp only [(hturn t).2, Rat.add_zero]
    have hx : ∀ t, (b (t + 1)).x = (b t).x + (b (t + 1)).vx := by
      intro t
      rw [hstep]
      rfl
    have hpk : ∀ t, 0 < d * (b t).vy → 0 < limitFactor p.minSpeed p.maxSpeed (wishSpeed p root (b t) []) := by
      intro t h
      apply hkpos
      rw [wish_alone, (hturn t).2]
      have h1 := sqn ((b t).vx + turning p.low p.high p.turn (b t).x)
      have h2 := Rat.mul_pos h h
      have h3 : d * (b t).vy * (d * (b t).vy) = (d * d) * ((b t).vy * (b t).vy) := by grind
      rw [h3, hd, Rat.one_mul] at h2
      simp only [Rat.add_zero]
      grind
    have hpos : ∀ t, 0 < d * (b t).vy := by
      intro t
      induction t with
      | zero => exact hd0
      | succ t ih =>
        have := Rat.mul_pos (hpk t ih) ih
        rw [hvy]
        grind
    have hk := fun t => hpk t (hpos t)
    have hlims : ∀ t, (p.minSpeed / c) ^ 2 ≤ (b t).vx ^ 2 + (b t).vy ^ 2 ∧ (b t).vx ^ 2 + (b t).vy ^ 2 ≤ (p.maxSpeed * c) ^ 2 := by
      intro t
      cases t with
      | zero => exact hlim
      | succ t =>
        have h1 := hpos (t + 1)
        rw [hstep] at h1 ⊢
        exact (boidStep_speed hc hroot hlo hlh _ _ (Or.inr (fun e => by rw [e, Rat.mul_zero] at h1; exact absurd h1 (by grind)))).2
    refine comes_back (turn := p.turn) (lo := p.minSpeed / c) (hi := p.maxSpeed * c) ht hlo' hhi' (x := fun t => e * (b t).x)
      (v := fun t => e * (b t).vx) (w := fun t => d * (b t).vy) (k := fun t => limitFactor p.minSpeed p.maxSpeed (wishSpeed p root (b t) []))
      hk ?_ ?_ ?_ hpos ?_ ?_ B
    · intro t
      show e * (b (t + 1)).vx = _ * (e * (b t).vx + p.turn)
      rw [hvx]
      generalize limitFactor p.minSpeed p.maxSpeed (wishSpeed p root (b t) []) = k
      have : e * (k * ((b t).vx + e * p.turn)) = k * (e * (b t).vx + (e * e) * p.turn) := by grind
      rw [this, hee, Rat.one_mul]
    · intro t
      show d * (b (t + 1)).vy = _ * (d * (b t).vy)
      rw [hvy]
      grind
    · intro t
      show e * (b (t + 1)).x = e * (b t).x + e * (b (t + 1)).vx
      rw [hx]
      grind
    · intro t
      refine sq_le_of_sq (b := (b t).vx) (by have := hpos t; grind) (by grind) ?_
      rw [sq d _ hd]
      have := (hlims t).2
      grind
    · intro t
      show _ ≤ (e * (b t).vx) ^ 2 + (d * (b t).vy) ^ 2
      rw [sq e _ hee, sq d _ hd]
      exact (hlims t).1
  · intro h0 hturn B
    obtain ⟨d, hd, hd0⟩ := sgn _ h0
    have hvy : ∀ t, (b (t + 1)).vy = limitFactor p.minSpeed p.maxSpeed (wishSpeed p root (b t) []) * ((b t).vy + e * p.turn) := by
      intro t
      rw [hstep, boidStep, wish_alone]
      simp only [(hturn t).1]
    have hvx : ∀ t, (b (t + 1)).vx = limitFactor p.minSpeed p.maxSpeed (wishSpeed p root (b t) []) * (b t).vx := by
      intro t
      rw [hstep, boidStep, wish_alone]
      simp only [(hturn t).2, Rat.add_zero]
    have hy : ∀ t, (b (t + 1)).y = (b t).y + (b (t + 1)).vy := by
      intro t
      rw [hstep]
      rfl
    have hpk : ∀ t, 0 < d * (b t).vx → 0 < limitFactor p.minSpeed p.maxSpeed (wishSpeed p root (b t) []) := by
      intro t h
      apply hkpos
      rw [wish_alone, (hturn t).2]
      have h1 := sqn ((b t).vy + turning p.low p.high p.turn (b t).y)
      have h2 := Rat.mul_pos h h
      have h3 : d * (b t).vx * (d * (b t).vx) = (d * d) * ((b t).vx * (b t).vx) := by grind
      rw [h3, hd, Rat.one_mul] at h2
      simp only [Rat.add_zero]
      grind
    have hpos : ∀ t, 0 < d * (b t).vx := by
      intro t
      induction t with
      | zero => exact hd0
      | succ t ih =>
        have := Rat.mul_pos (hpk t ih) ih
        rw [hvx]
        grind
    have hk := fun t => hpk t (hpos t)
    have hlims : ∀ t, (p.minSpeed / c) ^ 2 ≤ (b t).vx ^ 2 + (b t).vy ^ 2 ∧ (b t).vx ^ 2 + (b t).vy ^ 2 ≤ (p.maxSpeed * c) ^ 2 := by
      intro t
      cases t with
      | zero => exact hlim
      | succ t =>
        have h1 := hpos (t + 1)
        rw [hstep] at h1 ⊢
        exact (boidStep_speed hc hroot hlo hlh _ _ (Or.inl (fun e => by rw [e, Rat.mul_zero] at h1; exact absurd h1 (by grind)))).2
    refine comes_back (turn := p.turn) (lo := p.minSpeed / c) (hi := p.maxSpeed * c) ht hlo' hhi' (x := fun t => e * (b t).y)
      (v := fun t => e * (b t).vy) (w := fun t => d * (b t).vx) (k := fun t => limitFactor p.minSpeed p.maxSpeed (wishSpeed p root (b t) []))
      hk ?_ ?_ ?_ hpos ?_ ?_ B
    · intro t
      show e * (b (t + 1)).vy = _ * (e * (b t).vy + p.turn)
      rw [hvy]
      generalize limitFactor p.minSpeed p.maxSpeed (wishSpeed p root (b t) []) = k
      have : e * (k * ((b t).vy + e * p.turn)) = k * (e * (b t).vy + (e * e) * p.turn) := by grind
      rw [this, hee, Rat.one_mul]
    · intro t
      show d * (b (t + 1)).vx = _ * (d * (b t).vx)
      rw [hvx]
      grind
    · intro t
      show e * (b (t + 1)).y = e * (b t).y + e * (b (t + 1)).vy
      rw [hy]
      grind
    · intro t
      refine sq_le_of_sq (b := (b t).vy) (by have := hpos t; grind) (by grind) ?_
      rw [sq d _ hd]
      exact (hlims t).2
    · intro t
      show _ ≤ (e * (b t).vy) ^ 2 + (d * (b t).vx) ^ 2
      rw [sq e _ hee, sq d _ hd]
      have := (hlims t).1
      grind

theorem turning_low {low high turn x : Rat} (h : low ≤ high) (hx : x < low) : turning low high turn x = 1 * turn := by
  unfold turning
  rw [if_neg (by grind), if_pos hx]
  grind
theorem turning_high {low high turn x : Rat} (h : low ≤ high) (hx : high < x) : turning low high turn x = -1 * turn := by
  unfold turning
  rw [if_pos hx, if_neg (by grind)]
  grind
theorem turning_inside {low high turn x : Rat} (h1 : low ≤ x) (h2 : x ≤ high) : turning low high turn x = 0 := by
  unfold turning
  rw [if_neg (by grind), if_neg (by grind), Rat.add_zero]

/-- C153.  **Boids come back, if they do not fly at right angles to the margin.**  Let boid `j` have a velocity that is not exactly
horizontal in state `t0`.  Then it does not stay for ever outside the left margin, nor outside the right one, while it sees no other boid and is
between the lower and the upper margins.  The same with the axes exchanged.  It suffices that the square roots are right up to any factor. -/
theorem C153_comes_back {p : FlockParams} {root : Rat → Rat} {c : Rat} (hc : 0 < c) (hroot : ApproxRoot c root) (ht : 0 < p.turn) (hlo : 0 < p.minSpeed) (hlh : p.minSpeed ≤ p.maxSpeed)
    {start : Nat → Boid} {j t0 : Nat} (ht0 : 1 ≤ t0) :
    ((flock p root start t0 j).vy ≠ 0 →
      (∃ t, t0 ≤ t ∧ ¬ (seen p (flock p root start t) j = [] ∧ (flock p root start t j).x < p.low ∧
        p.low ≤ (flock p root start t j).y ∧ (flock p root start t j).y ≤ p.high)) ∧
      (∃ t, t0 ≤ t ∧ ¬ (seen p (flock p root start t) j = [] ∧ p.high < (flock p root start t j).x ∧
        p.low ≤ (flock p root start t j).y ∧ (flock p root start t j).y ≤ p.high))) ∧
    ((flock p root start t0 j).vx ≠ 0 →
      (∃ t, t0 ≤ t ∧ ¬ (seen p (flock p root start t) j = [] ∧ (flock p root start t j).y < p.low ∧
        p.low ≤ (flock p root start t j).x ∧ (flock p root start t j).x ≤ p.high)) ∧
      (∃ t, t0 ≤ t ∧ ¬ (seen p (flock p root start t) j = [] ∧ p.high < (flock p root start t j).y ∧
        p.low ≤ (flock p root start t j).x ∧ (flock p root start t j).x ≤ p.high))) := by
  have hlim : (flock p root start t0 j).vx ≠ 0 ∨ (flock p root start t0 j).vy ≠ 0 →
      (p.minSpeed / c) ^ 2 ≤ (flock p root start t0 j).vx ^ 2 + (flock p root start t0 j).vy ^ 2 ∧
      (flock p root start t0 j).vx ^ 2 + (flock p root start t0 j).vy ^ 2 ≤ (p.maxSpeed * c) ^ 2 := by
    obtain ⟨t, rfl⟩ : ∃ t, t0 = t + 1 := ⟨t0 - 1, by omega⟩
    exact fun h => (boidStep_speed hc hroot hlo hlh _ _ h).2
  have main : ∀ {e : Rat}, (e = 1 ∨ e = -1) → (flock p root start t0 j).vx ≠ 0 ∨ (flock p root start t0 j).vy ≠ 0 →
      (∀ t, t0 ≤ t → seen p (flock p root start t) j = []) → _ := fun {e} he hne hs =>
    lone_passes (e := e) hc hroot ht hlo hlh (b := fun t => flock p root start (t0 + t) j) (root := root) (by
      intro t
      have := hs (t0 + t) (by omega)
      show boidStep p root (flock p root start (t0 + t) j) (seen p (flock p root start (t0 + t)) j) = _
      rw [this]) (hlim hne) he
  refine ⟨fun hv => ⟨?_, ?_⟩, fun hv => ⟨?_, ?_⟩⟩
  all_goals
    apply Classical.byContradiction
    intro hcon
    have hz : ∀ t, t0 ≤ t → _ := fun t htt => Classical.not_not.1 (fun hh => hcon ⟨t, htt, hh⟩)
  · have hlow : p.low ≤ p.high := by have := hz t0 (Nat.le_refl _); grind
    obtain ⟨t, h⟩ := (main (Or.inl rfl) (Or.inr hv) (fun t htt => (hz t htt).1)).1 hv (fun t =>
      ⟨turning_low hlow (hz (t0 + t) (by omega)).2.1, turning_inside (hz (t0 + t) (by omega)).2.2.1 (hz (t0 + t) (by omega)).2.2.2⟩) p.low
    have := (hz (t0 + t) (by omega)).2.1
    grind
  · have hlow : p.low ≤ p.high := by have := hz t0 (Nat.le_refl _); grind
    obtain ⟨t, h⟩ := (main (Or.inr rfl) (Or.inr hv) (fun t htt => (hz t htt).1)).1 hv (fun t =>
      ⟨turning_high hlow (hz (t0 + t) (by omega)).2.1, turning_inside (hz (t0 + t) (by omega)).2.2.1 (hz (t0 + t) (by omega)).2.2.2⟩) (-p.high)
    have := (hz (t0 + t) (by omega)).2.1
    grind
  · have hlow : p.low ≤ p.high := by have := hz t0 (Nat.le_refl _); grind
    obtain ⟨t, h⟩ := (main (Or.inl rfl) (Or.inl hv) (fun t htt => (hz t htt).1)).2 hv (fun t =>
      ⟨turning_low hlow (hz (t0 + t) (by omega)).2.1, turning_inside (hz (t0 + t) (by omega)).2.2.1 (hz (t0 + t) (by omega)).2.2.2⟩) p.low
    have := (hz (t0 + t) (by omega)).2.1
    grind
  · have hlow : p.low ≤ p.high := by have := hz t0 (Nat.le_refl _); grind
    obtain ⟨t, h⟩ := (main (Or.inr rfl) (Or.inl hv) (fun t htt => (hz t htt).1)).2 hv (fun t =>
      ⟨turning_high hlow (hz (t0 + t) (by omega)).2.1, turning_inside (hz (t0 + t) (by omega)).2.2.1 (hz (t0 + t) (by omega)).2.2.2⟩) (-p.high)
    have := (hz (t0 + t) (by omega)).2.1
    grind

/-! ## Running away -/

/-- C153.  **A boid that flies at right angles to the margin is never turned**, if the turn factor is less than the least speed, as in the
demo (2 and 3): the first boid, which sees nobody, flies on to the right for ever, at least `minSpeed` in every timestep, if it flies exactly to the right
in the beginning. -/
theorem C153_runs_away {p : FlockParams} {root : Rat → Rat} (hroot : ∀ v, 0 ≤ v → root (v * v) = v) (ht0 : 0 ≤ p.turn) (ht : p.turn < p.minSpeed)
    (hlh : p.minSpeed ≤ p.maxSpeed) {start : Nat → Boid} (hx : (start 0).x ≤ p.high) (h1 : p.low ≤ (start 0).y) (h2 : (start 0).y ≤ p.high)
    (hvx : 0 < (start 0).vx) (hvy : (start 0).vy = 0) (t : Nat) :
    (start 0).x + p.minSpeed * t ≤ (flock p root start t 0).x ∧ (flock p root start t 0).y = (start 0).y ∧
      0 < (flock p root start t 0).vx ∧ (flock p root start t 0).vy = 0 ∧ wishSpeed p root (flock p root start t 0) [] ≠ 0 := by
  have wsp : ∀ b : Boid, p.low ≤ b.y → b.y ≤ p.high → b.vy = 0 → 0 < b.vx → (b.x ≤ p.high ∨ p.turn < b.vx) →
      0 < b.vx + turning p.low p.high p.turn b.x ∧ wish p b [] = (b.vx + turning p.low p.high p.turn b.x, 0) ∧
      wishSpeed p root b [] = b.vx + turning p.low p.high p.turn b.x := by
    intro b b1 b2 b3 b4 b5
    have hp : 0 < b.vx + turning p.low p.high p.turn b.x := by
      unfold turning
      split <;> split <;> grind
    have hw : wish p b [] = (b.vx + turning p.low p.high p.turn b.x, 0) := by
      rw [wish_alone, turning_inside b1 b2, b3, Rat.add_zero]
    refine ⟨hp, hw, ?_⟩
    unfold wishSpeed
    rw [hw]
    simp only [Rat.mul_zero, Rat.add_zero]
    exact hroot _ (by grind)
  have inv : ∀ t : Nat, (start 0).x + p.minSpeed * t ≤ (flock p root start t 0).x ∧ (flock p root start t 0).y = (start 0).y ∧
      0 < (flock p root start t 0).vx ∧ (flock p root start t 0).vy = 0 ∧
      ((flock p root start t 0).x ≤ p.high ∨ p.turn < (flock p root start t 0).vx) := by
    intro t
    induction t with
    | zero => exact ⟨by simp [flock, Rat.add_zero], rfl, hvx, hvy, Or.inl hx⟩
    | succ t ih =>
      obtain ⟨i1, i2, i3, i4, i5⟩ := ih
      show _ ≤ (boidStep p root (flock p root start t 0) []).x ∧ (boidStep p root (flock p root start t 0) []).y = _ ∧
        0 < (boidStep p root (flock p root start t 0) []).vx ∧ (boidStep p root (flock p root start t 0) []).vy = 0 ∧
        ((boidStep p root (flock p root start t 0) []).x ≤ p.high ∨ p.turn < (boidStep p root (flock p root start t 0) []).vx)
      generalize flock p root start t 0 = b at *
      obtain ⟨w1, w2, w3⟩ := wsp b (by grind) (by grind) i4 i3 i5
      obtain ⟨l1, _⟩ := limitFactor_speed hlh w1
      unfold boidStep
      rw [w2, w3]
      simp only
      generalize b.vx + turning p.low p.high p.turn b.x = s at *
      generalize limitFactor p.minSpeed p.maxSpeed s * s = q at *
      have h3 : ((t + 1 : Nat) : Rat) = t + 1 := by simp
      rw [h3, Rat.mul_zero, Rat.add_zero]
      refine ⟨by grind, i2, by grind, rfl, Or.inr (by grind)⟩
  obtain ⟨i1, i2, i3, i4, i5⟩ := inv t
  obtain ⟨w1, _, w3⟩ := wsp _ (by grind) (by grind) i4 i3 i5
  exact ⟨i1, i2, i3, i4, by rw [w3]; grind⟩

section
variable {A I σ κ : Type} [DecidableEq κ]

/-- **C153, the demo** (`flocking_demo.py:56-155`).  If the first boid starts within the limits of the demo and exactly to the right, it is
further to the right than the whole plot (500) from state 164 on, and goes on for ever. -/
theorem C153_demo {cfg : Config Nat A Boid I σ κ} {root : Rat → Rat} (hroot : ∀ v, 0 ≤ v → root (v * v) = v) {T : Nat}
    (h : FlockCall cfg FlockParams.demo root T) (hT : 1 ≤ T) {n : Nat} (hn : 1 ≤ n) {start : Nat → Boid}
    (hsp : ∀ t, t + 1 < T → ∀ j, 1 ≤ j → j < n → wishSpeed .demo root (flock .demo root start t j) (seen .demo (flock .demo root start t) j) ≠ 0)
    (hx1 : 10 ≤ (start 0).x) (hx : (start 0).x ≤ 100) (hy1 : 100 ≤ (start 0).y) (hy2 : (start 0).y ≤ 200) (hvx : 0 < (start 0).vx)
    (hvy : (start 0).vy = 0) {r : Nat} {w : World Nat A σ} (hr : w.heap[r]? = some (Net.ofSize n)) {fuel : Nat} (hf : T ≤ fuel) :
    ∃ res, evolve fuel cfg (some (.dict ((List.range n).map (fun j => (j, start j))))) r w = .ok res ∧ res.states.length = T ∧
      ∀ t, t < T → ∃ d b, res.acts cfg t = some d ∧ d.get? 0 = some b ∧ 10 + 3 * t ≤ b.x ∧ b.y = (start 0).y ∧ (164 ≤ t → 500 < b.x) := by
  have away := C153_runs_away (p := .demo) hroot (by decide +kernel) (by decide +kernel) (by decide +kernel) (start := start)
    (by show (start 0).x ≤ 450; grind) (by show 50 ≤ (start 0).y; grind) (by show (start 0).y ≤ 450; grind) hvx hvy
  obtain ⟨res, e1, e2, e3⟩ := C110_run h hT (by decide +kernel) (by decide +kernel) (by decide +kernel) hn (start := start) (by
    intro t htT j hj
    by_cases h0 : j = 0
    · subst h0
      exact (away t).2.2.2.2
    · exact hsp t htT j (by omega) hj) hr hf
  refine ⟨res, e1, e2, fun t htT => ⟨_, _, (e3 t htT).1, ?_, ?_, (away t).2.1, fun h164 => ?_⟩⟩
  · have := Dict.get?_ofKeys (List.range n) (flock .demo root start t) 0
    rw [if_pos (List.mem_range.2 (by omega))] at this
    exact this
  · have h1 := (away t).1
    have h2 : (start 0).x + 3 * (t : Rat) ≤ (flock .demo root start t 0).x := h1
    grind
  · have h1 := (away t).1
    have h2 : (start 0).x + 3 * (t : Rat) ≤ (flock .demo root start t 0).x := h1
    have h3 : ((164 : Nat) : Rat) ≤ (t : Rat) := by exact_mod_cast h164
    have h4 : ((164 : Nat) : Rat) = 164 := rfl
    grind

end

/-- There are rational roots that are right up to the factor 2. -/
example : ∃ root, ApproxRoot 2 root := by
  have nat : ∀ n : Nat, ∃ m : Nat, n ≤ m * m ∧ m * m ≤ 4 * n ∧ (0 < n → 0 < m) := by
    intro n
    induction n with
    | zero => exact ⟨0, by decide, by decide, by omega⟩
    | succ n ih =>
      obtain ⟨m, h1, h2, _⟩ := ih
      by_cases h : n + 1 ≤ m * m
      · exact ⟨m, h, by omega, fun _ => Nat.pos_of_ne_zero (fun e => by subst e; omega)⟩
      · have e : m * m = n := by omega
        have e2 : (m + 1) * (m + 1) = m * m + 2 * m + 1 := by grind
        have e3 : m ≤ m * m := Nat.le_mul_self m
        exact ⟨m + 1, by omega, by omega, fun _ => by omega⟩
  have key : ∀ q : Rat, ∃ s : Rat, 0 < q → 0 < s ∧ s ^ 2 ≤ 2 ^ 2 * q ∧ q ≤ 2 ^ 2 * s ^ 2 := by
    intro q
    by_cases hq : 0 < q
    · have hd : (0 : Rat) < q.den := by
        have := q.den_pos
        exact_mod_cast this
      have hnp : 0 < q.num := by
        have := (Rat.lt_iff 0 q).1 hq
        simpa using this
      have hn : q.num = (q.num.toNat : Int) := by omega
      have hqe : q * q.den = (q.num.toNat : Rat) := by
        have h1 : q * q.den = (q.num : Rat) := by
          have h2 : (q.num : Rat) / q.den = q := by rw [← Rat.intCast_natCast, ← Rat.divInt_eq_div, Rat.num_divInt_den]
          have h3 : (q.num : Rat) / q.den * q.den = q.num := Rat.div_mul_cancel (by grind)
          rwa [h2] at h3
        rw [h1, hn]
        rfl
      obtain ⟨m, m1, m2, m3⟩ := nat (q.num.toNat * q.den)
      have hm0 : 0 < m := m3 (Nat.mul_pos (by omega) q.den_pos)
      have m1' : (q.num.toNat : Rat) * q.den ≤ (m : Rat) * m := by exact_mod_cast m1
      have m2' : (m : Rat) * m ≤ 4 * ((q.num.toNat : Rat) * q.den) := by exact_mod_cast m2
      have m0' : (0 : Rat) < m := by exact_mod_cast hm0
      rw [← hqe] at m1' m2'
      obtain ⟨s, hs⟩ : ∃ s : Rat, s * q.den = m := ⟨m / q.den, Rat.div_mul_cancel (by grind)⟩
      rw [← hs] at m0' m1' m2'
      generalize (q.den : Rat) = d at *
      have hdd := Rat.mul_pos hd hd
      refine ⟨s, fun _ => ⟨?_, ?_, ?_⟩⟩
      · apply Classical.byContradiction
        intro h
        have := Rat.mul_nonneg (a := -s) (b := d) (by grind) (by grind)
        grind
      · apply Classical.byContradiction
        intro h
        have := Rat.mul_pos (a := s ^ 2 - 4 * q) (b := d * d) (by grind) hdd
        grind
      · apply Classical.byContradiction
        intro h
        have := Rat.mul_pos (a := q - 4 * s ^ 2) (b := d * d) (by grind) hdd
        have h3 := Rat.mul_nonneg (a := s ^ 2) (b := d * d) (by have := Rat.mul_nonneg (a := s ^ 2) (b := 1); grind) (by grind)
        grind
    · exact ⟨0, fun h => absurd h hq⟩
  exact ⟨fun q => Classical.choose (key q), fun q hq => Classical.choose_spec (key q) hq⟩

/-- There are rational roots that are right for all squares. -/
example : ∃ root : Rat → Rat, ∀ v, 0 ≤ v → root (v * v) = v := by
  classical
  refine ⟨fun q => if h : ∃ v : Rat, 0 ≤ v ∧ v * v = q then Classical.choose h else 0, fun v hv => ?_⟩
  have h : ∃ u : Rat, 0 ≤ u ∧ u * u = v * v := ⟨v, hv, rfl⟩
  show (if h : ∃ u : Rat, 0 ≤ u ∧ u * u = v * v then Classical.choose h else 0) = v
  rw [dif_pos h]
  obtain ⟨h1, h2⟩ := Classical.choose_spec h
  generalize Classical.choose h = u at *
  apply Classical.byContradiction
  intro hne
  have h3 : (u - v) * (u + v) = 0 := by grind
  rcases Rat.mul_eq_zero.1 h3 with h4 | h4
  · exact hne (by grind)
  · exact hne (by grind)

/-- One boid within the limits of the demo, flying exactly to the right; 500 timesteps. -/
example (root : Rat → Rat) (hroot : ∀ v, 0 ≤ v → root (v * v) = v) :
    ∃ res, evolve 500 (Ex.flockCall .demo root 500) (some (.dict [(0, ⟨60, 150, 1 / 2, 0⟩)])) 0 ⟨[Net.ofSize 1], ()⟩ = .ok res ∧
      ∃ d b, res.acts (Ex.flockCall .demo root 500) 499 = some d ∧ d.get? 0 = some b ∧ 1507 ≤ b.x := by
  obtain ⟨res, e1, _, e3⟩ := C153_demo hroot (Ex.flockCall_ok .demo root 500) (by omega) (n := 1) (by omega)
    (start := fun _ => ⟨60, 150, 1 / 2, 0⟩) (by intro t _ j h1 h2; omega) (by decide +kernel) (by decide +kernel) (by decide +kernel)
    (by decide +kernel) (by decide +kernel) rfl (r := 0) (w := ⟨[Net.ofSize 1], ()⟩) rfl (fuel := 500) (by omega)
  obtain ⟨d, b, h1, h2, h3, _⟩ := e3 499 (by omega)
  refine ⟨res, e1, d, b, h1, h2, ?_⟩
  have : ((499 : Nat) : Rat) = 499 := rfl
  grind

/-- A lone boid that flies to the left and a little upwards, outside the left margin: with the exact root its velocity turns. -/
example : turning 50 450 2 40 = 1 * 2 ∧ turning 50 450 2 460 = -1 * 2 ∧ turning 50 450 2 250 = (0 : Rat) := by decide +kernel

end Verif
