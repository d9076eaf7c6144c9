import Mathlib.Analysis.SpecialFunctions.Trigonometric.Bounds
import Verif.Model.TurtleView
import Verif.Props.LSystemReal
/-! # Property C132: where the turtle is, and what its pictures and animations show -/

namespace Verif

/-! ## The animation -/

section
variable {R : Type}

/-- C132.  Without repetition the segments of all calls of `update` so far are on the axes, in the order of the calls.  With repetition it
is those of the calls since the last call for the last segment, which is not among them. -/
theorem C132_animation (traj : List (List R × List R)) (calls : List Nat) (hc : ∀ t ∈ calls, t < traj.length) :
    (∃ axes, turtleFrames traj false calls = .ok axes ∧ axes.map some = calls.map (fun t => traj[t]?)) ∧
    (∃ axes pre suf, turtleFrames traj true calls = .ok axes ∧ calls = pre ++ suf ∧ traj.length - 1 ∉ suf ∧
      (pre = [] ∨ pre.getLast? = some (traj.length - 1)) ∧ axes.map some = suf.map (fun t => traj[t]?)) := by
  -- calls are appended at the end
  have hstep : ∀ loop (cs : List Nat) t, turtleFrames traj loop (cs ++ [t]) =
      (turtleFrames traj loop cs).bind (fun axes => turtleUpdate traj loop axes t) := by
    intro loop cs t
    unfold turtleFrames
    rw [List.foldlM_append]
    show Except.bind _ _ = Except.bind _ _
    congr 1
    funext axes
    show (turtleUpdate traj loop axes t >>= fun a => pure a) = _
    simp
  induction calls using List.reverseRecOn with
  | nil => exact ⟨⟨[], rfl, rfl⟩, ⟨[], [], [], rfl, rfl, by simp, Or.inl rfl, rfl⟩⟩
  | append_singleton cs t ih =>
    obtain ⟨⟨ax, a1, a2⟩, ⟨bx, pre, suf, b1, b2, b3, b4, b5⟩⟩ := ih (fun u hu => hc u (List.mem_append_left _ hu))
    have ht : t < traj.length := hc t (by simp)
    have hg : traj[t]? = some traj[t] := List.getElem?_eq_getElem ht
    constructor
    · refine ⟨ax ++ [traj[t]], ?_, ?_⟩
      · rw [hstep, a1]
        show turtleUpdate traj false ax t = _
        unfold turtleUpdate
        rw [hg]
        simp
      · rw [List.map_append, List.map_append, a2]
        simp [hg]
    · by_cases hl : t = traj.length - 1
      · refine ⟨[], cs ++ [t], [], ?_, by simp, by simp, Or.inr (by simp [hl]), rfl⟩
        rw [hstep, b1]
        show turtleUpdate traj true bx t = _
        unfold turtleUpdate
        rw [hg]
        simp [hl]
      · refine ⟨bx ++ [traj[t]], pre, suf ++ [t], ?_, by rw [b2, List.append_assoc], ?_, b4, ?_⟩
        · rw [hstep, b1]
          show turtleUpdate traj true bx t = _
          unfold turtleUpdate
          rw [hg]
          simp [hl]
        · rw [List.mem_append, not_or]
          exact ⟨b3, by simpa using fun h => hl h.symm⟩
        · rw [List.map_append, List.map_append, b5]
          simp [hg]

/-- C132, counterexample.  The claim that an animation shows the whole drawing at its end is false with `repeat=True`: whatever calls
have been made, no call of `update` leaves as many segments on the axes as the drawing has, if the frames come in order. -/
theorem C132_repeat_incomplete (traj : List (List R × List R)) (hn : traj ≠ []) (k : Nat) :
    turtleFrames traj true ((List.range k).map (· % traj.length)) = .ok (traj.take (k % traj.length)) := by
  have hpos : 0 < traj.length := List.length_pos_iff.2 hn
  induction k with
  | zero => rw [Nat.zero_mod]; rfl
  | succ k ih =>
    have hlt := Nat.mod_lt k hpos
    rw [List.range_succ, List.map_append]
    unfold turtleFrames at ih ⊢
    rw [List.foldlM_append, ih]
    show (turtleUpdate traj true (traj.take (k % traj.length)) (k % traj.length) >>= fun a => pure a) = _
    rw [bind_pure]
    unfold turtleUpdate
    rw [List.getElem?_eq_getElem hlt]
    dsimp only
    congr 1
    by_cases h : k % traj.length = traj.length - 1
    · rw [if_pos ⟨h, rfl⟩]
      have : (k + 1) % traj.length = 0 := by
        rw [Nat.add_mod, h]
        by_cases h1 : traj.length = 1
        · rw [h1]
        · rw [Nat.mod_eq_of_lt (a := 1) (by omega), show traj.length - 1 + 1 = traj.length by omega, Nat.mod_self]
      rw [this]
      rfl
    · rw [if_neg (fun hh => h hh.1)]
      have : (k + 1) % traj.length = k % traj.length + 1 := by
        rw [Nat.add_mod, Nat.mod_eq_of_lt (a := 1) (by omega), Nat.mod_eq_of_lt (by omega)]
      rw [this, List.take_succ_eq_append_getElem hlt]

/-- C132.  Without repetition the frames in order show the drawing so far, at the end the picture of `Turtle.plot`. -/
theorem C132_no_repeat (t : Turtle R) (k : Nat) (hk : k ≤ t.trajectory.length) :
    turtleFrames t.trajectory false (List.range k) = .ok (t.plotted.take k) ∧
    turtleFrames t.trajectory false (List.range t.trajectory.length) = .ok t.plotted := by
  have key : ∀ k, k ≤ t.trajectory.length → turtleFrames t.trajectory false (List.range k) = .ok (t.plotted.take k) := by
    intro k hk
    obtain ⟨⟨axes, h1, h2⟩, _⟩ := C132_animation t.trajectory (List.range k) (fun u hu => by have := List.mem_range.1 hu; omega)
    rw [h1]
    congr 1
    apply List.map_injective_iff.2 (Option.some_injective _)
    rw [h2]
    apply List.ext_getElem?
    intro i
    unfold Turtle.plotted
    rw [List.getElem?_map, List.getElem?_map, List.getElem?_take]
    by_cases hi : i < k
    · rw [if_pos hi, List.getElem?_range hi, List.getElem?_eq_getElem (l := t.trajectory) (by omega)]
      simp [List.getElem?_eq_getElem (l := t.trajectory) (i := i) (by omega)]
    · rw [if_neg hi, List.getElem?_eq_none (by simpa using hi)]
      rfl
  refine ⟨key k hk, ?_⟩
  rw [key _ (Nat.le_refl _)]
  unfold Turtle.plotted
  rw [List.take_length]

end

/-! ## Position and distance -/

/-- Total length of the forward moves of a program. -/
def pathLength (ops : List (TurtleOp ℝ)) : ℝ := (ops.map (fun op => match op with | .forward d => |d| | _ => 0)).sum

theorem dist_step (g : Trig ℝ) (hg : ∀ a, g.sin a ^ 2 + g.cos a ^ 2 = 1) (u v a d : ℝ) :
    Real.sqrt ((g.sin a * d + u) ^ 2 + (g.cos a * d + v) ^ 2) ≤ Real.sqrt (u ^ 2 + v ^ 2) + |d| := by
  have h1 := hg a
  have hs := Real.sqrt_nonneg (u ^ 2 + v ^ 2)
  have hsq : Real.sqrt (u ^ 2 + v ^ 2) ^ 2 = u ^ 2 + v ^ 2 := Real.sq_sqrt (by positivity)
  have hd := abs_nonneg d
  have hd2 : |d| ^ 2 = d ^ 2 := sq_abs d
  refine Real.sqrt_le_iff.2 ⟨by positivity, ?_⟩
  generalize Real.sqrt (u ^ 2 + v ^ 2) = S at hs hsq ⊢
  generalize g.sin a = p at h1 ⊢
  generalize g.cos a = q at h1 ⊢
  have hc : |p * u + q * v| ≤ S := by
    apply abs_le_of_sq_le_sq _ hs
    nlinarith [sq_nonneg (p * v - q * u)]
  have hm : d * (p * u + q * v) ≤ |d| * S := by
    calc d * (p * u + q * v) ≤ |d * (p * u + q * v)| := le_abs_self _
      _ = |d| * |p * u + q * v| := abs_mul _ _
      _ ≤ |d| * S := mul_le_mul_of_nonneg_left hc hd
  nlinarith

/-- C132.  Whatever methods are called, the turtle is not farther from where it started than the distances it moved forward add up to;
so `abs` is at most that and the distance of the start. -/
theorem C132_abs (ops : List (TurtleOp ℝ)) (x y o : ℝ) (t : Turtle ℝ) (h : runTurtle realTrig ops (Turtle.start x y o) = .ok t) :
    Real.sqrt ((t.pos.1 - x) ^ 2 + (t.pos.2 - y) ^ 2) ≤ pathLength ops ∧ t.abs ≤ Real.sqrt (x ^ 2 + y ^ 2) + pathLength ops := by
  have hg : ∀ a, realTrig.sin a ^ 2 + realTrig.cos a ^ 2 = 1 := fun a => Real.sin_sq_add_cos_sq _
  have key : ∀ (c e : ℝ) (ops : List (TurtleOp ℝ)) (t0 t : Turtle ℝ) (B : ℝ), runTurtle realTrig ops t0 = .ok t →
      Real.sqrt ((t0.x - c) ^ 2 + (t0.y - e) ^ 2) ≤ B → (∀ s ∈ t0.stack, Real.sqrt ((s.1 - c) ^ 2 + (s.2.1 - e) ^ 2) ≤ B) →
      Real.sqrt ((t.x - c) ^ 2 + (t.y - e) ^ 2) ≤ B + pathLength ops := by
    intro c e ops
    induction ops with
    | nil =>
      intro t0 t B hr h0 _
      cases hr
      simpa [pathLength] using h0
    | cons op ops ih =>
      intro t0 t B hr h0 hs
      rw [runTurtle_cons] at hr
      cases op with
      | forward d =>
        have hd := dist_step realTrig hg (t0.x - c) (t0.y - e) t0.orientation d
        have := ih (t0.forward realTrig d) t (B + |d|) hr (by
            refine le_trans (le_of_eq ?_) (le_trans hd (add_le_add_left h0 _))
            congr 1
            show (realTrig.sin t0.orientation * d + t0.x - c) ^ 2 + (realTrig.cos t0.orientation * d + t0.y - e) ^ 2 = _
            ring) (fun s hs' => le_trans (hs s hs') (le_add_of_nonneg_right (abs_nonneg d)))
        refine le_trans this (le_of_eq ?_)
        simp only [pathLength, List.map_cons, List.sum_cons]
        ring
      | rotate a =>
        have := ih (t0.rotate a) t B hr h0 hs
        simpa [pathLength] using this
      | push =>
        have := ih t0.push t B hr h0 (by
          intro s hs'
          rcases List.mem_cons.1 hs' with rfl | hs'
          · exact h0
          · exact hs s hs')
        simpa [pathLength] using this
      | pop =>
        cases hst : t0.stack with
        | nil =>
          have : TurtleOp.call realTrig (.pop : TurtleOp ℝ) t0 = .error .indexError := by
            show t0.pop = _
            unfold Turtle.pop
            rw [hst]
          rw [this] at hr
          cases hr
        | cons s rest =>
          have hcall : TurtleOp.call realTrig (.pop : TurtleOp ℝ) t0 = .ok { t0 with stack := rest, x := s.1, y := s.2.1, orientation := s.2.2 } := by
            show t0.pop = _
            unfold Turtle.pop
            rw [hst]
          rw [hcall] at hr
          have := ih _ t B hr (hs s (by rw [hst]; exact List.mem_cons_self)) (fun u hu => hs u (by rw [hst]; exact List.mem_cons_of_mem _ hu))
          simpa [pathLength] using this
  constructor
  · have := key x y ops (Turtle.start x y o) t 0 h (by simp [Turtle.start]) (by intro s hs; cases hs)
    simpa [Turtle.pos] using this
  · have := key 0 0 ops (Turtle.start x y o) t (Real.sqrt (x ^ 2 + y ^ 2)) h (by simp [Turtle.start]) (by intro s hs; cases hs)
    simpa [Turtle.abs] using this

/-! ## Polygons and stars -/

theorem edge_iterate (d a : ℝ) (k : Nat) (t : Turtle ℝ) :
    ((Turtle.edge realTrig d a)^[k] t).orientation = t.orientation + k * a ∧
    ((Turtle.edge realTrig d a)^[k] t).trajectory.length = t.trajectory.length + k ∧
    2 * Real.sin (a / 2 * (Real.pi / 180)) * (((Turtle.edge realTrig d a)^[k] t).x - t.x) =
      d * (Real.cos ((t.orientation - a / 2) * (Real.pi / 180)) - Real.cos ((t.orientation + k * a - a / 2) * (Real.pi / 180))) ∧
    2 * Real.sin (a / 2 * (Real.pi / 180)) * (((Turtle.edge realTrig d a)^[k] t).y - t.y) =
      d * (Real.sin ((t.orientation + k * a - a / 2) * (Real.pi / 180)) - Real.sin ((t.orientation - a / 2) * (Real.pi / 180))) := by
  induction k with
  | zero => simp
  | succ k ih =>
    rw [Function.iterate_succ_apply']
    obtain ⟨h1, h2, h3, h4⟩ := ih
    generalize (Turtle.edge realTrig d a)^[k] t = u at h1 h2 h3 h4 ⊢
    refine ⟨?_, ?_, ?_, ?_⟩
    · show u.orientation + a = _
      rw [h1]
      push_cast
      ring
    · show (u.trajectory ++ [_]).length = _
      rw [List.length_append, h2]
      rfl
    · show 2 * Real.sin (a / 2 * (Real.pi / 180)) * (Real.sin (u.orientation * (Real.pi / 180)) * d + u.x - t.x) = _
      have e : Real.cos ((t.orientation + k * a - a / 2) * (Real.pi / 180)) - Real.cos ((t.orientation + (k + 1 : Nat) * a - a / 2) * (Real.pi / 180)) =
          2 * Real.sin (a / 2 * (Real.pi / 180)) * Real.sin (u.orientation * (Real.pi / 180)) := by
        rw [h1, show (t.orientation + k * a - a / 2) * (Real.pi / 180) = (t.orientation + k * a) * (Real.pi / 180) - a / 2 * (Real.pi / 180) by ring,
          show (t.orientation + (k + 1 : Nat) * a - a / 2) * (Real.pi / 180) = (t.orientation + k * a) * (Real.pi / 180) + a / 2 * (Real.pi / 180) by
            push_cast; ring, Real.cos_sub, Real.cos_add]
        ring
      linear_combination h3 - d * e
    · show 2 * Real.sin (a / 2 * (Real.pi / 180)) * (Real.cos (u.orientation * (Real.pi / 180)) * d + u.y - t.y) = _
      have e : Real.sin ((t.orientation + (k + 1 : Nat) * a - a / 2) * (Real.pi / 180)) - Real.sin ((t.orientation + k * a - a / 2) * (Real.pi / 180)) =
          2 * Real.sin (a / 2 * (Real.pi / 180)) * Real.cos (u.orientation * (Real.pi / 180)) := by
        rw [h1, show (t.orientation + k * a - a / 2) * (Real.pi / 180) = (t.orientation + k * a) * (Real.pi / 180) - a / 2 * (Real.pi / 180) by ring,
          show (t.orientation + (k + 1 : Nat) * a - a / 2) * (Real.pi / 180) = (t.orientation + k * a) * (Real.pi / 180) + a / 2 * (Real.pi / 180) by
            push_cast; ring, Real.sin_sub, Real.sin_add]
        ring
      linear_combination h4 - d * e

/-- C132.  `k` times "forward `d`, rotate by `a` degrees": the distance `D` from the start satisfies
`sin(a/2)² D² = d² sin(k a/2)²`. -/
theorem C132_polygon (d a : ℝ) (k : Nat) (t : Turtle ℝ) :
    Real.sin (a / 2 * (Real.pi / 180)) ^ 2 *
        ((((Turtle.edge realTrig d a)^[k] t).pos.1 - t.pos.1) ^ 2 + (((Turtle.edge realTrig d a)^[k] t).pos.2 - t.pos.2) ^ 2) =
      d ^ 2 * Real.sin (k * a / 2 * (Real.pi / 180)) ^ 2 := by
  obtain ⟨_, _, h3, h4⟩ := edge_iterate d a k t
  show Real.sin (a / 2 * (Real.pi / 180)) ^ 2 *
        ((((Turtle.edge realTrig d a)^[k] t).x - t.x) ^ 2 + (((Turtle.edge realTrig d a)^[k] t).y - t.y) ^ 2) = _
  generalize ((Turtle.edge realTrig d a)^[k] t).x - t.x = X at h3 ⊢
  generalize ((Turtle.edge realTrig d a)^[k] t).y - t.y = Y at h4 ⊢
  have e : (t.orientation + k * a - a / 2) * (Real.pi / 180) = (t.orientation - a / 2) * (Real.pi / 180) + k * a * (Real.pi / 180) := by ring
  rw [e] at h3 h4
  generalize (t.orientation - a / 2) * (Real.pi / 180) = u at h3 h4
  have e2 : (k : ℝ) * a * (Real.pi / 180) = 2 * (k * a / 2 * (Real.pi / 180)) := by ring
  rw [e2] at h3 h4
  generalize (k : ℝ) * a / 2 * (Real.pi / 180) = v at h3 h4 ⊢
  generalize Real.sin (a / 2 * (Real.pi / 180)) = s at h3 h4 ⊢
  rw [Real.cos_add] at h3
  rw [Real.sin_add] at h4
  have c2 : Real.cos (2 * v) = 1 - 2 * Real.sin v ^ 2 := by rw [Real.cos_two_mul]; have := Real.sin_sq_add_cos_sq v; linarith
  have p2 := Real.sin_sq_add_cos_sq (2 * v)
  have pu := Real.sin_sq_add_cos_sq u
  have key : 4 * (s ^ 2 * (X ^ 2 + Y ^ 2)) = d ^ 2 * (2 - 2 * Real.cos (2 * v)) := by
    have : 4 * (s ^ 2 * (X ^ 2 + Y ^ 2)) = (2 * s * X) ^ 2 + (2 * s * Y) ^ 2 := by ring
    rw [this, h3, h4]
    generalize Real.sin u = su at pu ⊢
    generalize Real.cos u = cu at pu ⊢
    generalize Real.sin (2 * v) = sv at p2 ⊢
    generalize Real.cos (2 * v) = cv at p2 ⊢
    linear_combination d ^ 2 * (su ^ 2 + cu ^ 2) * p2 + d ^ 2 * (2 - 2 * cv) * pu
  rw [c2] at key
  linear_combination key / 4

/-- C132.  If `a` is not a multiple of 360, the turtle is back where it started after `k` times "forward `d`, rotate by `a`" if and only
if `d = 0` or `k a` is a multiple of 360. -/
theorem C132_closed (d a : ℝ) (ha : ∀ m : ℤ, a ≠ 360 * m) (k : Nat) (t : Turtle ℝ) :
    ((Turtle.edge realTrig d a)^[k] t).pos = t.pos ↔ d = 0 ∨ ∃ m : ℤ, k * a = 360 * m := by
  have hpi := Real.pi_ne_zero
  have hs : Real.sin (a / 2 * (Real.pi / 180)) ≠ 0 := by
    intro h
    obtain ⟨m, hm⟩ := Real.sin_eq_zero_iff.1 h
    apply ha m
    field_simp at hm
    linarith
  have h := C132_polygon d a k t
  have hz : Real.sin (k * a / 2 * (Real.pi / 180)) = 0 ↔ ∃ m : ℤ, k * a = 360 * m := by
    rw [Real.sin_eq_zero_iff]
    constructor
    · rintro ⟨m, hm⟩
      refine ⟨m, ?_⟩
      field_simp at hm
      linarith
    · rintro ⟨m, hm⟩
      refine ⟨m, ?_⟩
      rw [hm]
      ring
  constructor
  · intro he
    rw [he] at h
    have h0 : d ^ 2 * Real.sin (k * a / 2 * (Real.pi / 180)) ^ 2 = 0 := by rw [← h]; ring
    rcases mul_eq_zero.1 h0 with h1 | h1
    · exact Or.inl (pow_eq_zero_iff (by decide) |>.1 h1)
    · exact Or.inr (hz.1 (pow_eq_zero_iff (by decide) |>.1 h1))
  · intro he
    have h0 : d ^ 2 * Real.sin (k * a / 2 * (Real.pi / 180)) ^ 2 = 0 := by
      rcases he with h1 | h1
      · rw [h1]; ring
      · rw [hz.2 h1]; ring
    rw [h0] at h
    have h2 : (((Turtle.edge realTrig d a)^[k] t).pos.1 - t.pos.1) ^ 2 + (((Turtle.edge realTrig d a)^[k] t).pos.2 - t.pos.2) ^ 2 = 0 := by
      rcases mul_eq_zero.1 h with h1 | h1
      · exact absurd (pow_eq_zero_iff (by decide) |>.1 h1) hs
      · exact h1
    have hx : ((Turtle.edge realTrig d a)^[k] t).pos.1 - t.pos.1 = 0 := by nlinarith [sq_nonneg (((Turtle.edge realTrig d a)^[k] t).pos.1 - t.pos.1), sq_nonneg (((Turtle.edge realTrig d a)^[k] t).pos.2 - t.pos.2)]
    have hy : ((Turtle.edge realTrig d a)^[k] t).pos.2 - t.pos.2 = 0 := by nlinarith [sq_nonneg (((Turtle.edge realTrig d a)^[k] t).pos.1 - t.pos.1), sq_nonneg (((Turtle.edge realTrig d a)^[k] t).pos.2 - t.pos.2)]
    exact Prod.ext (by linarith) (by linarith)

/-- The sine of a multiple of five degrees is 0 or at least 1/18. -/
theorem sin_five (m : Nat) (hm : m % 36 ≠ 0) : 1 / 18 ≤ |Real.sin (m * (Real.pi / 36))| := by
  have hpi := Real.pi_pos
  have hr : m % 36 < 36 := Nat.mod_lt _ (by decide)
  have hd := Nat.div_add_mod m 36
  generalize hj : m % 36 = j at hm hr hd
  have e : (m : ℝ) * (Real.pi / 36) = j * (Real.pi / 36) + (m / 36 : Nat) * Real.pi := by
    have : (m : ℝ) = 36 * (m / 36 : Nat) + j := by exact_mod_cast hd.symm
    rw [this]
    ring
  rw [e, Real.sin_add_nat_mul_pi, abs_mul, abs_pow, abs_neg, abs_one, one_pow, one_mul]
  have hj1 : (1 : ℝ) ≤ j := by exact_mod_cast Nat.one_le_iff_ne_zero.2 hm
  have hj2 : (j : ℝ) ≤ 35 := by exact_mod_cast (by omega : j ≤ 35)
  refine le_trans ?_ (le_abs_self _)
  by_cases h18 : j ≤ 18
  · have h18' : (j : ℝ) ≤ 18 := by exact_mod_cast h18
    have := Real.mul_le_sin (x := j * (Real.pi / 36)) (by positivity) (by nlinarith)
    refine le_trans ?_ this
    have : 2 / Real.pi * (j * (Real.pi / 36)) = j / 18 := by field_simp; ring
    rw [this]
    linarith
  · have h18' : (18 : ℝ) ≤ j := by exact_mod_cast (by omega : 18 ≤ j)
    rw [← Real.sin_pi_sub, show Real.pi - j * (Real.pi / 36) = (36 - j) * (Real.pi / 36) by ring]
    have := Real.mul_le_sin (x := (36 - j) * (Real.pi / 36)) (by apply mul_nonneg <;> [linarith; positivity]) (by nlinarith)
    refine le_trans ?_ this
    have : 2 / Real.pi * ((36 - j) * (Real.pi / 36)) = (36 - (j : ℝ)) / 18 := by field_simp; ring
    rw [this]
    linarith

/-- C132.  The star of the tests: 36 times forward 200 and a turn by -170 degrees; the loop ends exactly then, back at the start. -/
theorem C132_star (fuel : Nat) (hf : 36 ≤ fuel) :
    ∃ t, starLoop realTrig 200 (-170) fuel (Turtle.start 0 0 0) = some t ∧ t.trajectory.length = 36 ∧ t.pos = (0, 0) ∧ t.abs = 0 ∧
      t = (Turtle.edge realTrig 200 (-170))^[36] (Turtle.start 0 0 0) := by
  have hpos : ∀ k, ((Turtle.edge realTrig 200 (-170))^[k] (Turtle.start 0 0 0)).abs ^ 2 * Real.sin (-170 / 2 * (Real.pi / 180)) ^ 2 =
      200 ^ 2 * Real.sin (k * (-170) / 2 * (Real.pi / 180)) ^ 2 := by
    intro k
    have := C132_polygon 200 (-170) k (Turtle.start 0 0 0)
    rw [← this]
    unfold Turtle.abs Turtle.pos Turtle.start
    rw [Real.sq_sqrt (by positivity)]
    ring
  have hfar : ∀ k, k % 36 ≠ 0 → ¬ ((Turtle.edge realTrig 200 (-170))^[k] (Turtle.start 0 0 0)).abs < 1 := by
    intro k hk hlt
    have h1 := hpos k
    have h2 := sin_five (17 * k) (by omega)
    have e : (k : ℝ) * (-170) / 2 * (Real.pi / 180) = -(((17 * k : Nat) : ℝ) * (Real.pi / 36)) := by push_cast; ring
    rw [e, Real.sin_neg, neg_sq, ← sq_abs (Real.sin (((17 * k : Nat) : ℝ) * (Real.pi / 36)))] at h1
    have h3 : Real.sin (-170 / 2 * (Real.pi / 180)) ^ 2 ≤ 1 := Real.sin_sq_le_one _
    have h4 : 0 ≤ Real.sin (-170 / 2 * (Real.pi / 180)) ^ 2 := sq_nonneg _
    have h5 : 0 ≤ ((Turtle.edge realTrig 200 (-170))^[k] (Turtle.start 0 0 0)).abs := Real.sqrt_nonneg _
    have h6 : ((Turtle.edge realTrig 200 (-170))^[k] (Turtle.start 0 0 0)).abs ^ 2 < 1 := by nlinarith
    have h7 : (1 / 18 : ℝ) ^ 2 ≤ |Real.sin (((17 * k : Nat) : ℝ) * (Real.pi / 36))| ^ 2 := by gcongr
    nlinarith
  have hback : ((Turtle.edge realTrig 200 (-170))^[36] (Turtle.start 0 0 0)).pos = (0, 0) := by
    refine (C132_closed 200 (-170) ?_ 36 (Turtle.start 0 0 0)).2 (Or.inr ⟨-17, by norm_num⟩)
    intro m hm
    have : (-170 : ℤ) = 360 * m := by exact_mod_cast hm
    omega
  have habs : ((Turtle.edge realTrig 200 (-170))^[36] (Turtle.start 0 0 0)).abs = 0 := by
    have h1 := congrArg Prod.fst hback
    have h2 := congrArg Prod.snd hback
    unfold Turtle.pos at h1 h2
    dsimp only at h1 h2
    unfold Turtle.abs
    rw [h1, h2]
    simp
  have hloop : ∀ j, j ≤ 35 → ∀ fuel, starLoop realTrig 200 (-170) (fuel + j + 1) ((Turtle.edge realTrig 200 (-170))^[35 - j] (Turtle.start 0 0 0)) =
      some ((Turtle.edge realTrig 200 (-170))^[36] (Turtle.start 0 0 0)) := by
    intro j
    induction j with
    | zero =>
      intro _ fuel
      have e : Turtle.edge realTrig 200 (-170) ((Turtle.edge realTrig 200 (-170))^[35] (Turtle.start 0 0 0)) =
          (Turtle.edge realTrig 200 (-170))^[36] (Turtle.start 0 0 0) := (Function.iterate_succ_apply' _ 35 _).symm
      rw [starLoop, Nat.sub_zero, e, if_pos (by rw [habs]; norm_num)]
    | succ j ih =>
      intro hj fuel
      have e : Turtle.edge realTrig 200 (-170) ((Turtle.edge realTrig 200 (-170))^[35 - (j + 1)] (Turtle.start 0 0 0)) =
          (Turtle.edge realTrig 200 (-170))^[35 - j] (Turtle.start 0 0 0) := by
        rw [show 35 - j = (35 - (j + 1)) + 1 by omega, Function.iterate_succ_apply']
      rw [starLoop, e, if_neg (hfar (35 - j) (by omega))]
      exact ih (by omega) fuel
  refine ⟨_, ?_, ?_, hback, habs, rfl⟩
  · have := hloop 35 (Nat.le_refl _) (fuel - 36)
    rw [show fuel - 36 + 35 + 1 = fuel by omega] at this
    exact this
  · rw [(edge_iterate 200 (-170) 36 (Turtle.start 0 0 0)).2.1]
    rfl

/-- A square and a pentagram: the hypotheses of `C132_closed` are met. -/
example : ((Turtle.edge realTrig 3 90)^[4] (Turtle.start 1 2 45)).pos = (1, 2) ∧
    ((Turtle.edge realTrig 3 144)^[5] (Turtle.start 1 2 45)).pos = (1, 2) ∧
    ((Turtle.edge realTrig 3 144)^[4] (Turtle.start 1 2 45)).pos ≠ (1, 2) := by
  have h144 : ∀ m : ℤ, (144 : ℝ) ≠ 360 * m := by
    intro m hm
    have : (144 : ℤ) = 360 * m := by exact_mod_cast hm
    omega
  refine ⟨(C132_closed 3 90 ?_ 4 (Turtle.start 1 2 45)).2 (Or.inr ⟨1, by norm_num⟩),
    (C132_closed 3 144 h144 5 (Turtle.start 1 2 45)).2 (Or.inr ⟨2, by norm_num⟩), fun h => ?_⟩
  · intro m hm
    have : (90 : ℤ) = 360 * m := by exact_mod_cast hm
    omega
  · rcases (C132_closed 3 144 h144 4 (Turtle.start 1 2 45)).1 h with h | ⟨m, hm⟩
    · norm_num at h
    · have : (4 * 144 : ℤ) = 360 * m := by exact_mod_cast hm
      omega

/-- Three segments: the animation without and with repetition after three frames. -/
example : turtleFrames [([0, 1], [0, 0]), ([1, 1], [0, 1]), ([1, 0], [1, 0])] false [0, 1, 2] =
      .ok [([0, 1], [0, 0]), ([1, 1], [0, 1]), ([1, (0 : Nat)], [1, 0])] ∧
    turtleFrames [([0, 1], [0, 0]), ([1, 1], [0, 1]), ([1, (0 : Nat)], [1, 0])] true [0, 1, 2] = .ok [] := ⟨rfl, rfl⟩

end Verif
