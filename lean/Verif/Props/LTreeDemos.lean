import Verif.Props.LSystemDemos
/-! # C115, the demos with brackets: the fractal tree and the fractal plant -/

namespace Verif
open Spec
section
variable {R : Type} [Lean.Grind.CommRing R]

theorem balanced_append {x y : List (TurtleOp R)} (hx : Balanced x) (hy : Balanced y) : Balanced (x ++ y) := by
  induction hx with
  | nil => exact hy
  | move o w ho _ ih => exact .move o _ ho ih
  | bracket w w' h1 h2 ih1 ih2 =>
    rw [List.cons_append, List.append_assoc, List.cons_append]
    exact .bracket _ _ h1 ih2

/-- The number of segments that a program draws. -/
def forwards (w : List (TurtleOp R)) : Nat := w.countP (fun op => match op with | .forward _ => true | _ => false)

theorem trajectory_length (g : Trig R) : ∀ (w : List (TurtleOp R)) (t t' : Turtle R), runTurtle g w t = .ok t' →
    t'.trajectory.length = t.trajectory.length + forwards w := by
  intro w
  induction w with
  | nil => intro t t' h; cases h; rfl
  | cons op w ih =>
    intro t t' h
    rw [runTurtle_cons] at h
    cases hop : op.call g t with
    | error e => rw [hop] at h; cases h
    | ok t1 =>
      rw [hop] at h
      rw [ih t1 t' h]
      unfold forwards
      rw [List.countP_cons]
      cases op with
      | forward d => cases hop; simp [Turtle.forward]; omega
      | rotate a => cases hop; simp [Turtle.rotate]
      | push => cases hop; simp [Turtle.push]
      | pop =>
        simp only [TurtleOp.call, Turtle.pop] at hop
        split at hop
        · cases hop
        · cases hop; simp

theorem forwards_append (u v : List (TurtleOp R)) : forwards (u ++ v) = forwards u + forwards v := List.countP_append

/-! ## The fractal tree -/

/-- The replacement of the symbols in the demo of the fractal tree. -/
def treeStep (c : Char) : List Char := if c = '0' then ['1', '[', '0', ']', '0'] else if c = '1' then ['1', '1'] else [c]

/-- The methods bound to the symbols in the demo of the fractal tree. -/
def treeOps (c : Char) : List (TurtleOp R) :=
  if c = '[' then [.push, .rotate (-45)] else if c = ']' then [.pop, .rotate 45] else [.forward 1]

theorem tree_ones (n : Nat) : Balanced ((growWord treeStep n ['1']).flatMap (treeOps (R := R))) ∧
    forwards ((growWord treeStep n ['1']).flatMap (treeOps (R := R))) = 2 ^ n := by
  induction n with
  | zero => exact ⟨.move _ _ rfl .nil, rfl⟩
  | succ n ih =>
    rw [growWord_front, show ['1'].flatMap treeStep = ['1', '1'] from rfl, growWord_cons, List.flatMap_append]
    refine ⟨balanced_append ih.1 ih.1, ?_⟩
    rw [forwards_append, ih.2, Nat.pow_succ]
    omega

theorem tree_balanced (n : Nat) : Balanced ((growWord treeStep n ['0']).flatMap (treeOps (R := R))) ∧
    2 * forwards ((growWord treeStep n ['0']).flatMap (treeOps (R := R))) = (n + 2) * 2 ^ n := by
  induction n with
  | zero => exact ⟨.move _ _ rfl .nil, rfl⟩
  | succ n ih =>
    have e : (growWord treeStep (n + 1) ['0']).flatMap (treeOps (R := R)) = (growWord treeStep n ['1']).flatMap treeOps ++
        (.push :: ((.rotate (-45) :: (growWord treeStep n ['0']).flatMap treeOps) ++ .pop :: (.rotate 45 :: (growWord treeStep n ['0']).flatMap treeOps))) := by
      rw [growWord_front, show ['0'].flatMap treeStep = ['1', '[', '0', ']', '0'] from rfl]
      repeat rw [growWord_cons treeStep n _ (_ :: _)]
      rw [growWord_fixed (c := '[') rfl, growWord_fixed (c := ']') rfl]
      simp only [List.flatMap_append]
      rfl
    rw [e]
    refine ⟨balanced_append (tree_ones n).1 (.bracket _ _ (.move _ _ rfl ih.1) (.move _ _ rfl ih.1)), ?_⟩
    have hcount : ∀ u v : List (TurtleOp R), forwards (.push :: ((.rotate (-45) :: u) ++ .pop :: (.rotate 45 :: v))) =
        forwards u + forwards v := by
      intro u v
      unfold forwards
      rw [List.countP_cons_of_neg (fun h => by cases h), List.countP_append, List.countP_cons_of_neg (fun h => by cases h),
        List.countP_cons_of_neg (fun h => by cases h), List.countP_cons_of_neg (fun h => by cases h)]
    rw [forwards_append, (tree_ones n).2, hcount]
    have := ih.2
    rw [Nat.pow_succ, show (n + 1 + 2) * (2 ^ n * 2) = 2 * ((n + 2) * 2 ^ n) + 2 * 2 ^ n by
      rw [show n + 1 + 2 = (n + 2) + 1 by omega, Nat.add_mul, ← Nat.mul_assoc]; omega]
    omega

/-- The symbols of the demo of the fractal tree. -/
def treeSymbol (c : Char) : Prop := c = '0' ∨ c = '1' ∨ c = '[' ∨ c = ']'

theorem tree_closed (c : Char) (h : treeSymbol c) : treeStep c ≠ [] ∧ ∀ d ∈ treeStep c, treeSymbol d := by
  rcases h with rfl | rfl | rfl | rfl <;> refine ⟨by decide, ?_⟩ <;> simp [treeStep, treeSymbol]

theorem tree_sub (c : Char) (h : treeSymbol c) :
    (if [c] ∈ treeConstants then some [c] else Dict.get? treeRules [c]) = some (treeStep c) := by
  rcases h with rfl | rfl | rfl | rfl <;> decide +kernel

theorem tree_bound (g : Trig R) (c : Char) (h : treeSymbol c) :
    (Dict.get? (treeBindings g) c).map Binding.instructions = some ((treeOps c).map (fun op => op.call g)) := by
  rcases h with rfl | rfl | rfl | rfl <;> rfl

variable {A I κ : Type} [DecidableEq κ]

/-- C115, the demo of the fractal tree: whatever the sine and cosine, rendering row `t` does not raise, draws
`(t + 2) * 2^t / 2` segments, and leaves no state on the stack. -/
theorem C115_tree (g : Trig R) {cfg : Config Nat A (List Char) I SubstState κ} {sys : SubstSystem Char A}
    (hsys : substInit (lAxiom ['0']) treeRules treeConstants = .ok sys) {T : Nat}
    (hc : SubstConfig cfg strStr strDtype sys.rules sys.size T) (hT : 1 ≤ T) {r : Nat} {wd : World Nat A SubstState}
    (hr : wd.heap[r]? = some sys.network) (hu : wd.user = sys.state) {fuel : Nat} (hf : T ≤ fuel) :
    ∃ res, evolve fuel cfg (some (.list (lAxiom ['0']))) r wd = .ok res ∧ res.states.length = T ∧
      ∀ t : Nat, t < T → ∃ d t', res.acts cfg t = some d ∧
        renderLSystem (fun a b => decide (a ≤ b)) (treeBindings g) d (Turtle.start 0 0 0) = .ok t' ∧
        2 * t'.trajectory.length = (t + 2) * 2 ^ t ∧ t'.stack = [] := by
  have hs : sys.size = 1 := by cases hsys; rfl
  have hw : ∀ c ∈ ['0'], treeSymbol c := by intro c hc; rw [List.mem_singleton.1 hc]; exact Or.inl rfl
  obtain ⟨res, e1, e2, e3⟩ := C115_render (σ := Turtle R) hsys hs tree_sub tree_closed hw hc hT hr hu hf
  refine ⟨res, e1, e2, fun t ht => ?_⟩
  obtain ⟨d, e4, e5⟩ := e3 t ht
  obtain ⟨t', f1, f2, _⟩ := balanced_stack g (tree_balanced (R := R) t).1 (Turtle.start 0 0 0)
  refine ⟨d, t', e4, ?_, ?_, f2⟩
  · rw [e5, render_turtle g treeOps]
    · exact f1
    · exact fun c hc => tree_bound g c (growWord_inv (fun c hc => (tree_closed c hc).2) hw t c hc)
  · rw [trajectory_length g _ _ _ f1, ← (tree_balanced (R := R) t).2]
    simp [Turtle.start]

/-! ## The fractal plant -/

/-- The replacement of the symbols in the demo of the fractal plant. -/
def plantStep (c : Char) : List Char :=
  if c = 'X' then ['F', '+', '[', '[', 'X', ']', '-', 'X', ']', '-', 'F', '[', '-', 'F', 'X', ']', '+', 'X']
  else if c = 'F' then ['F', 'F'] else [c]

/-- The methods bound to the symbols in the demo of the fractal plant. -/
def plantOps (c : Char) : List (TurtleOp R) :=
  if c = 'F' then [.forward 1] else if c = '+' then [.rotate (-25)] else if c = '-' then [.rotate 25] else if c = '[' then [.push]
  else if c = ']' then [.pop] else []

theorem plant_F (n : Nat) : Balanced ((growWord plantStep n ['F']).flatMap (plantOps (R := R))) ∧
    forwards ((growWord plantStep n ['F']).flatMap (plantOps (R := R))) = 2 ^ n := by
  induction n with
  | zero => exact ⟨.move _ _ rfl .nil, rfl⟩
  | succ n ih =>
    rw [growWord_front, show ['F'].flatMap plantStep = ['F', 'F'] from rfl, growWord_cons, List.flatMap_append]
    refine ⟨balanced_append ih.1 ih.1, ?_⟩
    rw [forwards_append, ih.2, Nat.pow_succ]
    omega

theorem forwards_cons_not {op : TurtleOp R} (h : ∀ d, op ≠ .forward d) (w : List (TurtleOp R)) : forwards (op :: w) = forwards w := by
  unfold forwards
  rw [List.countP_cons_of_neg]
  cases op with
  | forward d => exact absurd rfl (h d)
  | _ => intro h; cases h

theorem plant_X (n : Nat) : Balanced ((growWord plantStep n ['X']).flatMap (plantOps (R := R))) ∧
    2 * forwards ((growWord plantStep n ['X']).flatMap (plantOps (R := R))) + 3 * 2 ^ n = 3 * 4 ^ n := by
  induction n with
  | zero => exact ⟨.nil, rfl⟩
  | succ n ih =>
    have e : (growWord plantStep (n + 1) ['X']).flatMap (plantOps (R := R)) =
        (growWord plantStep n ['F']).flatMap plantOps ++ (.rotate (-25) ::
        (.push :: ((.push :: ((growWord plantStep n ['X']).flatMap plantOps ++ .pop :: (.rotate 25 ::
        (growWord plantStep n ['X']).flatMap plantOps))) ++ .pop :: (.rotate 25 :: ((growWord plantStep n ['F']).flatMap plantOps ++
        (.push :: ((.rotate 25 :: ((growWord plantStep n ['F']).flatMap plantOps ++ (growWord plantStep n ['X']).flatMap plantOps)) ++
        .pop :: (.rotate (-25) :: (growWord plantStep n ['X']).flatMap plantOps)))))))) := by
      rw [growWord_front, show ['X'].flatMap plantStep =
        ['F', '+', '[', '[', 'X', ']', '-', 'X', ']', '-', 'F', '[', '-', 'F', 'X', ']', '+', 'X'] from rfl]
      repeat rw [growWord_cons plantStep n _ (_ :: _)]
      rw [growWord_fixed (c := '[') rfl, growWord_fixed (c := ']') rfl, growWord_fixed (c := '+') rfl, growWord_fixed (c := '-') rfl]
      simp only [List.flatMap_append, List.flatMap_cons, List.flatMap_nil, List.append_nil]
      simp [plantOps]
    rw [e]
    refine ⟨balanced_append (plant_F n).1 (.move _ _ rfl (.bracket _ _ (.bracket _ _ ih.1 (.move _ _ rfl ih.1)) (.move _ _ rfl
      (balanced_append (plant_F n).1 (.bracket _ _ (.move _ _ rfl (balanced_append (plant_F n).1 ih.1)) (.move _ _ rfl ih.1)))))), ?_⟩
    simp only [forwards_append, List.cons_append, forwards_cons_not (op := (.push : TurtleOp R)) (fun d h => by cases h),
      forwards_cons_not (op := (.pop : TurtleOp R)) (fun d h => by cases h), forwards_cons_not (op := (.rotate (-25) : TurtleOp R)) (fun d h => by cases h),
      forwards_cons_not (op := (.rotate 25 : TurtleOp R)) (fun d h => by cases h), List.append_assoc]
    have h1 := ih.2
    have h2 := (plant_F (R := R) n).2
    generalize forwards ((growWord plantStep n ['X']).flatMap (plantOps (R := R))) = x at *
    generalize forwards ((growWord plantStep n ['F']).flatMap (plantOps (R := R))) = f at *
    subst h2
    simp only [Nat.pow_succ]
    omega

/-- The symbols of the demo of the fractal plant. -/
def plantSymbol (c : Char) : Prop := c = 'X' ∨ c = 'F' ∨ c = '+' ∨ c = '-' ∨ c = '[' ∨ c = ']'

theorem plant_closed (c : Char) (h : plantSymbol c) : plantStep c ≠ [] ∧ ∀ d ∈ plantStep c, plantSymbol d := by
  rcases h with rfl | rfl | rfl | rfl | rfl | rfl <;> refine ⟨by decide, ?_⟩ <;> simp [plantStep, plantSymbol]

theorem plant_sub (c : Char) (h : plantSymbol c) :
    (if [c] ∈ plantConstants then some [c] else Dict.get? plantRules [c]) = some (plantStep c) := by
  rcases h with rfl | rfl | rfl | rfl | rfl | rfl <;> decide +kernel

theorem plant_bound (g : Trig R) (c : Char) (h : plantSymbol c) :
    (Dict.get? (plantBindings g) c).map Binding.instructions = some ((plantOps c).map (fun op => op.call g)) := by
  rcases h with rfl | rfl | rfl | rfl | rfl | rfl <;> rfl

/-- C115, the demo of the fractal plant: whatever the sine and cosine, rendering row `t` does not raise, draws
`3 * (4^t - 2^t) / 2` segments, and leaves no state on the stack. -/
theorem C115_plant (g : Trig R) {cfg : Config Nat A (List Char) I SubstState κ} {sys : SubstSystem Char A}
    (hsys : substInit (lAxiom ['X']) plantRules plantConstants = .ok sys) {T : Nat}
    (hc : SubstConfig cfg strStr strDtype sys.rules sys.size T) (hT : 1 ≤ T) {r : Nat} {wd : World Nat A SubstState}
    (hr : wd.heap[r]? = some sys.network) (hu : wd.user = sys.state) {fuel : Nat} (hf : T ≤ fuel) :
    ∃ res, evolve fuel cfg (some (.list (lAxiom ['X']))) r wd = .ok res ∧ res.states.length = T ∧
      ∀ t : Nat, t < T → ∃ d t', res.acts cfg t = some d ∧
        renderLSystem (fun a b => decide (a ≤ b)) (plantBindings g) d (Turtle.start 0 0 25) = .ok t' ∧
        2 * t'.trajectory.length + 3 * 2 ^ t = 3 * 4 ^ t ∧ t'.stack = [] := by
  have hs : sys.size = 1 := by cases hsys; rfl
  have hw : ∀ c ∈ ['X'], plantSymbol c := by intro c hc; rw [List.mem_singleton.1 hc]; exact Or.inl rfl
  obtain ⟨res, e1, e2, e3⟩ := C115_render (σ := Turtle R) hsys hs plant_sub plant_closed hw hc hT hr hu hf
  refine ⟨res, e1, e2, fun t ht => ?_⟩
  obtain ⟨d, e4, e5⟩ := e3 t ht
  obtain ⟨t', f1, f2, _⟩ := balanced_stack g (plant_X (R := R) t).1 (Turtle.start 0 0 25)
  refine ⟨d, t', e4, ?_, ?_, f2⟩
  · rw [e5, render_turtle g plantOps]
    · exact f1
    · exact fun c hc => plant_bound g c (growWord_inv (fun c hc => (plant_closed c hc).2) hw t c hc)
  · rw [trajectory_length g _ _ _ f1, ← (plant_X (R := R) t).2]
    simp [Turtle.start]

end
end Verif
