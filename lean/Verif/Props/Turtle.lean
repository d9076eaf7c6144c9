import Verif.Model.Turtle
import Verif.Props.Utils
/-! # Properties C65, C75: the turtle and the rendering of L-systems -/

namespace Verif
section
variable {R : Type} [Add R] [Mul R]

/-- Move without brackets. -/
def TurtleOp.isMove : TurtleOp R → Bool
  | .forward _ | .rotate _ => true
  | .push | .pop => false

/-- Balanced programs: moves, brackets around balanced programs, and sequences of these. -/
inductive Balanced : List (TurtleOp R) → Prop
  | nil : Balanced []
  | move (op : TurtleOp R) (w : List (TurtleOp R)) : op.isMove = true → Balanced w → Balanced (op :: w)
  | bracket (w w' : List (TurtleOp R)) : Balanced w → Balanced w' → Balanced (.push :: (w ++ .pop :: w'))

theorem runTurtle_cons (g : Trig R) (op : TurtleOp R) (w : List (TurtleOp R)) (t : Turtle R) :
    runTurtle g (op :: w) t = match op.call g t with | .error e => .error e | .ok t' => runTurtle g w t' := by
  unfold runTurtle
  rw [List.foldlM_cons]
  simp only [bind, Except.bind]
  split <;> simp_all

theorem runTurtle_append (g : Trig R) (w w' : List (TurtleOp R)) (t : Turtle R) :
    runTurtle g (w ++ w') t = match runTurtle g w t with | .error e => .error e | .ok t' => runTurtle g w' t' := by
  unfold runTurtle
  rw [List.foldlM_append]
  simp only [bind, Except.bind]
  split <;> simp_all

theorem call_move (g : Trig R) {op : TurtleOp R} (h : op.isMove = true) (t : Turtle R) :
    ∃ t', op.call g t = .ok t' ∧ t'.stack = t.stack ∧ ∃ more, t'.trajectory = t.trajectory ++ more := by
  cases op with
  | forward d => exact ⟨_, rfl, rfl, _, rfl⟩
  | rotate a => exact ⟨_, rfl, rfl, [], by simp [Turtle.rotate]⟩
  | push => cases h
  | pop => cases h

/-- A balanced program does not raise and leaves the stack as it was. -/
theorem balanced_stack (g : Trig R) {w : List (TurtleOp R)} (hw : Balanced w) : ∀ t : Turtle R,
    ∃ t', runTurtle g w t = .ok t' ∧ t'.stack = t.stack ∧ ∃ more, t'.trajectory = t.trajectory ++ more := by
  induction hw with
  | nil => intro t; exact ⟨t, rfl, rfl, [], by simp⟩
  | move op w hop _ ih =>
    intro t
    obtain ⟨t1, h1, h2, m1, h3⟩ := call_move g hop t
    obtain ⟨t2, h4, h5, m2, h6⟩ := ih t1
    refine ⟨t2, by rw [runTurtle_cons, h1]; exact h4, h5.trans h2, m1 ++ m2, by rw [h6, h3, List.append_assoc]⟩
  | bracket w w' _ _ ih ih' =>
    intro t
    obtain ⟨t1, h1, h2, m1, h3⟩ := ih t.push
    obtain ⟨t2, h4, h5, m2, h6⟩ := ih' { t1 with stack := t.stack, x := t.x, y := t.y, orientation := t.orientation }
    refine ⟨t2, ?_, h5, m1 ++ m2, ?_⟩
    · rw [runTurtle_cons]
      simp only [TurtleOp.call]
      rw [runTurtle_append, h1]
      simp only
      rw [runTurtle_cons]
      simp only [TurtleOp.call, Turtle.pop, h2, Turtle.push]
      exact h4
    · rw [h6]
      show t1.trajectory ++ m2 = _
      rw [h3]
      show t.trajectory ++ m1 ++ m2 = _
      rw [List.append_assoc]

/-- C65, brackets: any balanced program between `push` and `pop` restores position, orientation and stack; the segments
drawn before are kept. -/
theorem C65_brackets (g : Trig R) (w : List (TurtleOp R)) (hw : Balanced w) (t : Turtle R) :
    ∃ t', runTurtle g (.push :: (w ++ [.pop])) t = .ok t' ∧ t'.x = t.x ∧ t'.y = t.y ∧ t'.orientation = t.orientation ∧
      t'.stack = t.stack ∧ ∃ more, t'.trajectory = t.trajectory ++ more := by
  obtain ⟨t1, h1, h2, m1, h3⟩ := balanced_stack g hw t.push
  refine ⟨{ t1 with stack := t.stack, x := t.x, y := t.y, orientation := t.orientation }, ?_, rfl, rfl, rfl, rfl, m1, h3⟩
  rw [runTurtle_cons]
  simp only [TurtleOp.call]
  rw [runTurtle_append, h1]
  simp only
  rw [runTurtle_cons]
  simp only [TurtleOp.call, Turtle.pop, h2, Turtle.push]
  rfl

/-- Right angles on the integers. -/
def Ex.quarter : Trig Int :=
  ⟨fun a => if a % 360 = 90 then 1 else if a % 360 = 270 then -1 else 0,
   fun a => if a % 360 = 0 then 1 else if a % 360 = 180 then -1 else 0⟩
example : Balanced [TurtleOp.forward (2 : Int), .push, .rotate 90, .forward 1, .pop, .forward 1] :=
  .move _ _ rfl (.bracket [.rotate 90, .forward 1] [.forward 1] (.move _ _ rfl (.move _ _ rfl .nil)) (.move _ _ rfl .nil))
example : runTurtle Ex.quarter [.push, .forward 2, .push, .rotate 90, .forward 1, .pop, .forward 1, .pop] (Turtle.start 0 0 0) =
    .ok ⟨0, 0, 0, [([0, 0], [0, 2]), ([0, 1], [2, 2]), ([0, 0], [2, 3])], []⟩ := by decide

/-- C65, `pop` raises exactly on an empty stack; nothing else raises. -/
theorem C65_pop (g : Trig R) (op : TurtleOp R) (t : Turtle R) :
    (∃ e, op.call g t = .error e) ↔ op = .pop ∧ t.stack = [] := by
  cases op with
  | pop =>
    unfold TurtleOp.call Turtle.pop
    cases hs : t.stack with
    | nil => simp
    | cons a l => simp
  | forward d => simp [TurtleOp.call]
  | rotate a => simp [TurtleOp.call]
  | push => simp [TurtleOp.call]

/-- `push` and `pop` as +1 and -1. -/
def depth (w : List (TurtleOp R)) : Int :=
  (w.map (fun op => match op with | .push => (1 : Int) | .pop => -1 | _ => 0)).sum

/-- C65, whole programs: a program raises exactly when a prefix of it pops more than was pushed. -/
theorem C65_raises (g : Trig R) (w : List (TurtleOp R)) : ∀ t : Turtle R,
    (∃ e, runTurtle g w t = .error e) ↔ ∃ p, p <+: w ∧ (t.stack.length : Int) + depth p < 0 := by
  induction w with
  | nil =>
    intro t
    constructor
    · rintro ⟨e, h⟩; cases h
    · rintro ⟨p, hp, hd⟩
      rw [List.prefix_nil.1 hp] at hd
      simp [depth] at hd
      omega
  | cons op w ih =>
    intro t
    rw [runTurtle_cons]
    have hpre : ∀ (d : Int), (∃ p, p <+: op :: w ∧ (t.stack.length : Int) + depth p < 0) ↔
        ∃ p, p <+: w ∧ (t.stack.length : Int) + depth (op :: p) < 0 := by
      intro d
      constructor
      · rintro ⟨p, hp, hd⟩
        cases p with
        | nil => simp [depth] at hd; omega
        | cons a p =>
          obtain ⟨h1, h2⟩ := List.cons_prefix_cons.1 hp
          exact ⟨p, h2, by rw [← h1]; exact hd⟩
      · rintro ⟨p, hp, hd⟩
        exact ⟨op :: p, List.cons_prefix_cons.2 ⟨rfl, hp⟩, hd⟩
    rw [hpre 0]
    cases op with
    | forward d =>
      simp only [TurtleOp.call]
      rw [ih]
      simp [depth, Turtle.forward]
    | rotate a =>
      simp only [TurtleOp.call]
      rw [ih]
      simp [depth, Turtle.rotate]
    | push =>
      simp only [TurtleOp.call]
      rw [ih]
      have : ∀ p : List (TurtleOp R), (((t.push).stack.length : Int) + depth p < 0) ↔
          ((t.stack.length : Int) + depth (.push :: p) < 0) := by
        intro p; simp [depth, Turtle.push]; omega
      simp only [this]
    | pop =>
      simp only [TurtleOp.call, Turtle.pop]
      cases hs : t.stack with
      | nil =>
        simp only [Except.error.injEq, exists_eq', List.length_nil, Int.natCast_zero, true_iff]
        exact ⟨[], List.nil_prefix, by simp [depth]⟩
      | cons a l =>
        simp only
        rw [ih]
        have : ∀ p : List (TurtleOp R), ((l.length : Int) + depth p < 0) ↔
            (((a :: l).length : Int) + depth (.pop :: p) < 0) := by
          intro p; simp [depth]; omega
        simp only [this]
example : ∃ e, runTurtle Ex.quarter [.push, .pop, .pop, .push] (Turtle.start 0 0 0) = .error e :=
  (C65_raises Ex.quarter _ _).2 ⟨[.push, .pop, .pop], by decide, by decide⟩

/-- C65, `forward` appends one segment, from the current position to the new one, in the direction of the orientation. -/
theorem C65_forward (g : Trig R) (d : R) (t : Turtle R) :
    ∃ t', TurtleOp.call g (.forward d) t = .ok t' ∧
      t'.trajectory = t.trajectory ++ [([t.x, t'.x], [t.y, t'.y])] ∧
      t'.x = g.sin t.orientation * d + t.x ∧ t'.y = g.cos t.orientation * d + t.y ∧
      t'.orientation = t.orientation ∧ t'.stack = t.stack := ⟨_, rfl, rfl, rfl, rfl, rfl, rfl⟩
example : (TurtleOp.call Ex.quarter (.forward 3) ⟨1, 1, 90, [], []⟩) = .ok ⟨4, 1, 90, [([1, 4], [1, 1])], []⟩ := by decide

/-- Consecutive segments that lead from `(x, y)` to `(x', y')`. -/
inductive Chain : R → R → List (List R × List R) → R → R → Prop
  | nil (x y : R) : Chain x y [] x y
  | cons (x y x1 y1 x' y' : R) (l : List (List R × List R)) :
      Chain x1 y1 l x' y' → Chain x y (([x, x1], [y, y1]) :: l) x' y'

/-- C65, connectedness: a run of moves (no brackets) draws one segment per `forward`, and the segments lead without a gap
from the position before to the position after. -/
theorem C65_connected (g : Trig R) (w : List (TurtleOp R)) (hw : ∀ op ∈ w, op.isMove = true) : ∀ t : Turtle R,
    ∃ t' more, runTurtle g w t = .ok t' ∧ t'.trajectory = t.trajectory ++ more ∧ Chain t.x t.y more t'.x t'.y ∧
      more.length = w.countP (fun op => match op with | .forward _ => true | _ => false) := by
  induction w with
  | nil => intro t; exact ⟨t, [], rfl, by simp, .nil _ _, rfl⟩
  | cons op w ih =>
    intro t
    have hop := hw op (by simp)
    cases op with
    | forward d =>
      obtain ⟨t', more, h1, h2, h3, h4⟩ := ih (fun o ho => hw o (by simp [ho])) (t.forward g d)
      refine ⟨t', ([t.x, (t.forward g d).x], [t.y, (t.forward g d).y]) :: more, ?_, ?_, .cons _ _ _ _ _ _ _ h3, ?_⟩
      · rw [runTurtle_cons]; exact h1
      · rw [h2]; simp [Turtle.forward]
      · rw [List.countP_cons_of_pos (by rfl), List.length_cons, h4]
    | rotate a =>
      obtain ⟨t', more, h1, h2, h3, h4⟩ := ih (fun o ho => hw o (by simp [ho])) (t.rotate a)
      refine ⟨t', more, ?_, h2, h3, ?_⟩
      · rw [runTurtle_cons]; exact h1
      · rw [List.countP_cons_of_neg (fun h => by cases h), h4]
    | push => cases hop
    | pop => cases hop
example : ∃ t', runTurtle Ex.quarter [.forward 2, .rotate 90, .forward 1] (Turtle.start 0 0 0) = .ok t' ∧
    Chain 0 0 t'.trajectory 1 2 :=
  ⟨⟨1, 2, 90, [([0, 0], [0, 2]), ([0, 1], [2, 2])], []⟩, by decide, .cons _ _ _ _ _ _ _ (.cons _ _ _ _ _ _ _ (.nil _ _))⟩

end

/-- C65, length: with exact sine and cosine, a segment has the length of the distance moved. -/
theorem C65_length (g : Trig Rat) (hg : ∀ a, g.sin a * g.sin a + g.cos a * g.cos a = 1) (d : Rat) (t : Turtle Rat) :
    ((t.forward g d).x - t.x) * ((t.forward g d).x - t.x) + ((t.forward g d).y - t.y) * ((t.forward g d).y - t.y) =
      d * d := by
  have h := hg t.orientation
  simp only [Turtle.forward]
  generalize g.sin t.orientation = s at *
  generalize g.cos t.orientation = c at *
  have : (s * d + t.x - t.x) * (s * d + t.x - t.x) + (c * d + t.y - t.y) * (c * d + t.y - t.y) =
      (s * s + c * c) * (d * d) := by grind
  rw [this, h, Rat.one_mul]
example : ∀ a : Rat, (⟨fun _ => 3 / 5, fun _ => 4 / 5⟩ : Trig Rat).sin a * (⟨fun _ => 3 / 5, fun _ => 4 / 5⟩ : Trig Rat).sin a +
    (⟨fun _ => 3 / 5, fun _ => 4 / 5⟩ : Trig Rat).cos a * (⟨fun _ => 3 / 5, fun _ => 4 / 5⟩ : Trig Rat).cos a = 1 := by
  intro a; show (3 / 5 : Rat) * (3 / 5) + (4 / 5) * (4 / 5) = 1; decide +kernel

/-! ## C75 -/

section
variable {S σ : Type} [DecidableEq S]

theorem renderString_cons (b : Dict S (Binding σ)) (s : S) (w : List S) (u : σ) :
    renderString b (s :: w) u = match b.get? s with
      | none => .error .keyError
      | some i => match i.instructions.foldlM (fun u i => i u) u with
        | .error e => .error e
        | .ok u' => renderString b w u' := by
  unfold renderString
  rw [List.foldlM_cons]
  cases b.get? s with
  | none => rfl
  | some i =>
    simp only [bind, Except.bind]
    split <;> simp_all

/-- C75.  Rendering executes the instructions bound to the symbols of the string, in order: if every symbol is bound, the
effect is that of the concatenation of the instruction lists. -/
theorem C75_render (b : Dict S (Binding σ)) (is : S → List (σ → Except Err σ)) (w : List S)
    (hb : ∀ s ∈ w, (b.get? s).map Binding.instructions = some (is s)) (u : σ) :
    renderString b w u = (w.flatMap is).foldlM (fun u i => i u) u := by
  induction w generalizing u with
  | nil => rfl
  | cons s w ih =>
    obtain ⟨i, h1, h2⟩ := Option.map_eq_some_iff.1 (hb s (by simp))
    rw [renderString_cons, h1, List.flatMap_cons, List.foldlM_append]
    simp only [bind, Except.bind]
    rw [h2]
    cases (is s).foldlM (fun u i => i u) u with
    | error e => rfl
    | ok u' => exact ih (fun s' hs => hb s' (by simp [hs])) u'

/-- C75, the string is that of the state: its symbols in the order of the labels. -/
theorem C75_state {L : Type} [DecidableEq L] (le : L → L → Bool) (hle : TotalOrder le) (d : Dict L (List S))
    (hd : d.keys.Nodup) (b : Dict S (Binding σ)) (u : σ) :
    ∃ rows, RowOf (fun x y => le x y = true ∧ x ≠ y) d rows ∧ renderLSystem le b d u = renderString b rows.flatten u :=
  ⟨_, activityRow_spec hle hd, rfl⟩

/-- C75, an unbound symbol raises `KeyError` (unless an earlier instruction raised). -/
theorem C75_unbound (b : Dict S (Binding σ)) (w : List S) (s : S) (hs : s ∈ w) (hb : b.get? s = none) (u : σ) :
    ∃ e, renderString b w u = .error e := by
  induction w generalizing u with
  | nil => cases hs
  | cons a w ih =>
    rw [renderString_cons]
    cases ha : b.get? a with
    | none => exact ⟨_, rfl⟩
    | some i =>
      simp only
      split
      · exact ⟨_, rfl⟩
      · refine ih ?_ _
        rcases List.mem_cons.1 hs with rfl | h
        · rw [ha] at hb; cases hb
        · exact h

/-- Strings with balanced brackets `op`, `cl`. -/
inductive BalancedString (op cl : S) : List S → Prop
  | nil : BalancedString op cl []
  | symbol (s : S) (w : List S) : s ≠ op → s ≠ cl → BalancedString op cl w → BalancedString op cl (s :: w)
  | bracket (w w' : List S) : BalancedString op cl w → BalancedString op cl w' → BalancedString op cl (op :: (w ++ cl :: w'))

variable {R : Type} [Add R] [Mul R]

/-- The turtle methods bound to a symbol, as instructions. -/
def asBinding (g : Trig R) (ops : List (TurtleOp R)) : Binding (Turtle R) := .many (ops.map (fun op => op.call g))

theorem asBinding_run (g : Trig R) (ops : List (TurtleOp R)) (t : Turtle R) :
    (asBinding g ops).instructions.foldlM (fun u i => i u) t = runTurtle g ops t := by
  unfold runTurtle asBinding Binding.instructions
  simp only
  rw [List.foldlM_map]

/-- C75, brackets.  Symbols bound to turtle methods: `op` to `push`, `cl` to `pop`, every other symbol to a balanced list
of methods.  Rendering a string with balanced brackets does not raise, and the stack ends as it started. -/
theorem C75_stack (g : Trig R) (bind : S → List (TurtleOp R)) (op cl : S) (hop : bind op = [.push]) (hcl : bind cl = [.pop])
    (hother : ∀ s, s ≠ op → s ≠ cl → Balanced (bind s)) (b : Dict S (Binding (Turtle R))) (w : List S)
    (hb : ∀ s ∈ w, b.get? s = some (asBinding g (bind s))) (hw : BalancedString op cl w) (t : Turtle R) :
    ∃ t', renderString b w t = .ok t' ∧ t'.stack = t.stack := by
  have hbal : Balanced (w.flatMap bind) := by
    clear hb
    have happ : ∀ {x y : List (TurtleOp R)}, Balanced x → Balanced y → Balanced (x ++ y) := by
      intro x y hx hy
      induction hx with
      | nil => exact hy
      | move o w ho _ ih => exact .move o _ ho ih
      | bracket w w' h1 h2 ih1 ih2 =>
        rw [List.cons_append, List.append_assoc, List.cons_append]
        exact .bracket _ _ h1 ih2
    induction hw with
    | nil => exact .nil
    | symbol s w h1 h2 _ ih => rw [List.flatMap_cons]; exact happ (hother s h1 h2) ih
    | bracket w w' _ _ ih1 ih2 =>
      rw [List.flatMap_cons, List.flatMap_append, List.flatMap_cons, hop, hcl]
      exact .bracket _ _ ih1 ih2
  obtain ⟨t', h1, h2, _⟩ := balanced_stack g hbal t
  refine ⟨t', ?_, h2⟩
  rw [C75_render b (fun s => (bind s).map (fun o => o.call g)) w (fun s hs => by rw [hb s hs]; rfl), ← h1]
  unfold runTurtle
  rw [← List.map_flatMap, List.foldlM_map]
example : BalancedString '[' ']' "F[+F]F".toList :=
  .symbol _ _ (by decide) (by decide) (.bracket ['+', 'F'] ['F'] (.symbol _ _ (by decide) (by decide)
    (.symbol _ _ (by decide) (by decide) .nil)) (.symbol _ _ (by decide) (by decide) .nil))
example :
    let bind : Char → List (TurtleOp Int) := fun c => if c = '[' then [.push] else if c = ']' then [.pop]
      else if c = '+' then [.rotate 90] else [.forward 1]
    let b : Dict Char (Binding (Turtle Int)) := ['F', '+', '[', ']'].map (fun c => (c, asBinding Ex.quarter (bind c)))
    renderString b "F[+F]F".toList (Turtle.start 0 0 0) =
      .ok ⟨0, 2, 0, [([0, 0], [0, 1]), ([0, 1], [1, 1]), ([0, 0], [1, 2])], []⟩ := by decide

end
end Verif
