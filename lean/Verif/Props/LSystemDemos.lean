import Verif.Model.LSystemDemos
import Verif.Spec.Angles
import Verif.Props.SubstDemos
import Verif.Props.Turtle
/-! # C115: what the demos of Lindenmayer systems draw -/

namespace Verif
open Spec

/-! ## The strings -/

theorem allE_strDtype (cs : List Char) : allE strDtype cs = .ok (cs.map (fun c => [c])) := by
  induction cs with
  | nil => rfl
  | cons c cs ih => simp [allE, strDtype, ih]

theorem growWord_lAxiom (f : Char → List Char) (s : List Char) (t : Nat) :
    growWord (fun v : List Char => (v.flatMap f).map (fun c => [c])) t (lAxiom s) = lAxiom (growWord f t s) :=
  growWord_map (e := fun c => [c]) (fun c => by simp) s t

theorem flatten_lAxiom (s : List Char) : (lAxiom s).flatten = s := by
  induction s with
  | nil => rfl
  | cons c s ih => simpa [lAxiom] using ih

/-- C115: rendering row `t` of a run of an L-system renders the string grown in `t` steps. -/
theorem C115_render {A I κ σ : Type} [DecidableEq κ] {cfg : Config Nat A (List Char) I SubstState κ} {ax : List Char}
    {rules : Dict (List Char) (List Char)} {constants : List (List Char)} {sys : SubstSystem Char A}
    (hsys : substInit (lAxiom ax) rules constants = .ok sys) (hsize : sys.size = 1) {f : Char → List Char} {P : Char → Prop}
    (hsub : ∀ c, P c → (if [c] ∈ constants then some [c] else rules.get? [c]) = some (f c))
    (hP : ∀ c, P c → f c ≠ [] ∧ ∀ d ∈ f c, P d) (hw : ∀ c ∈ ax, P c) {T : Nat}
    (hc : SubstConfig cfg strStr strDtype sys.rules sys.size T) (hT : 1 ≤ T) {r : Nat} {wd : World Nat A SubstState}
    (hr : wd.heap[r]? = some sys.network) (hu : wd.user = sys.state) {fuel : Nat} (hf : T ≤ fuel) :
    ∃ res, evolve fuel cfg (some (.list (lAxiom ax))) r wd = .ok res ∧ res.states.length = T ∧
      ∀ t, t < T → ∃ d, res.acts cfg t = some d ∧ ∀ (b : Dict Char (Binding σ)) (u : σ),
        renderLSystem (fun a b => decide (a ≤ b)) b d u = renderString b (growWord f t ax) u := by
  obtain ⟨res, h1, h2, h3⟩ := C114_run hsys hsize (f := fun v : List Char => (v.flatMap f).map (fun c => [c]))
    (P := fun v => ∃ c, v = [c] ∧ P c)
    (by
      rintro v ⟨c, rfl, hc⟩
      unfold replacement
      simp only [List.flatMap_cons, List.flatMap_nil, List.append_nil, strStr, hsub c hc]
      exact allE_strDtype (f c))
    (by
      rintro v ⟨c, rfl, hc⟩
      obtain ⟨h4, h5⟩ := hP c hc
      refine ⟨by simpa using h4, ?_⟩
      intro d hd
      simp only [List.flatMap_cons, List.flatMap_nil, List.append_nil, List.mem_map] at hd
      obtain ⟨e, he, rfl⟩ := hd
      exact ⟨e, rfl, h5 e he⟩)
    (by
      intro v hv
      obtain ⟨c, hc, rfl⟩ := List.mem_map.1 hv
      exact ⟨c, rfl, hw c hc⟩) hc hT hr hu hf
  refine ⟨res, h1, h2, fun t ht => ?_⟩
  obtain ⟨d, h4, h5⟩ := h3 t ht
  refine ⟨d, h4, fun b u => ?_⟩
  unfold renderLSystem stateString
  rw [row_of_reads h5, growWord_lAxiom, flatten_lAxiom]

section
variable {R : Type} [Lean.Grind.CommRing R]

/-- Rendering a string whose symbols are bound to methods of the turtle runs these methods. -/
theorem render_turtle (g : Trig R) (ops : Char → List (TurtleOp R)) (b : Dict Char (Binding (Turtle R))) (w : List Char)
    (hb : ∀ s ∈ w, (b.get? s).map Binding.instructions = some ((ops s).map (fun op => op.call g))) (t : Turtle R) :
    renderString b w t = runTurtle g (w.flatMap ops) t := by
  rw [C75_render b _ w hb]
  unfold runTurtle
  rw [← List.map_flatMap, List.foldlM_map]

/-- A program that displaces the turtle by `(sx o, sy o)` when it starts with orientation `o`, turns it by `a`, draws `k` segments
and leaves the stack as it was. -/
def Draws (g : Trig R) (w : List (TurtleOp R)) (sx sy : R → R) (a : R) (k : Nat) : Prop :=
  ∀ t : Turtle R, ∃ t', runTurtle g w t = .ok t' ∧ t'.x = t.x + sx t.orientation ∧ t'.y = t.y + sy t.orientation ∧
    t'.orientation = t.orientation + a ∧ t'.stack = t.stack ∧ t'.trajectory.length = t.trajectory.length + k

theorem Draws.append {g : Trig R} {w w' : List (TurtleOp R)} {sx sy sx' sy' : R → R} {a a' : R} {k k' : Nat}
    (h : Draws g w sx sy a k) (h' : Draws g w' sx' sy' a' k') :
    Draws g (w ++ w') (fun o => sx o + sx' (o + a)) (fun o => sy o + sy' (o + a)) (a + a') (k + k') := by
  intro t
  obtain ⟨t1, h1, h2, h3, h4, h5, h6⟩ := h t
  obtain ⟨t2, g1, g2, g3, g4, g5, g6⟩ := h' t1
  refine ⟨t2, by rw [runTurtle_append, h1]; exact g1, ?_, ?_, ?_, by rw [g5, h5], by omega⟩
  · rw [g2, h2, h4]; grind
  · rw [g3, h3, h4]; grind
  · rw [g4, h4]; grind

theorem Draws.congr {g : Trig R} {w : List (TurtleOp R)} {sx sy sx' sy' : R → R} {a a' : R} {k k' : Nat} (h : Draws g w sx sy a k)
    (hx : ∀ o, sx o = sx' o) (hy : ∀ o, sy o = sy' o) (ha : a = a') (hk : k = k') : Draws g w sx' sy' a' k' := by
  have e1 : sx = sx' := funext hx
  have e2 : sy = sy' := funext hy
  subst e1 e2 ha hk
  exact h

theorem draws_forward (g : Trig R) : Draws g [.forward 1] g.sin g.cos 0 1 := by
  intro t
  refine ⟨t.forward g 1, rfl, ?_, ?_, ?_, rfl, by simp [Turtle.forward]⟩
  · simp only [Turtle.forward]; grind
  · simp only [Turtle.forward]; grind
  · simp only [Turtle.forward]; grind

theorem draws_rotate (g : Trig R) (a : R) : Draws g [.rotate a] (fun _ => 0) (fun _ => 0) a 0 := by
  intro t
  refine ⟨t.rotate a, rfl, ?_, ?_, rfl, rfl, rfl⟩
  · simp only [Turtle.rotate]; grind
  · simp only [Turtle.rotate]; grind

/-! ## The Koch curve -/

/-- The replacement of the symbols in the Koch demo. -/
def kochStep (c : Char) : List Char := if c = 'F' then ['F', '+', 'F', '-', 'F', '-', 'F', '+', 'F'] else [c]

/-- The methods bound to the symbols in the Koch demo. -/
def kochOps (c : Char) : List (TurtleOp R) := if c = 'F' then [.forward 1] else if c = '+' then [.rotate (-90)] else [.rotate 90]

theorem koch_draws {g : Trig R} (hg : QuarterTurns g.sin g.cos) (n : Nat) :
    Draws g ((growWord kochStep n ['F']).flatMap kochOps) (fun o => 3 ^ n * g.sin o) (fun o => 3 ^ n * g.cos o) 0 (5 ^ n) := by
  induction n with
  | zero =>
    refine (draws_forward g).congr ?_ ?_ rfl rfl
    · intro o; grind
    · intro o; grind
  | succ n ih =>
    have hplus := draws_rotate g (-90)
    have hminus := draws_rotate g 90
    have e : (growWord kochStep (n + 1) ['F']).flatMap (kochOps (R := R)) =
        (growWord kochStep n ['F']).flatMap kochOps ++ ([.rotate (-90)] ++ ((growWord kochStep n ['F']).flatMap kochOps ++
        ([.rotate 90] ++ ((growWord kochStep n ['F']).flatMap kochOps ++ ([.rotate 90] ++ ((growWord kochStep n ['F']).flatMap kochOps ++
        ([.rotate (-90)] ++ (growWord kochStep n ['F']).flatMap kochOps))))))) := by
      rw [growWord_front, show ['F'].flatMap kochStep = ['F', '+', 'F', '-', 'F', '-', 'F', '+', 'F'] from rfl]
      repeat rw [growWord_cons kochStep n _ (_ :: _)]
      rw [growWord_fixed (c := '+') rfl, growWord_fixed (c := '-') rfl]
      simp only [List.flatMap_append]
      rfl
    rw [e]
    refine (ih.append (hplus.append (ih.append (hminus.append (ih.append (hminus.append (ih.append (hplus.append ih)))))))).congr ?_ ?_ ?_ ?_
    · intro o
      have e0 : ∀ x : R, x + 0 = x := by grind
      have e1 : o + -90 + 90 = o := by grind
      have e2 : o + 90 + -90 = o := by grind
      simp only [e0, e1, e2, Lean.Grind.Semiring.pow_succ, hg.sinLeft, hg.sinRight]
      generalize g.sin o = s
      generalize g.cos o = c
      generalize (3 : R) ^ n = p
      grind
    · intro o
      have e0 : ∀ x : R, x + 0 = x := by grind
      have e1 : o + -90 + 90 = o := by grind
      have e2 : o + 90 + -90 = o := by grind
      simp only [e0, e1, e2, Lean.Grind.Semiring.pow_succ, hg.cosLeft, hg.cosRight]
      generalize g.sin o = s
      generalize g.cos o = c
      generalize (3 : R) ^ n = p
      grind
    · grind
    · omega

/-- The symbols of the Koch demo. -/
def kochSymbol (c : Char) : Prop := c = 'F' ∨ c = '+' ∨ c = '-'

theorem koch_closed (c : Char) (h : kochSymbol c) : kochStep c ≠ [] ∧ ∀ d ∈ kochStep c, kochSymbol d := by
  rcases h with rfl | rfl | rfl <;> refine ⟨by decide, ?_⟩ <;> simp [kochStep, kochSymbol]

theorem koch_sub (c : Char) (h : kochSymbol c) :
    (if [c] ∈ turnSigns then some [c] else Dict.get? kochRules [c]) = some (kochStep c) := by
  rcases h with rfl | rfl | rfl <;> decide +kernel

theorem koch_bound (g : Trig R) (c : Char) (h : kochSymbol c) :
    (Dict.get? (kochBindings g) c).map Binding.instructions = some ((kochOps c).map (fun op => op.call g)) := by
  rcases h with rfl | rfl | rfl <;> rfl

theorem moves_of_ops {ops : Char → List (TurtleOp R)} (h : ∀ c, ∀ op ∈ ops c, op.isMove = true) (w : List Char) :
    ∀ op ∈ w.flatMap ops, op.isMove = true := by
  intro op ho
  obtain ⟨c, _, hc⟩ := List.mem_flatMap.1 ho
  exact h c op hc

theorem kochOps_move (c : Char) : ∀ op ∈ kochOps (R := R) c, op.isMove = true := by
  intro op ho
  unfold kochOps at ho
  split at ho
  · rw [List.mem_singleton.1 ho]; rfl
  · split at ho <;> (rw [List.mem_singleton.1 ho]; rfl)

variable {A I κ : Type} [DecidableEq κ]

/-- C115, the Koch demo: for exact right angles, the curve of row `t` consists of `5^t` connected segments and leads from the
origin to the point `(3^t, 0)`; the turtle looks in the direction in which it started. -/
theorem C115_koch {g : Trig R} (hg : QuarterTurns g.sin g.cos) (h0 : g.sin 0 = 0) (h1 : g.cos 0 = 1)
    {cfg : Config Nat A (List Char) I SubstState κ} {sys : SubstSystem Char A}
    (hsys : substInit (lAxiom ['F']) kochRules turnSigns = .ok sys) {T : Nat}
    (hc : SubstConfig cfg strStr strDtype sys.rules sys.size T) (hT : 1 ≤ T) {r : Nat} {wd : World Nat A SubstState}
    (hr : wd.heap[r]? = some sys.network) (hu : wd.user = sys.state) {fuel : Nat} (hf : T ≤ fuel) :
    ∃ res, evolve fuel cfg (some (.list (lAxiom ['F']))) r wd = .ok res ∧ res.states.length = T ∧
      ∀ t : Nat, t < T → ∃ d t', res.acts cfg t = some d ∧
        renderLSystem (fun a b => decide (a ≤ b)) (kochBindings g) d (Turtle.start 0 0 90) = .ok t' ∧
        t'.trajectory.length = 5 ^ t ∧ Chain 0 0 t'.trajectory t'.x t'.y ∧ t'.x = 3 ^ t ∧ t'.y = 0 ∧ t'.orientation = 90 ∧
        t'.stack = [] := by
  have hs : sys.size = 1 := by cases hsys; rfl
  have hw : ∀ c ∈ ['F'], kochSymbol c := by intro c hc; rw [List.mem_singleton.1 hc]; exact Or.inl rfl
  obtain ⟨res, e1, e2, e3⟩ := C115_render (σ := Turtle R) hsys hs koch_sub koch_closed hw hc hT hr hu hf
  refine ⟨res, e1, e2, fun t ht => ?_⟩
  obtain ⟨d, e4, e5⟩ := e3 t ht
  obtain ⟨t', f1, f2, f3, f4, f5, f6⟩ := koch_draws hg t (Turtle.start 0 0 90)
  obtain ⟨t'', more, g1, g2, g3, _⟩ := C65_connected g _ (moves_of_ops kochOps_move (growWord kochStep t ['F'])) (Turtle.start 0 0 90)
  rw [f1] at g1
  cases g1
  have hs90 : g.sin 90 = 1 := by
    have := hg.sinRight 0
    rw [show (0 : R) + 90 = 90 by grind] at this
    rw [this, h1]
  have hc90 : g.cos 90 = 0 := by
    have := hg.cosRight 0
    rw [show (0 : R) + 90 = 90 by grind] at this
    rw [this, h0]
    grind
  refine ⟨d, t', e4, ?_, ?_, ?_, ?_, ?_, ?_, f5⟩
  · rw [e5, render_turtle g kochOps]
    · exact f1
    · exact fun c hc => koch_bound g c (growWord_inv (fun c hc => (koch_closed c hc).2) hw t c hc)
  · rw [f6]; simp [Turtle.start]
  · rw [show t'.trajectory = more by rw [g2]; rfl]; exact g3
  · rw [f2]; simp only [Turtle.start, hs90]; grind
  · rw [f3]; simp only [Turtle.start, hc90]; grind
  · rw [f4]; simp only [Turtle.start]; grind

/-! ## The Sierpinski triangle -/

/-- The replacement of the symbols in the Sierpinski demo. -/
def sierpinskiStep (c : Char) : List Char :=
  if c = 'F' then ['F', '-', 'G', '+', 'F', '+', 'G', '-', 'F'] else if c = 'G' then ['G', 'G'] else [c]

/-- The methods bound to the symbols in the Sierpinski demo. -/
def sierpinskiOps (c : Char) : List (TurtleOp R) :=
  if c = 'F' then [.forward 1] else if c = 'G' then [.forward 1] else if c = '+' then [.rotate (-120)] else [.rotate 120]

theorem sierpinski_G (g : Trig R) (n : Nat) :
    Draws g ((growWord sierpinskiStep n ['G']).flatMap sierpinskiOps) (fun o => 2 ^ n * g.sin o) (fun o => 2 ^ n * g.cos o) 0 (2 ^ n) := by
  induction n with
  | zero =>
    refine (draws_forward g).congr ?_ ?_ rfl rfl
    · intro o; grind
    · intro o; grind
  | succ n ih =>
    have e : (growWord sierpinskiStep (n + 1) ['G']).flatMap (sierpinskiOps (R := R)) =
        (growWord sierpinskiStep n ['G']).flatMap sierpinskiOps ++ (growWord sierpinskiStep n ['G']).flatMap sierpinskiOps := by
      rw [growWord_front, show ['G'].flatMap sierpinskiStep = ['G', 'G'] from rfl, growWord_cons, List.flatMap_append]
    rw [e]
    refine (ih.append ih).congr ?_ ?_ ?_ ?_
    · intro o
      simp only [show o + 0 = o by grind, Lean.Grind.Semiring.pow_succ]
      generalize (2 : R) ^ n = p
      grind
    · intro o
      simp only [show o + 0 = o by grind, Lean.Grind.Semiring.pow_succ]
      generalize (2 : R) ^ n = p
      grind
    · grind
    · omega

theorem sierpinski_F {g : Trig R} (hg : ThirdTurns g.sin g.cos) (n : Nat) :
    Draws g ((growWord sierpinskiStep n ['F']).flatMap sierpinskiOps) (fun o => 2 ^ n * g.sin o) (fun o => 2 ^ n * g.cos o) 0
      (3 ^ (n + 1) - 2 ^ (n + 1)) := by
  induction n with
  | zero =>
    refine (draws_forward g).congr ?_ ?_ rfl rfl
    · intro o; grind
    · intro o; grind
  | succ n ih =>
    have hG := sierpinski_G g n
    have hplus := draws_rotate g (-120)
    have hminus := draws_rotate g 120
    have e : (growWord sierpinskiStep (n + 1) ['F']).flatMap (sierpinskiOps (R := R)) =
        (growWord sierpinskiStep n ['F']).flatMap sierpinskiOps ++ ([.rotate 120] ++ ((growWord sierpinskiStep n ['G']).flatMap sierpinskiOps ++
        ([.rotate (-120)] ++ ((growWord sierpinskiStep n ['F']).flatMap sierpinskiOps ++ ([.rotate (-120)] ++
        ((growWord sierpinskiStep n ['G']).flatMap sierpinskiOps ++
        ([.rotate 120] ++ (growWord sierpinskiStep n ['F']).flatMap sierpinskiOps))))))) := by
      rw [growWord_front, show ['F'].flatMap sierpinskiStep = ['F', '-', 'G', '+', 'F', '+', 'G', '-', 'F'] from rfl]
      repeat rw [growWord_cons sierpinskiStep n _ (_ :: _)]
      rw [growWord_fixed (c := '+') rfl, growWord_fixed (c := '-') rfl]
      simp only [List.flatMap_append]
      rfl
    rw [e]
    refine (ih.append (hminus.append (hG.append (hplus.append (ih.append (hplus.append (hG.append (hminus.append ih)))))))).congr ?_ ?_ ?_ ?_
    · intro o
      have e0 : ∀ x : R, x + 0 = x := by grind
      have e1 : o + 120 + -120 = o := by grind
      have e2 : o + -120 + 120 = o := by grind
      have h := hg.sinSum o
      simp only [e0, e1, e2, Lean.Grind.Semiring.pow_succ]
      generalize (2 : R) ^ n = p
      generalize g.sin (o + 120) = x at *
      generalize g.sin (o + -120) = y at *
      generalize g.sin o = z at *
      grind
    · intro o
      have e0 : ∀ x : R, x + 0 = x := by grind
      have e1 : o + 120 + -120 = o := by grind
      have e2 : o + -120 + 120 = o := by grind
      have h := hg.cosSum o
      simp only [e0, e1, e2, Lean.Grind.Semiring.pow_succ]
      generalize (2 : R) ^ n = p
      generalize g.cos (o + 120) = x at *
      generalize g.cos (o + -120) = y at *
      generalize g.cos o = z at *
      grind
    · grind
    · have h : 2 ^ n ≤ 3 ^ n := Nat.pow_le_pow_left (by decide) n
      simp only [Nat.pow_succ]
      omega

/-- The symbols of the Sierpinski demo. -/
def sierpinskiSymbol (c : Char) : Prop := c = 'F' ∨ c = 'G' ∨ c = '+' ∨ c = '-'

theorem sierpinski_closed (c : Char) (h : sierpinskiSymbol c) : sierpinskiStep c ≠ [] ∧ ∀ d ∈ sierpinskiStep c, sierpinskiSymbol d := by
  rcases h with rfl | rfl | rfl | rfl <;> refine ⟨by decide, ?_⟩ <;> simp [sierpinskiStep, sierpinskiSymbol]

theorem sierpinski_sub (c : Char) (h : sierpinskiSymbol c) :
    (if [c] ∈ turnSigns then some [c] else Dict.get? sierpinskiRules [c]) = some (sierpinskiStep c) := by
  rcases h with rfl | rfl | rfl | rfl <;> decide +kernel

theorem sierpinski_bound (g : Trig R) (c : Char) (h : sierpinskiSymbol c) :
    (Dict.get? (sierpinskiBindings g) c).map Binding.instructions = some ((sierpinskiOps c).map (fun op => op.call g)) := by
  rcases h with rfl | rfl | rfl | rfl <;> rfl

theorem sierpinskiOps_move (c : Char) : ∀ op ∈ sierpinskiOps (R := R) c, op.isMove = true := by
  intro op ho
  unfold sierpinskiOps at ho
  split at ho
  · rw [List.mem_singleton.1 ho]; rfl
  · split at ho
    · rw [List.mem_singleton.1 ho]; rfl
    · split at ho <;> (rw [List.mem_singleton.1 ho]; rfl)

/-- C115, the Sierpinski demo: if directions with 120 degrees between them cancel, the curve of row `t` consists of `3^(t+1)`
connected segments and comes back to the origin. -/
theorem C115_sierpinski {g : Trig R} (hg : ThirdTurns g.sin g.cos)
    {cfg : Config Nat A (List Char) I SubstState κ} {sys : SubstSystem Char A}
    (hsys : substInit (lAxiom sierpinskiAxiom) sierpinskiRules turnSigns = .ok sys) {T : Nat}
    (hc : SubstConfig cfg strStr strDtype sys.rules sys.size T) (hT : 1 ≤ T) {r : Nat} {wd : World Nat A SubstState}
    (hr : wd.heap[r]? = some sys.network) (hu : wd.user = sys.state) {fuel : Nat} (hf : T ≤ fuel) :
    ∃ res, evolve fuel cfg (some (.list (lAxiom sierpinskiAxiom))) r wd = .ok res ∧ res.states.length = T ∧
      ∀ t : Nat, t < T → ∃ d t', res.acts cfg t = some d ∧
        renderLSystem (fun a b => decide (a ≤ b)) (sierpinskiBindings g) d (Turtle.start 0 0 0) = .ok t' ∧
        t'.trajectory.length = 3 ^ (t + 1) ∧ Chain 0 0 t'.trajectory t'.x t'.y ∧ t'.x = 0 ∧ t'.y = 0 ∧ t'.stack = [] := by
  have hs : sys.size = 1 := by cases hsys; rfl
  have hw : ∀ c ∈ sierpinskiAxiom, sierpinskiSymbol c := by
    intro c hc
    simp only [sierpinskiAxiom, List.mem_cons, List.not_mem_nil, or_false] at hc
    unfold sierpinskiSymbol
    rcases hc with h | h | h | h | h <;> simp [h]
  obtain ⟨res, e1, e2, e3⟩ := C115_render (σ := Turtle R) hsys hs sierpinski_sub sierpinski_closed hw hc hT hr hu hf
  refine ⟨res, e1, e2, fun t ht => ?_⟩
  obtain ⟨d, e4, e5⟩ := e3 t ht
  have e : (growWord sierpinskiStep t sierpinskiAxiom).flatMap (sierpinskiOps (R := R)) =
      (growWord sierpinskiStep t ['F']).flatMap sierpinskiOps ++ ([.rotate 120] ++ ((growWord sierpinskiStep t ['G']).flatMap sierpinskiOps ++
      ([.rotate 120] ++ (growWord sierpinskiStep t ['G']).flatMap sierpinskiOps))) := by
    unfold sierpinskiAxiom
    repeat rw [growWord_cons sierpinskiStep t _ (_ :: _)]
    rw [growWord_fixed (c := '-') rfl]
    simp only [List.flatMap_append]
    rfl
  have hG := sierpinski_G g t
  have hminus := draws_rotate g 120
  obtain ⟨t', f1, f2, f3, f4, f5, f6⟩ :=
    ((sierpinski_F hg t).append (hminus.append (hG.append (hminus.append hG)))) (Turtle.start 0 0 0)
  rw [← e] at f1
  obtain ⟨t'', more, g1, g2, g3, _⟩ :=
    C65_connected g _ (moves_of_ops sierpinskiOps_move (growWord sierpinskiStep t sierpinskiAxiom)) (Turtle.start 0 0 0)
  rw [f1] at g1
  cases g1
  have a0 : ∀ x : R, x + 0 = x := by grind
  have a1 : ∀ x : R, x + 120 + 120 = x + 240 := by grind
  refine ⟨d, t', e4, ?_, ?_, ?_, ?_, ?_, f5⟩
  · rw [e5, render_turtle g sierpinskiOps]
    · exact f1
    · exact fun c hc => sierpinski_bound g c (growWord_inv (fun c hc => (sierpinski_closed c hc).2) hw t c hc)
  · rw [f6]
    have h : 2 ^ t ≤ 3 ^ t := Nat.pow_le_pow_left (by decide) t
    simp only [Turtle.start, Nat.pow_succ, List.length_nil]
    omega
  · rw [show t'.trajectory = more by rw [g2]; rfl]; exact g3
  · rw [f2]
    have h := hg.sinSum (Turtle.start (0 : R) 0 0).orientation
    rw [← hg.sinTurn] at h
    simp only [a0, a1]
    rw [show (Turtle.start (0 : R) 0 0).x = 0 from rfl]
    generalize (2 : R) ^ t = p at *
    generalize g.sin ((Turtle.start (0 : R) 0 0).orientation + 120) = x at *
    generalize g.sin ((Turtle.start (0 : R) 0 0).orientation + 240) = y at *
    generalize g.sin (Turtle.start (0 : R) 0 0).orientation = z at *
    grind
  · rw [f3]
    have h := hg.cosSum (Turtle.start (0 : R) 0 0).orientation
    rw [← hg.cosTurn] at h
    simp only [a0, a1]
    rw [show (Turtle.start (0 : R) 0 0).y = 0 from rfl]
    generalize (2 : R) ^ t = p at *
    generalize g.cos ((Turtle.start (0 : R) 0 0).orientation + 120) = x at *
    generalize g.cos ((Turtle.start (0 : R) 0 0).orientation + 240) = y at *
    generalize g.cos (Turtle.start (0 : R) 0 0).orientation = z at *
    grind

end
end Verif
