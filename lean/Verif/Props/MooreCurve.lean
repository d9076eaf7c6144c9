import Verif.Props.LSystemDemos
/-! # C115, the demo of the Moore curve: it fills a square -/

namespace Verif
open Spec

/-- The replacement of the symbols in the demo of the Moore curve. -/
def mooreStep (c : Char) : List Char :=
  if c = 'L' then ['-', 'R', 'F', '+', 'L', 'F', 'L', '+', 'F', 'R', '-']
  else if c = 'R' then ['+', 'L', 'F', '-', 'R', 'F', 'R', '-', 'F', 'L', '+'] else [c]

/-- The methods bound to the symbols in the demo of the Moore curve. -/
def mooreOps (c : Char) : List (TurtleOp Int) :=
  if c = 'F' then [.forward 1] else if c = '+' then [.rotate 90] else if c = '-' then [.rotate (-90)] else []

/-- The program `w` leads from `t` to `t'` through the points `pts` (end points of the segments drawn), by segments of length one. -/
def Traces (g : Trig Int) (w : List (TurtleOp Int)) (t t' : Turtle Int) (pts : List (Int × Int)) : Prop :=
  runTurtle g w t = .ok t' ∧ t'.stack = t.stack ∧ ∃ more, t'.trajectory = t.trajectory ++ more ∧ more.map segEnd = pts ∧
    Chain t.x t.y more t'.x t'.y ∧ ∀ seg ∈ more, UnitSegment seg

theorem chain_append {x y x' y' x'' y'' : Int} {l l' : List (List Int × List Int)} (h : Chain x y l x' y') (h' : Chain x' y' l' x'' y'') :
    Chain x y (l ++ l') x'' y'' := by
  induction h with
  | nil => exact h'
  | cons _ _ _ _ _ _ _ _ ih => exact .cons _ _ _ _ _ _ _ (ih h')

theorem Traces.append {g : Trig Int} {w w' : List (TurtleOp Int)} {t t1 t2 : Turtle Int} {p q : List (Int × Int)}
    (h : Traces g w t t1 p) (h' : Traces g w' t1 t2 q) : Traces g (w ++ w') t t2 (p ++ q) := by
  obtain ⟨h1, h2, m, h3, h4, h5, h6⟩ := h
  obtain ⟨g1, g2, m', g3, g4, g5, g6⟩ := h'
  refine ⟨by rw [runTurtle_append, h1]; exact g1, g2.trans h2, m ++ m', by rw [g3, h3, List.append_assoc], by rw [List.map_append, h4, g4],
    chain_append h5 g5, ?_⟩
  intro seg hs
  rcases List.mem_append.1 hs with h | h
  · exact h6 seg h
  · exact g6 seg h

/-- The four directions. -/
def Axis (s c : Int) : Prop := (s = 0 ∧ c = 1) ∨ (s = 1 ∧ c = 0) ∨ (s = 0 ∧ c = -1) ∨ (s = -1 ∧ c = 0)

theorem traces_forward {g : Trig Int} {t : Turtle Int} (h : Axis (g.sin t.orientation) (g.cos t.orientation)) :
    Traces g [.forward 1] t (t.forward g 1) [(t.x + g.sin t.orientation, t.y + g.cos t.orientation)] := by
  refine ⟨rfl, rfl, [([t.x, (t.forward g 1).x], [t.y, (t.forward g 1).y])], rfl, ?_, .cons _ _ _ _ _ _ _ (.nil _ _), ?_⟩
  · simp [segEnd, Turtle.forward, Int.add_comm]
  · intro seg hs
    rw [List.mem_singleton.1 hs]
    refine ⟨_, _, _, _, rfl, ?_⟩
    simp only [Turtle.forward]
    rcases h with ⟨h1, h2⟩ | ⟨h1, h2⟩ | ⟨h1, h2⟩ | ⟨h1, h2⟩ <;> rw [h1, h2] <;> grind

theorem traces_rotate (g : Trig Int) (t : Turtle Int) (a : Int) : Traces g [.rotate a] t (t.rotate a) [] :=
  ⟨rfl, rfl, [], by simp [Turtle.rotate], rfl, .nil _ _, by simp⟩

/-- The square of `m` times `m` points that reaches from `(x, y)` forwards in the direction `(s, c)`, and to the left (`side = 1`) or to the
right (`side = -1`). -/
def inSquare (side m x y s c : Int) (q : Int × Int) : Prop :=
  0 ≤ (q.1 - x) * s + (q.2 - y) * c ∧ (q.1 - x) * s + (q.2 - y) * c < m ∧
  0 ≤ side * ((q.2 - y) * s - (q.1 - x) * c) ∧ side * ((q.2 - y) * s - (q.1 - x) * c) < m

/-- A program that walks through a square, once through every point, from one corner to the corner straight ahead. -/
def Fills (g : Trig Int) (w : List (TurtleOp Int)) (side m : Int) : Prop :=
  ∀ t : Turtle Int, Axis (g.sin t.orientation) (g.cos t.orientation) → ∃ t' pts, Traces g w t t' pts ∧
    t'.x = t.x + (m - 1) * g.sin t.orientation ∧ t'.y = t.y + (m - 1) * g.cos t.orientation ∧ t'.orientation = t.orientation ∧
    ((t.x, t.y) :: pts).Nodup ∧
    ∀ q, q ∈ (t.x, t.y) :: pts ↔ inSquare side m t.x t.y (g.sin t.orientation) (g.cos t.orientation) q

theorem axis_left {g : Trig Int} (hg : QuarterTurns g.sin g.cos) {o : Int} (h : Axis (g.sin o) (g.cos o)) :
    Axis (g.sin (o + -90)) (g.cos (o + -90)) := by
  rw [hg.sinLeft, hg.cosLeft]
  unfold Axis at *
  omega

theorem axis_right {g : Trig Int} (hg : QuarterTurns g.sin g.cos) {o : Int} (h : Axis (g.sin o) (g.cos o)) :
    Axis (g.sin (o + 90)) (g.cos (o + 90)) := by
  rw [hg.sinRight, hg.cosRight]
  unfold Axis at *
  omega

/-- Four blocks that are disjoint and have no repetitions. -/
theorem four_nodup {A B C D : List (Int × Int)} {a b c d : Int × Int → Prop} (hA : ∀ q, q ∈ A ↔ a q) (hB : ∀ q, q ∈ B ↔ b q)
    (hC : ∀ q, q ∈ C ↔ c q) (hD : ∀ q, q ∈ D ↔ d q) (nA : A.Nodup) (nB : B.Nodup) (nC : C.Nodup) (nD : D.Nodup)
    (h : ∀ q, ¬ (a q ∧ b q) ∧ ¬ (a q ∧ c q) ∧ ¬ (a q ∧ d q) ∧ ¬ (b q ∧ c q) ∧ ¬ (b q ∧ d q) ∧ ¬ (c q ∧ d q)) :
    (A ++ (B ++ (C ++ D))).Nodup := by
  rw [List.nodup_append, List.nodup_append, List.nodup_append]
  refine ⟨nA, ⟨nB, ⟨nC, nD, ?_⟩, ?_⟩, ?_⟩
  · intro x hx y hy e
    subst e
    exact (h x).2.2.2.2.2 ⟨(hC x).1 hx, (hD x).1 hy⟩
  · intro x hx y hy e
    subst e
    rcases List.mem_append.1 hy with hy | hy
    · exact (h x).2.2.2.1 ⟨(hB x).1 hx, (hC x).1 hy⟩
    · exact (h x).2.2.2.2.1 ⟨(hB x).1 hx, (hD x).1 hy⟩
  · intro x hx y hy e
    subst e
    rcases List.mem_append.1 hy with hy | hy
    · exact (h x).1 ⟨(hA x).1 hx, (hB x).1 hy⟩
    · rcases List.mem_append.1 hy with hy | hy
      · exact (h x).2.1 ⟨(hA x).1 hx, (hC x).1 hy⟩
      · exact (h x).2.2.1 ⟨(hA x).1 hx, (hD x).1 hy⟩

set_option maxHeartbeats 1000000 in
/-- Three programs that fill squares, joined by steps and turns as in the replacement of `L` (`e = -90`, `side = 1`) and
`R` (`e = 90`, `side = -1`). -/
theorem fills_step {g : Trig Int} {e e' : Int} (he : e + e' = 0)
    (ax : ∀ o, Axis (g.sin o) (g.cos o) → Axis (g.sin (o + e)) (g.cos (o + e)))
    (ax' : ∀ o, Axis (g.sin o) (g.cos o) → Axis (g.sin (o + e')) (g.cos (o + e')))
    {side m : Int} (hm : 1 ≤ m) (hside : side = 1 ∨ side = -1)
    (hs : ∀ o, g.sin (o + e) = -side * g.cos o) (hc : ∀ o, g.cos (o + e) = side * g.sin o)
    (hs' : ∀ o, g.sin (o + e') = side * g.cos o) (hc' : ∀ o, g.cos (o + e') = -side * g.sin o)
    {u v : List (TurtleOp Int)} (hu : Fills g u side m) (hv : Fills g v (-side) m) :
    Fills g ([.rotate e] ++ (v ++ ([.forward 1] ++ ([.rotate e'] ++ (u ++ ([.forward 1] ++ (u ++ ([.rotate e'] ++ ([.forward 1] ++
      (v ++ [.rotate e])))))))))) side (2 * m) := by
  intro t hax
  have a1 := ax _ hax
  obtain ⟨t1, p1, T1, x1, y1, o1, n1, q1⟩ := hv (t.rotate e) a1
  have o1' : t1.orientation = t.orientation + e := o1
  have F1 := traces_forward (t := t1) (by rw [o1']; exact a1)
  have o2 : ((t1.forward g 1).rotate e').orientation = t.orientation := by
    show t1.orientation + e' = _
    rw [o1']; omega
  obtain ⟨t2, p2, T2, x2, y2, o2', n2, q2⟩ := hu ((t1.forward g 1).rotate e') (by rw [o2]; exact hax)
  rw [o2] at x2 y2 o2' q2
  have F2 := traces_forward (t := t2) (by rw [o2']; exact hax)
  have o3 : (t2.forward g 1).orientation = t.orientation := o2'
  obtain ⟨t3, p3, T3, x3, y3, o3', n3, q3⟩ := hu (t2.forward g 1) (by rw [o3]; exact hax)
  rw [o3] at x3 y3 o3' q3
  have a3 := ax' _ hax
  have o4 : (t3.rotate e').orientation = t.orientation + e' := by show t3.orientation + e' = _; rw [o3']
  have F3 := traces_forward (t := t3.rotate e') (by rw [o4]; exact a3)
  have o5 : ((t3.rotate e').forward g 1).orientation = t.orientation + e' := o4
  obtain ⟨t4, p4, T4, x4, y4, o4', n4, q4⟩ := hv ((t3.rotate e').forward g 1) (by rw [o5]; exact a3)
  rw [o5] at x4 y4 o4' q4
  have hall := (traces_rotate g t e).append (T1.append (F1.append ((traces_rotate g _ e').append (T2.append (F2.append (T3.append
    ((traces_rotate g _ e').append (F3.append (T4.append (traces_rotate g _ e))))))))))
  have r1 : (t.rotate e).orientation = t.orientation + e := rfl
  have r2 : (t.rotate e).x = t.x := rfl
  have r3 : (t.rotate e).y = t.y := rfl
  have r4 : ((t1.forward g 1).rotate e').x = g.sin t1.orientation * 1 + t1.x := rfl
  have r5 : ((t1.forward g 1).rotate e').y = g.cos t1.orientation * 1 + t1.y := rfl
  have r6 : (t2.forward g 1).x = g.sin t2.orientation * 1 + t2.x := rfl
  have r7 : (t2.forward g 1).y = g.cos t2.orientation * 1 + t2.y := rfl
  have r8 : ((t3.rotate e').forward g 1).x = g.sin (t3.rotate e').orientation * 1 + t3.x := rfl
  have r9 : ((t3.rotate e').forward g 1).y = g.cos (t3.rotate e').orientation * 1 + t3.y := rfl
  have r10 : (t3.rotate e').x = t3.x := rfl
  have r11 : (t3.rotate e').y = t3.y := rfl
  rw [r1, r2, r3] at q1
  rw [r2, r3] at n1
  rw [r2, r1] at x1
  rw [r3, r1] at y1
  rw [r4, r5, o1'] at n2 q2
  rw [r4, o1'] at x2
  rw [r5, o1'] at y2
  rw [r6, r7, o2'] at n3 q3
  rw [r6, o2'] at x3
  rw [r7, o2'] at y3
  rw [r8, r9, o4] at n4 q4
  rw [r8, o4] at x4
  rw [r9, o4] at y4
  rw [hs, hc] at q1
  rw [hs] at x1
  rw [hc] at y1
  rw [hs, hc] at n2 q2
  rw [hs] at x2
  rw [hc] at y2
  rw [hs', hc'] at n4 q4
  rw [hs'] at x4
  rw [hc'] at y4
  have k1 : (t1.x + g.sin t1.orientation, t1.y + g.cos t1.orientation) =
      (-side * g.cos t.orientation * 1 + t1.x, side * g.sin t.orientation * 1 + t1.y) := by
    rw [o1', hs, hc]; simp [Int.add_comm]
  have k2 : (t2.x + g.sin t2.orientation, t2.y + g.cos t2.orientation) =
      (g.sin t.orientation * 1 + t2.x, g.cos t.orientation * 1 + t2.y) := by
    rw [o2']; simp [Int.add_comm]
  have k3 : ((t3.rotate e').x + g.sin (t3.rotate e').orientation, (t3.rotate e').y + g.cos (t3.rotate e').orientation) =
      (side * g.cos t.orientation * 1 + t3.x, -side * g.sin t.orientation * 1 + t3.y) := by
    rw [o4, hs', hc', r10, r11]; simp [Int.add_comm]
  rw [k1, k2, k3] at hall
  refine ⟨_, _, hall, ?_, ?_, ?_, ?_⟩
  · show t4.x = _
    rw [x4, x3, x2, x1]
    generalize g.sin t.orientation = s at *
    generalize g.cos t.orientation = c at *
    grind
  · show t4.y = _
    rw [y4, y3, y2, y1]
    generalize g.sin t.orientation = s at *
    generalize g.cos t.orientation = c at *
    grind
  · show t4.orientation + e = _
    rw [o4']; omega
  · have hlist : ∀ f0 f1 f2 f3 : Int × Int, f0 :: ([] ++ (p1 ++ ([f1] ++ ([] ++ (p2 ++ ([f2] ++ (p3 ++ ([] ++ ([f3] ++ (p4 ++ [])))))))))) =
        (f0 :: p1) ++ ((f1 :: p2) ++ ((f2 :: p3) ++ (f3 :: p4))) := by intros; simp
    rw [hlist]
    clear hall F1 F2 F3 T1 T2 T3 T4 k1 k2 k3 hs hc hs' hc' ax ax' hu hv a1 a3
    generalize g.sin t.orientation = s at *
    generalize g.cos t.orientation = c at *
    constructor
    · refine four_nodup q1 q2 q3 q4 n1 n2 n3 n4 ?_
      intro q
      unfold inSquare
      rcases hside with rfl | rfl <;> rcases hax with ⟨rfl, rfl⟩ | ⟨rfl, rfl⟩ | ⟨rfl, rfl⟩ | ⟨rfl, rfl⟩ <;> omega
    · intro q
      simp only [List.mem_append, q1, q2, q3, q4]
      unfold inSquare
      rcases hside with rfl | rfl <;> rcases hax with ⟨rfl, rfl⟩ | ⟨rfl, rfl⟩ | ⟨rfl, rfl⟩ | ⟨rfl, rfl⟩ <;> omega

theorem fills_LR {g : Trig Int} (hg : QuarterTurns g.sin g.cos) (n : Nat) :
    Fills g ((growWord mooreStep n ['L']).flatMap mooreOps) 1 (2 ^ n) ∧ Fills g ((growWord mooreStep n ['R']).flatMap mooreOps) (-1) (2 ^ n) := by
  induction n with
  | zero =>
    have h : ∀ side : Int, side = 1 ∨ side = -1 → Fills g [] side (2 ^ 0) := by
      intro side hside t hax
      refine ⟨t, [], ⟨rfl, rfl, [], by simp, rfl, .nil _ _, by simp⟩, by simp, by simp, rfl, by simp, ?_⟩
      intro q
      generalize g.sin t.orientation = s at *
      generalize g.cos t.orientation = c at *
      simp only [List.mem_singleton, Prod.ext_iff]
      unfold inSquare
      rcases hside with rfl | rfl <;> rcases hax with ⟨rfl, rfl⟩ | ⟨rfl, rfl⟩ | ⟨rfl, rfl⟩ | ⟨rfl, rfl⟩ <;> omega
    exact ⟨h 1 (Or.inl rfl), h (-1) (Or.inr rfl)⟩
  | succ n ih =>
    have hm : (1 : Int) ≤ 2 ^ n := by
      have : 0 < 2 ^ n := Nat.two_pow_pos n
      have e : ((2 ^ n : Nat) : Int) = 2 ^ n := by simp
      omega
    have e2 : (2 : Int) ^ (n + 1) = 2 * 2 ^ n := by rw [Int.pow_succ, Int.mul_comm]
    rw [e2]
    constructor
    · have e : (growWord mooreStep (n + 1) ['L']).flatMap mooreOps =
          [.rotate (-90)] ++ ((growWord mooreStep n ['R']).flatMap mooreOps ++ ([.forward 1] ++ ([.rotate 90] ++
          ((growWord mooreStep n ['L']).flatMap mooreOps ++ ([.forward 1] ++ ((growWord mooreStep n ['L']).flatMap mooreOps ++ ([.rotate 90] ++
          ([.forward 1] ++ ((growWord mooreStep n ['R']).flatMap mooreOps ++ [.rotate (-90)]))))))))) := by
        rw [growWord_front, show ['L'].flatMap mooreStep = ['-', 'R', 'F', '+', 'L', 'F', 'L', '+', 'F', 'R', '-'] from rfl]
        repeat rw [growWord_cons mooreStep n _ (_ :: _)]
        rw [growWord_fixed (c := '+') rfl, growWord_fixed (c := '-') rfl, growWord_fixed (c := 'F') rfl]
        simp only [List.flatMap_append]
        rfl
      rw [e]
      exact fills_step (by decide) (fun o h => axis_left hg h) (fun o h => axis_right hg h) hm (Or.inl rfl)
        (fun o => by rw [hg.sinLeft]; omega) (fun o => by rw [hg.cosLeft]; omega) (fun o => by rw [hg.sinRight]; omega)
        (fun o => by rw [hg.cosRight]; omega) ih.1 ih.2
    · have e : (growWord mooreStep (n + 1) ['R']).flatMap mooreOps =
          [.rotate 90] ++ ((growWord mooreStep n ['L']).flatMap mooreOps ++ ([.forward 1] ++ ([.rotate (-90)] ++
          ((growWord mooreStep n ['R']).flatMap mooreOps ++ ([.forward 1] ++ ((growWord mooreStep n ['R']).flatMap mooreOps ++ ([.rotate (-90)] ++
          ([.forward 1] ++ ((growWord mooreStep n ['L']).flatMap mooreOps ++ [.rotate 90]))))))))) := by
        rw [growWord_front, show ['R'].flatMap mooreStep = ['+', 'L', 'F', '-', 'R', 'F', 'R', '-', 'F', 'L', '+'] from rfl]
        repeat rw [growWord_cons mooreStep n _ (_ :: _)]
        rw [growWord_fixed (c := '+') rfl, growWord_fixed (c := '-') rfl, growWord_fixed (c := 'F') rfl]
        simp only [List.flatMap_append]
        rfl
      rw [e]
      exact fills_step (by decide) (fun o h => axis_right hg h) (fun o h => axis_left hg h) hm (Or.inr rfl)
        (fun o => by rw [hg.sinRight]; omega) (fun o => by rw [hg.cosRight]; omega) (fun o => by rw [hg.sinLeft]; omega)
        (fun o => by rw [hg.cosLeft]; omega) ih.2 ih.1

/-- The curve of the axiom: two squares up, a step to the right, two squares down. -/
theorem moore_walk {g : Trig Int} (hg : QuarterTurns g.sin g.cos) (h0 : g.sin 0 = 0) (h1 : g.cos 0 = 1) (n : Nat) :
    ∃ t' pts, Traces g ((growWord mooreStep n mooreAxiom).flatMap mooreOps) (Turtle.start 0 0 0) t' pts ∧ t'.x = 1 ∧ t'.y = 0 ∧
      ((0, 0) :: pts).Nodup ∧
      ∀ q : Int × Int, q ∈ (0, 0) :: pts ↔ -(2 ^ n) < q.1 ∧ q.1 ≤ 2 ^ n ∧ 0 ≤ q.2 ∧ q.2 < 2 * 2 ^ n := by
  have hL := (fills_LR hg n).1
  have hm : (1 : Int) ≤ 2 ^ n := by
    have : 0 < 2 ^ n := Nat.two_pow_pos n
    have e : ((2 ^ n : Nat) : Int) = 2 ^ n := by simp
    omega
  have e : (growWord mooreStep n mooreAxiom).flatMap mooreOps =
      (growWord mooreStep n ['L']).flatMap mooreOps ++ ([.forward 1] ++ ((growWord mooreStep n ['L']).flatMap mooreOps ++ ([.rotate 90] ++
      ([.forward 1] ++ ([.rotate 90] ++ ((growWord mooreStep n ['L']).flatMap mooreOps ++ ([.forward 1] ++
      (growWord mooreStep n ['L']).flatMap mooreOps))))))) := by
    unfold mooreAxiom
    repeat rw [growWord_cons mooreStep n _ (_ :: _)]
    rw [growWord_fixed (c := '+') rfl, growWord_fixed (c := 'F') rfl]
    simp only [List.flatMap_append]
    rfl
  rw [e]
  generalize (2 : Int) ^ n = m at *
  generalize (growWord mooreStep n ['L']).flatMap mooreOps = w at *
  have hs90 : g.sin 90 = 1 := by rw [← h1]; exact hg.sinRight 0
  have hc90 : g.cos 90 = 0 := by rw [show g.cos 90 = -g.sin 0 from hg.cosRight 0, h0]; rfl
  have hs180 : g.sin 180 = 0 := by rw [show g.sin 180 = g.cos 90 from hg.sinRight 90, hc90]
  have hc180 : g.cos 180 = -1 := by rw [show g.cos 180 = -g.sin 90 from hg.cosRight 90, hs90]
  have ax0 : Axis (g.sin 0) (g.cos 0) := by rw [h0, h1]; exact Or.inl ⟨rfl, rfl⟩
  have ax90 : Axis (g.sin 90) (g.cos 90) := by rw [hs90, hc90]; exact Or.inr (Or.inl ⟨rfl, rfl⟩)
  have ax180 : Axis (g.sin 180) (g.cos 180) := by rw [hs180, hc180]; exact Or.inr (Or.inr (Or.inl ⟨rfl, rfl⟩))
  have z1 : (Turtle.start (0 : Int) 0 0).orientation = 0 := rfl
  have z2 : (Turtle.start (0 : Int) 0 0).x = 0 := rfl
  have z3 : (Turtle.start (0 : Int) 0 0).y = 0 := rfl
  obtain ⟨t1, p1, T1, x1, y1, o1, n1, q1⟩ := hL (Turtle.start 0 0 0) ax0
  rw [z1, h0, z2] at x1
  rw [z1, h1, z3] at y1
  rw [z1] at o1
  rw [z1, z2, z3, h0, h1] at q1
  rw [z2, z3] at n1
  have F1 := traces_forward (t := t1) (by rw [o1]; exact ax0)
  rw [o1, h0, h1] at F1
  have f1x : (t1.forward g 1).x = t1.x + 0 := by show g.sin t1.orientation * 1 + t1.x = _; rw [o1, h0]; omega
  have f1y : (t1.forward g 1).y = t1.y + 1 := by show g.cos t1.orientation * 1 + t1.y = _; rw [o1, h1]; omega
  have f1o : (t1.forward g 1).orientation = 0 := o1
  obtain ⟨t2, p2, T2, x2, y2, o2, n2, q2⟩ := hL (t1.forward g 1) (by rw [f1o]; exact ax0)
  rw [f1o, h0, f1x] at x2
  rw [f1o, h1, f1y] at y2
  rw [f1o] at o2
  rw [f1o, f1x, f1y, h0, h1] at q2
  rw [f1x, f1y] at n2
  have R1 := traces_rotate g t2 90
  have o2' : (t2.rotate 90).orientation = 90 := by show t2.orientation + 90 = 90; rw [o2]; rfl
  have F2 := traces_forward (t := t2.rotate 90) (by rw [o2']; exact ax90)
  rw [o2', hs90, hc90] at F2
  have R2 := traces_rotate g ((t2.rotate 90).forward g 1) 90
  have f2x : (((t2.rotate 90).forward g 1).rotate 90).x = t2.x + 1 := by
    show g.sin (t2.rotate 90).orientation * 1 + t2.x = _; rw [o2', hs90]; omega
  have f2y : (((t2.rotate 90).forward g 1).rotate 90).y = t2.y + 0 := by
    show g.cos (t2.rotate 90).orientation * 1 + t2.y = _; rw [o2', hc90]; omega
  have f2o : (((t2.rotate 90).forward g 1).rotate 90).orientation = 180 := by
    show (t2.rotate 90).orientation + 90 = _; rw [o2']; rfl
  obtain ⟨t3, p3, T3, x3, y3, o3, n3, q3⟩ := hL (((t2.rotate 90).forward g 1).rotate 90) (by rw [f2o]; exact ax180)
  rw [f2o, hs180, f2x] at x3
  rw [f2o, hc180, f2y] at y3
  rw [f2o] at o3
  rw [f2o, f2x, f2y, hs180, hc180] at q3
  rw [f2x, f2y] at n3
  have F3 := traces_forward (t := t3) (by rw [o3]; exact ax180)
  rw [o3, hs180, hc180] at F3
  have f3x : (t3.forward g 1).x = t3.x + 0 := by show g.sin t3.orientation * 1 + t3.x = _; rw [o3, hs180]; omega
  have f3y : (t3.forward g 1).y = t3.y + -1 := by show g.cos t3.orientation * 1 + t3.y = _; rw [o3, hc180]; omega
  have f3o : (t3.forward g 1).orientation = 180 := o3
  obtain ⟨t4, p4, T4, x4, y4, o4, n4, q4⟩ := hL (t3.forward g 1) (by rw [f3o]; exact ax180)
  rw [f3o, hs180, f3x] at x4
  rw [f3o, hc180, f3y] at y4
  rw [f3o, f3x, f3y, hs180, hc180] at q4
  rw [f3x, f3y] at n4
  have hall := T1.append (F1.append (T2.append (R1.append (F2.append (R2.append (T3.append (F3.append T4)))))))
  have w1 : (t2.rotate 90).x = t2.x := rfl
  have w2 : (t2.rotate 90).y = t2.y := rfl
  rw [w1, w2] at hall
  refine ⟨_, _, hall, by omega, by omega, ?_⟩
  have hlist : ∀ f0 f1 f2 f3 : Int × Int, f0 :: (p1 ++ ([f1] ++ (p2 ++ ([] ++ ([f2] ++ ([] ++ (p3 ++ ([f3] ++ p4)))))))) =
      (f0 :: p1) ++ ((f1 :: p2) ++ ((f2 :: p3) ++ (f3 :: p4))) := by intros; simp
  rw [hlist]
  clear hall F1 F2 F3 T1 T2 T3 T4 R1 R2
  constructor
  · refine four_nodup q1 q2 q3 q4 n1 n2 n3 n4 ?_
    intro q
    unfold inSquare
    omega
  · intro q
    simp only [List.mem_append, q1, q2, q3, q4]
    unfold inSquare
    omega

/-- The symbols of the demo of the Moore curve. -/
def mooreSymbol (c : Char) : Prop := c = 'L' ∨ c = 'R' ∨ c = 'F' ∨ c = '+' ∨ c = '-'

theorem moore_closed (c : Char) (h : mooreSymbol c) : mooreStep c ≠ [] ∧ ∀ d ∈ mooreStep c, mooreSymbol d := by
  rcases h with rfl | rfl | rfl | rfl | rfl <;> refine ⟨by decide, ?_⟩ <;> simp [mooreStep, mooreSymbol]

theorem moore_sub (c : Char) (h : mooreSymbol c) :
    (if [c] ∈ mooreConstants then some [c] else Dict.get? mooreRules [c]) = some (mooreStep c) := by
  rcases h with rfl | rfl | rfl | rfl | rfl <;> decide +kernel

theorem moore_bound (g : Trig Int) (c : Char) (h : mooreSymbol c) :
    (Dict.get? (mooreBindings g) c).map Binding.instructions = some ((mooreOps c).map (fun op => op.call g)) := by
  rcases h with rfl | rfl | rfl | rfl | rfl <;> rfl

/-- C115, the demo of the Moore curve: for exact right angles, the curve of row `t` is a connected path of segments of length one that
visits every point of a grid of `2^(t+1)` times `2^(t+1)` points exactly once, and ends next to the point where it started. -/
theorem C115_moore {g : Trig Int} (hg : QuarterTurns g.sin g.cos) (h0 : g.sin 0 = 0) (h1 : g.cos 0 = 1)
    {A I κ : Type} [DecidableEq κ] {cfg : Config Nat A (List Char) I SubstState κ} {sys : SubstSystem Char A}
    (hsys : substInit (lAxiom mooreAxiom) mooreRules mooreConstants = .ok sys) {T : Nat}
    (hc : SubstConfig cfg strStr strDtype sys.rules sys.size T) (hT : 1 ≤ T) {r : Nat} {wd : World Nat A SubstState}
    (hr : wd.heap[r]? = some sys.network) (hu : wd.user = sys.state) {fuel : Nat} (hf : T ≤ fuel) :
    ∃ res, evolve fuel cfg (some (.list (lAxiom mooreAxiom))) r wd = .ok res ∧ res.states.length = T ∧
      ∀ t : Nat, t < T → ∃ d t', res.acts cfg t = some d ∧
        renderLSystem (fun a b => decide (a ≤ b)) (mooreBindings g) d (Turtle.start 0 0 0) = .ok t' ∧
        Chain 0 0 t'.trajectory t'.x t'.y ∧ (∀ seg ∈ t'.trajectory, UnitSegment seg) ∧
        ((0, 0) :: t'.trajectory.map segEnd).Nodup ∧
        (∀ q : Int × Int, q ∈ (0, 0) :: t'.trajectory.map segEnd ↔
          1 - 2 ^ t ≤ q.1 ∧ q.1 < 1 - 2 ^ t + 2 ^ (t + 1) ∧ 0 ≤ q.2 ∧ q.2 < 2 ^ (t + 1)) ∧
        t'.x = 1 ∧ t'.y = 0 ∧ t'.stack = [] := by
  have hs : sys.size = 1 := by cases hsys; rfl
  have hw : ∀ c ∈ mooreAxiom, mooreSymbol c := by
    intro c hc
    simp only [mooreAxiom, List.mem_cons, List.not_mem_nil, or_false] at hc
    unfold mooreSymbol
    rcases hc with h | h | h | h | h | h | h | h | h <;> simp [h]
  obtain ⟨res, e1, e2, e3⟩ := C115_render (σ := Turtle Int) hsys hs moore_sub moore_closed hw hc hT hr hu hf
  refine ⟨res, e1, e2, fun t ht => ?_⟩
  obtain ⟨d, e4, e5⟩ := e3 t ht
  obtain ⟨t', pts, ⟨f1, f2, more, f3, f4, f5, f6⟩, f7, f8, f9, f10⟩ := moore_walk hg h0 h1 t
  have hm : t'.trajectory = more := by rw [f3]; rfl
  subst f4
  have e2 : (2 : Int) ^ (t + 1) = 2 * 2 ^ t := by rw [Int.pow_succ, Int.mul_comm]
  refine ⟨d, t', e4, ?_, by rw [hm]; exact f5, by rw [hm]; exact f6, by rw [hm]; exact f9, ?_, f7, f8, f2⟩
  · rw [e5, render_turtle g mooreOps]
    · exact f1
    · exact fun c hc => moore_bound g c (growWord_inv (fun c hc => (moore_closed c hc).2) hw t c hc)
  · intro q
    rw [hm, f10, e2]
    omega

end Verif
