import Verif.Proofs.Outline
import Verif.Model.HexDemo
import Verif.Props.Rules
import Verif.Props.Utils
import Verif.Props.Perturb
/-! # Properties C124 (the torus and the plane) and C125 (the growth of the two-dimensional demos) -/

namespace Verif
open Spec
section
variable {V I σ κ : Type} [DecidableEq V] [DecidableEq κ]

/-! ## C124 -/

/-- C124, Moore neighbourhood: for every rule that depends on the activity of the cell and on the activities around it in
any order, the states of an ordinary call of `evolve` are those of the automaton on the infinite plane, started from the
initial conditions repeated in both directions; for every size from 3 × 3 on and every number of timesteps. -/
theorem C124_moore (rows cols : Nat) (hrw : 3 ≤ rows) (hcl : 3 ≤ cols) {G : NodeCtx Nat Int V I → Except Err V}
    {F : V → List V → V}
    (hG : ∀ (c : NodeCtx Nat Int V I) l, c.neighbourActs.Perm (c.current :: l) → G c = .ok (F c.current l))
    (cfg : Config Nat Int V I σ κ) (T : Nat) (hT : 1 ≤ T) (h : cfg.Ordinary G T) (N : Net Nat Int)
    (hN : cellularAutomaton2d rows cols 1 "Moore" true = .ok N) (r : Nat) (w : World Nat Int σ)
    (hr : w.heap[r]? = some N) (init : Option (Conds Nat V)) (s : Nat → Nat → V)
    (hlen : (initDict cfg init).length = rows * cols)
    (h0 : ∀ a b, a < rows → b < cols → (initDict cfg init).get? (a * cols + b) = some (s a b))
    (fuel : Nat) (hf : T ≤ fuel) :
    ∃ res, evolve fuel cfg init r w = .ok res ∧ ShowsRun cfg res T (rows * cols)
      (fun t x => planeCA (fun _ => moore8) F (tiled rows cols s) t ((x / cols : Nat) : Int) ((x % cols : Nat) : Int)) := by
  obtain ⟨M, m1, m2⟩ := C41_moore rows cols 1 (Nat.mul_le_mul hrw hcl)
  exact plane_run hrw hcl (moore_directions.row rows) m1 m2 hG cfg T hT h N hN r w hr init s hlen h0 fuel hf

/-- C124, von Neumann neighbourhood. -/
theorem C124_von_neumann (rows cols : Nat) (hrw : 3 ≤ rows) (hcl : 3 ≤ cols) {G : NodeCtx Nat Int V I → Except Err V}
    {F : V → List V → V}
    (hG : ∀ (c : NodeCtx Nat Int V I) l, c.neighbourActs.Perm (c.current :: l) → G c = .ok (F c.current l))
    (cfg : Config Nat Int V I σ κ) (T : Nat) (hT : 1 ≤ T) (h : cfg.Ordinary G T) (N : Net Nat Int)
    (hN : cellularAutomaton2d rows cols 1 "von Neumann" true = .ok N) (r : Nat) (w : World Nat Int σ)
    (hr : w.heap[r]? = some N) (init : Option (Conds Nat V)) (s : Nat → Nat → V)
    (hlen : (initDict cfg init).length = rows * cols)
    (h0 : ∀ a b, a < rows → b < cols → (initDict cfg init).get? (a * cols + b) = some (s a b))
    (fuel : Nat) (hf : T ≤ fuel) :
    ∃ res, evolve fuel cfg init r w = .ok res ∧ ShowsRun cfg res T (rows * cols)
      (fun t x => planeCA (fun _ => vonNeumann4) F (tiled rows cols s) t ((x / cols : Nat) : Int) ((x % cols : Nat) : Int)) := by
  obtain ⟨M, m1, m2⟩ := C41_von_neumann rows cols 1 (Nat.mul_le_mul hrw hcl)
  exact plane_run hrw hcl (vonNeumann_directions.row rows) m1 m2 hG cfg T hT h N hN r w hr init s hlen h0 fuel hf

/-- C124, hexagonal neighbourhood, for an even number of rows (with an odd number the neighbourhoods of the first and the
last row do not fit together, `C42_hex_odd_rows`). -/
theorem C124_hex (rows cols : Nat) (hrw : 3 ≤ rows) (heven : rows % 2 = 0) (hcl : 3 ≤ cols)
    {G : NodeCtx Nat Int V I → Except Err V} {F : V → List V → V}
    (hG : ∀ (c : NodeCtx Nat Int V I) l, c.neighbourActs.Perm (c.current :: l) → G c = .ok (F c.current l))
    (cfg : Config Nat Int V I σ κ) (T : Nat) (hT : 1 ≤ T) (h : cfg.Ordinary G T) (N : Net Nat Int)
    (hN : cellularAutomaton2d rows cols 1 "Hex" true = .ok N) (r : Nat) (w : World Nat Int σ)
    (hr : w.heap[r]? = some N) (init : Option (Conds Nat V)) (s : Nat → Nat → V)
    (hlen : (initDict cfg init).length = rows * cols)
    (h0 : ∀ a b, a < rows → b < cols → (initDict cfg init).get? (a * cols + b) = some (s a b))
    (fuel : Nat) (hf : T ≤ fuel) :
    ∃ res, evolve fuel cfg init r w = .ok res ∧ ShowsRun cfg res T (rows * cols)
      (fun t x => planeCA hex6 F (tiled rows cols s) t ((x / cols : Nat) : Int) ((x % cols : Nat) : Int)) := by
  obtain ⟨M, m1, m2⟩ := C41_hex rows cols 1 (Nat.mul_le_mul hrw hcl)
  exact plane_run hrw hcl (hex_directions heven) m1 m2 hG cfg T hT h N hN r w hr init s hlen h0 fuel hf

omit [DecidableEq V] in
/-- C124: nothing travels faster than one cell per step.  A state of the plane that agrees with the repeated initial
conditions up to `t` rows and `t` columns around a cell gives the cell the same value after `t` steps; in particular a
torus behaves like the plane as long as its edge has not been felt. -/
theorem C124_light_cone (F : V → List V → V) (rows cols : Nat) (s : Nat → Nat → V) (S : Int → Int → V)
    (t : Nat) (x y : Int)
    (h : ∀ i j : Int, i.natAbs ≤ t → j.natAbs ≤ t → tiled rows cols s (x + i) (y + j) = S (x + i) (y + j)) :
    planeCA (fun _ => moore8) F (tiled rows cols s) t x y = planeCA (fun _ => moore8) F S t x y ∧
    planeCA (fun _ => vonNeumann4) F (tiled rows cols s) t x y = planeCA (fun _ => vonNeumann4) F S t x y ∧
    planeCA hex6 F (tiled rows cols s) t x y = planeCA hex6 F S t x y :=
  ⟨planeCA_cone (fun _ => moore_directions.small) t x y h, planeCA_cone (fun _ => vonNeumann_directions.small) t x y h,
    planeCA_cone (hex_directions (rows := 2) rfl).small t x y h⟩

end

/-! ## C125 -/

section
variable {I σ κ : Type} [DecidableEq κ]

omit [DecidableEq κ] in
theorem hexGrowRule_ok (c : NodeCtx Nat Int Int I) (l : List Int) (h : c.neighbourActs.Perm (c.current :: l)) :
    hexGrowRule c = .ok (growsAtOne c.current l) := by
  unfold hexGrowRule growsAtOne
  rw [int_sum_perm h, List.sum_cons]
  split <;> rfl

theorem hexRun_walk (k : Fin 6) (m j : Nat) (a b : Int) :
    planeCA hex6 growsAtOne (loneCell a b) (m + j) (hexWalk (k + 1) j (hexWalk k m (a, b))).1
      (hexWalk (k + 1) j (hexWalk k m (a, b))).2 = ((pascal (m + j) j % 2 : Nat) : Int) := by
  obtain ⟨h1, h2⟩ := hexWalk_side k m j a b (m + j)
  rw [h2]
  show hexRun a b _ _ _ = _
  rw [h1]
  exact hexRun_side a b (m + j) j m (by omega)

/-- C125, the hexagonal demo: on every torus with an even number of rows, started by `init_simple2d`, as long as the
hexagon does not meet itself (`2 t < rows` and `2 t < cols`), the cell that is reached by `m` steps in one direction and
`j` steps in the next, with `m + j = t`, is alive at time `t` exactly if the entry `j` of row `t` of Pascal's triangle is
odd.  At all times, activities are 0 and 1, cells stay alive, and a cell that is alive at time `t` is reached from the
middle by at most `t` steps. -/
theorem C125_hex (rows cols : Nat) (hrw : 3 ≤ rows) (heven : rows % 2 = 0) (hcl : 3 ≤ cols)
    (cfg : Config Nat Int Int I σ κ) (hnat : cfg.natLabel = id) (T : Nat) (hT : 1 ≤ T) (h : cfg.Ordinary hexGrowRule T)
    (N : Net Nat Int) (hN : cellularAutomaton2d rows cols 1 "Hex" true = .ok N) (r : Nat) (w : World Nat Int σ)
    (hr : w.heap[r]? = some N) (vs : List Int) (hvs : initSimple2d 0 rows cols 1 = .ok vs) (fuel : Nat) (hf : T ≤ fuel) :
    ∃ res f, evolve fuel cfg (some (.list vs)) r w = .ok res ∧ ShowsRun cfg res T (rows * cols) f ∧
      (∀ t, 2 * t < rows → 2 * t < cols → ∀ (k : Fin 6) m j, m + j = t →
        f t (torusLabel rows cols (hexWalk (k + 1) j (hexWalk k m (((rows / 2 : Nat) : Int), ((cols / 2 : Nat) : Int))))) =
          ((pascal t j % 2 : Nat) : Int)) ∧
      (∀ t x, x < rows * cols → (f t x = 0 ∨ f t x = 1) ∧ (f t x = 1 → f (t + 1) x = 1) ∧
        (f t x = 1 → ∃ ks, ks.length ≤ t ∧
          torusLabel rows cols (hexPath ks (((rows / 2 : Nat) : Int), ((cols / 2 : Nat) : Int))) = x)) := by
  obtain ⟨vs', v1, v2, v3⟩ := (C71_init_simple2d (0 : Int) 1).1 rows cols (by omega) (by omega)
  rw [hvs] at v1
  cases v1
  obtain ⟨i1, _, i3⟩ := initDict_list hnat vs
  obtain ⟨res, e1, e2⟩ := C124_hex rows cols hrw heven hcl hexGrowRule_ok cfg T hT h N hN r w hr (some (.list vs))
    (middleCell rows cols) (by rw [i1, v2]) (by
      intro a b ha hb
      rw [i3 _ (by rw [v2]; exact label_lt ha hb), v3 a b ha hb]
      rfl) fuel hf
  have hD := hex_directions heven
  refine ⟨res, _, e1, e2, ?_, ?_⟩
  · intro t h1 h2 k m j hmj
    subst hmj
    rw [run_at_label (by omega) (by omega) hD.period]
    have w1 := hexWalk_near k m ((rows / 2 : Nat) : Int) ((cols / 2 : Nat) : Int)
    have w2 := hexWalk_near (k + 1) j (hexWalk k m (((rows / 2 : Nat) : Int), ((cols / 2 : Nat) : Int))).1
      (hexWalk k m (((rows / 2 : Nat) : Int), ((cols / 2 : Nat) : Int))).2
    rw [show ((hexWalk k m (((rows / 2 : Nat) : Int), ((cols / 2 : Nat) : Int))).1,
      (hexWalk k m (((rows / 2 : Nat) : Int), ((cols / 2 : Nat) : Int))).2) =
      hexWalk k m (((rows / 2 : Nat) : Int), ((cols / 2 : Nat) : Int)) from rfl] at w2
    rw [middle_run (by omega) (by omega) hD.small]
    · exact hexRun_walk k m j _ _
    · omega
    · omega
  · intro t x hx
    have hbit : ∀ (t : Nat) (x y : Int), planeCA hex6 growsAtOne (tiled rows cols (middleCell rows cols)) t x y = 0 ∨
        planeCA hex6 growsAtOne (tiled rows cols (middleCell rows cols)) t x y = 1 := by
      intro t
      induction t with
      | zero => intro x y; simp only [planeCA, tiled, middleCell]; split <;> simp
      | succ t ih =>
        intro x y
        simp only [planeCA]
        unfold growsAtOne
        split
        · exact Or.inr rfl
        · exact ih x y
    refine ⟨hbit _ _ _, ?_, ?_⟩
    · intro h1
      simp only [planeCA]
      rw [h1]
      unfold growsAtOne
      split <;> rfl
    · intro h1
      obtain ⟨ks, a, b, k1, k2, k3⟩ := hex_reached _ t _ _ (show planeCA hex6 growsAtOne (tiled rows cols (middleCell rows cols)) t
        ((x / cols : Nat) : Int) ((x % cols : Nat) : Int) ≠ 0 by rw [h1]; decide)
      refine ⟨ks, k1, ?_⟩
      unfold tiled middleCell at k2
      have hab : (a % (rows : Int)).toNat = rows / 2 ∧ (b % (cols : Int)).toNat = cols / 2 := by
        apply Classical.byContradiction
        intro hn
        rw [if_neg hn] at k2
        exact k2 rfl
      obtain ⟨p, hp⟩ := (emod_middle (by omega) a).1 hab.1
      obtain ⟨q, hq⟩ := (emod_middle (by omega) b).1 hab.2
      rw [hp, hq, hexPath_tile ks _ _ (by
        obtain ⟨e, he⟩ : ∃ e : Int, (rows : Int) = 2 * e := ⟨(rows : Int) / 2, by omega⟩
        rw [he, Int.mul_assoc]
        omega)] at k3
      obtain ⟨ha, hb, hab'⟩ := split_label hx
      have g1 := congrArg Prod.fst k3
      have g2 := congrArg Prod.snd k3
      simp only at g1 g2
      unfold torusLabel
      have m1 : (hexPath ks (((rows / 2 : Nat) : Int), ((cols / 2 : Nat) : Int))).1 % (rows : Int) = ((x / cols : Nat) : Int) := by
        rw [← Int.add_mul_emod_self_left _ (rows : Int) p, g1, Int.emod_eq_of_lt (Int.natCast_nonneg _) (Int.ofNat_lt.2 ha)]
      have m2 : (hexPath ks (((rows / 2 : Nat) : Int), ((cols / 2 : Nat) : Int))).2 % (cols : Int) = ((x % cols : Nat) : Int) := by
        rw [← Int.add_mul_emod_self_left _ (cols : Int) q, g2, Int.emod_eq_of_lt (Int.natCast_nonneg _) (Int.ofNat_lt.2 hb)]
      rw [m1, m2, Int.toNat_natCast, Int.toNat_natCast]
      exact hab'

/-- C125: in the rows `2^n - 1` of Pascal's triangle all entries are odd, so that the outline of the hexagon is whole; in the
rows `2^n` only the first and the last are, so that nothing but the six corners is alive. -/
theorem C125_outline (n : Nat) :
    (∀ j, j ≤ 2 ^ n - 1 → pascal (2 ^ n - 1) j % 2 = 1) ∧ (∀ j, 0 < j → j < 2 ^ n → pascal (2 ^ n) j % 2 = 0) ∧
      pascal (2 ^ n) 0 % 2 = 1 ∧ pascal (2 ^ n) (2 ^ n) % 2 = 1 := by
  refine ⟨?_, ?_, by rw [pascal_zero], ?_⟩
  · intro j hj
    have := (pascal_odd_iff (a := j) (b := 2 ^ n - 1 - j)).2 (and_of_add_ones n _ _ (by omega))
    rwa [show j + (2 ^ n - 1 - j) = 2 ^ n - 1 by omega] at this
  · intro j h1 h2
    have hne : ¬ pascal (2 ^ n) j % 2 = 1 := by
      intro h
      have := pascal_odd_iff (a := j) (b := 2 ^ n - j)
      rw [show j + (2 ^ n - j) = 2 ^ n by omega] at this
      exact and_of_add_power n j (2 ^ n - j) (by omega) h1 (by omega) (this.1 h)
    omega
  · have := (pascal_odd_iff (a := 2 ^ n) (b := 0)).2 (by simp)
    simpa using this

/-- C125, the two-dimensional totalistic demo: for a rule number of which the digits 1, 2 and 3 are one and digit 0 is zero
(126 is such a number), on every torus, started by `init_simple2d`: as long as `2 t < rows` and `2 t < cols`, at time `t`
the cells at Chebyshev distance `t` from the middle are 1 and those further away are 0. -/
theorem C125_square (rows cols : Nat) (hrw : 3 ≤ rows) (hcl : 3 ≤ cols) (R : Nat) (hR : R < 2 ^ 10) (h0 : digit 2 R 0 = 0)
    (h1 : digit 2 R 1 = 1) (h2 : digit 2 R 2 = 1) (h3 : digit 2 R 3 = 1)
    (cfg : Config Nat Int Int I σ κ) (hnat : cfg.natLabel = id) (T : Nat) (hT : 1 ≤ T) (h : cfg.Ordinary (totalisticCa 2 R) T)
    (N : Net Nat Int) (hN : cellularAutomaton2d rows cols 1 "Moore" true = .ok N) (r : Nat) (w : World Nat Int σ)
    (hr : w.heap[r]? = some N) (vs : List Int) (hvs : initSimple2d 0 rows cols 1 = .ok vs) (fuel : Nat) (hf : T ≤ fuel) :
    ∃ res f, evolve fuel cfg (some (.list vs)) r w = .ok res ∧ ShowsRun cfg res T (rows * cols) f ∧
      ∀ t, 2 * t < rows → 2 * t < cols → ∀ i j : Int, 2 * i.natAbs ≤ rows → 2 * j.natAbs ≤ cols →
        (chebyshev i j = t →
          f t (torusLabel rows cols (((rows / 2 : Nat) : Int) + i, ((cols / 2 : Nat) : Int) + j)) = 1) ∧
        (t < chebyshev i j →
          f t (torusLabel rows cols (((rows / 2 : Nat) : Int) + i, ((cols / 2 : Nat) : Int) + j)) = 0) := by
  obtain ⟨vs', v1, v2, v3⟩ := (C71_init_simple2d (0 : Int) 1).1 rows cols (by omega) (by omega)
  rw [hvs] at v1
  cases v1
  obtain ⟨i1, _, i3⟩ := initDict_list hnat vs
  obtain ⟨M, m1, m2⟩ := C41_moore rows cols 1 (Nat.mul_le_mul hrw hcl)
  obtain ⟨res, e1, e2⟩ := plane_run_good hrw hcl (moore_directions.row rows) m1 m2 (G := totalisticCa 2 R) (F := totalOf R)
    (Good := fun v => v = 0 ∨ v = 1) (by
      intro v l _ _
      unfold totalOf
      omega) (by
      intro v l l' hl
      unfold totalOf
      rw [int_sum_perm hl]) (by
      intro c g ys hg hlen hp _ ha hcur
      obtain ⟨_, hlen⟩ := hlen
      have hperm : c.neighbourActs.Perm (c.current :: ys.map g) := by rw [ha, hcur]; exact hp.map g
      have hcol : Colours 2 c.neighbourActs := by
        intro v hv
        rw [ha] at hv
        obtain ⟨y, _, rfl⟩ := List.mem_map.1 hv
        have := hg y
        omega
      have hl9 : c.neighbourActs.length = 9 := by
        rw [hperm.length_eq, List.length_cons, List.length_map, hlen]
        rfl
      obtain ⟨s, s1, _, s3, _⟩ := C30_totalistic (k := 2) (by omega) (by omega) R c hcol (by rw [hl9]; exact hR)
      rw [s3]
      unfold totalOf
      rw [← List.sum_cons, ← int_sum_perm hperm, s1]
      rfl) cfg T hT h N hN r w hr (some (.list vs)) (middleCell rows cols) (by
      intro a b _ _
      unfold middleCell
      split <;> simp) (by rw [i1, v2]) (by
      intro a b ha hb
      rw [i3 _ (by rw [v2]; exact label_lt ha hb), v3 a b ha hb]
      rfl) fuel hf
  refine ⟨res, _, e1, e2, ?_⟩
  intro t t1 t2 i j hi hj
  have hsq := square_run (R := R) (by simpa [digit] using h0) (by simpa [digit] using h1) (by simpa [digit] using h2)
    (by simpa [digit] using h3) t i j
  have hval : planeCA (fun _ => moore8) (totalOf R) (tiled rows cols (middleCell rows cols)) t
      ((torusLabel rows cols (((rows / 2 : Nat) : Int) + i, ((cols / 2 : Nat) : Int) + j) / cols : Nat) : Int)
      ((torusLabel rows cols (((rows / 2 : Nat) : Int) + i, ((cols / 2 : Nat) : Int) + j) % cols : Nat) : Int) =
      planeCA (fun _ => moore8) (totalOf R) (loneCell 0 0) t i j := by
    rw [run_at_label (by omega) (by omega) (fun _ => rfl), middle_run (by omega) (by omega) (fun _ => moore_directions.small)]
    · apply planeCA_shift
      intro x y
      unfold loneCell
      by_cases hxy : x = 0 ∧ y = 0
      · rw [if_pos hxy, if_pos (by omega)]
      · rw [if_neg hxy, if_neg (by omega)]
    · simp only
      omega
    · simp only
      omega
  refine ⟨fun hc => ?_, fun hc => ?_⟩
  · exact hval.trans (hsq.2.2 hc)
  · exact hval.trans (hsq.2.1 hc)

end
end Verif

namespace Verif
open Spec

/-- The demo's call meets the hypotheses: after 15 steps the outline is whole, after 16 only its corners are alive. -/
example : ∃ N vs res f, cellularAutomaton2d 60 60 1 "Hex" true = .ok N ∧ initSimple2d (0 : Int) ((60 : Nat) : Int) ((60 : Nat) : Int) 1 = .ok vs ∧
    evolve 31 ({ Ex.base with rule := some (pureRule hexGrowRule), input := .timesteps 31 }) (some (.list vs)) 0 ⟨[N], []⟩ = .ok res ∧
    ShowsRun { Ex.base with rule := some (pureRule hexGrowRule), input := .timesteps 31 } res 31 3600 f ∧
    (∀ k m j, m + j = 15 → f 15 (torusLabel 60 60 (hexWalk (k + 1) j (hexWalk k m (30, 30)))) = 1) ∧
    (∀ k m j, m + j = 16 → 0 < j → 0 < m → f 16 (torusLabel 60 60 (hexWalk (k + 1) j (hexWalk k m (30, 30)))) = 0) ∧
    (∀ k, f 16 (torusLabel 60 60 (hexWalk k 16 (30, 30))) = 1) := by
  obtain ⟨N, hN, _⟩ := C44_centre_partial.2 60 60 1 "Hex" (by decide) (by decide)
  obtain ⟨vs, hvs, _⟩ := (C71_init_simple2d (0 : Int) 1).1 60 60 (by omega) (by omega)
  obtain ⟨res, f, h1, h2, h3, _⟩ := C125_hex 60 60 (by omega) (by omega) (by omega)
    { Ex.base with rule := some (pureRule hexGrowRule), input := .timesteps 31 } rfl 31 (by omega) ⟨rfl, rfl, rfl, rfl, rfl, rfl, rfl⟩
    N hN 0 ⟨[N], []⟩ rfl vs hvs 31 (by omega)
  refine ⟨N, vs, res, f, hN, hvs, h1, h2, ?_, ?_, ?_⟩
  · intro k m j hmj
    have := h3 15 (by omega) (by omega) k m j hmj
    rw [(C125_outline 4).1 j (by omega)] at this
    exact this
  · intro k m j hmj hj hm
    have := h3 16 (by omega) (by omega) k m j hmj
    rw [(C125_outline 4).2.1 j hj (by omega)] at this
    exact this
  · intro k
    have := h3 16 (by omega) (by omega) k 16 0 rfl
    rw [(C125_outline 4).2.2.1] at this
    exact this

/-- Rule 126 of the two-dimensional totalistic demo. -/
example : ∃ N vs res f, cellularAutomaton2d 60 60 1 "Moore" true = .ok N ∧ initSimple2d (0 : Int) ((60 : Nat) : Int) ((60 : Nat) : Int) 1 = .ok vs ∧
    evolve 30 ({ Ex.base with rule := some (pureRule (totalisticCa 2 126)), input := .timesteps 30 }) (some (.list vs)) 0 ⟨[N], []⟩ = .ok res ∧
    ShowsRun { Ex.base with rule := some (pureRule (totalisticCa 2 126)), input := .timesteps 30 } res 30 3600 f ∧
    f 29 (torusLabel 60 60 (30 + 29, 30 + -7)) = 1 ∧ f 28 (torusLabel 60 60 (30 + 29, 30 + -7)) = 0 := by
  obtain ⟨N, hN, _⟩ := C44_centre_partial.2 60 60 1 "Moore" (by decide) (by decide)
  obtain ⟨vs, hvs, _⟩ := (C71_init_simple2d (0 : Int) 1).1 60 60 (by omega) (by omega)
  obtain ⟨res, f, h1, h2, h3⟩ := C125_square 60 60 (by omega) (by omega) 126 (by decide) (by decide) (by decide) (by decide) (by decide)
    { Ex.base with rule := some (pureRule (totalisticCa 2 126)), input := .timesteps 30 } rfl 30 (by omega) ⟨rfl, rfl, rfl, rfl, rfl, rfl, rfl⟩
    N hN 0 ⟨[N], []⟩ rfl vs hvs 30 (by omega)
  exact ⟨N, vs, res, f, hN, hvs, h1, h2, (h3 29 (by omega) (by omega) 29 (-7) (by decide) (by decide)).1 (by decide),
    (h3 28 (by omega) (by omega) 29 (-7) (by decide) (by decide)).2 (by decide)⟩

/-- The hypotheses of C124 are met by the rule of the hexagonal demo (any initial conditions), and the light cone by a
state that differs far away. -/
example : ∀ (c : NodeCtx Nat Int Int Unit) l, c.neighbourActs.Perm (c.current :: l) → hexGrowRule c = .ok (growsAtOne c.current l) :=
  hexGrowRule_ok
example : planeCA hex6 growsAtOne (tiled 6 6 (middleCell 6 6)) 2 3 3 =
    planeCA hex6 growsAtOne (loneCell 3 3) 2 3 3 :=
  (C124_light_cone growsAtOne 6 6 (middleCell 6 6) (loneCell 3 3) 2 3 3 (by
    intro i j hi hj
    exact tiled_middle (rows := 6) (cols := 6) (by omega) (by omega) (by omega) (by omega))).2.2

end Verif
