import Verif.Proofs.Sequential
import Verif.Props.Async
import Verif.Props.EndToEnd
import Verif.Props.RunRows
/-! # C120: sequential cellular automata -/

namespace Verif
open Spec

theorem seqRun_lt {n R : Nat} {order : List Nat} {s : Nat → Nat} (hn : 0 < n) (hs : ∀ x, x < n → s x < 2) :
    ∀ t x : Nat, x < n → seqRun n R order s t x < 2
  | 0, x, hx => hs x hx
  | t + 1, x, hx => by
    rw [seqRun, seqStep]
    split
    · exact Nat.mod_lt _ (by omega)
    · exact seqRun_lt hn hs t x hx

section
variable {I σ κ : Type} [DecidableEq κ]

/-- C120.  Every ordinary call of `evolve`, without memoization, with `AsynchronousRule(nks_ca_rule(R), update_order)` on
`cellular_automaton(n)` returns, and state `t` is the state after `t` updates of single cells in the given order: the
cells of the update order change one after the other, again and again, and all others keep their values. -/
theorem C120_run (n R : Nat) (hn : 3 ≤ n) (hR : R < 256) (order : List Nat) (hO : order.Nodup) (hne : order ≠ []) (hs : ∀ x ∈ order, x < n)
    (cfg : Config Nat Int Int I σ κ) (T : Nat) (hT : 1 ≤ T) (h : cfg.Ordinary (nksCaRule (R : Int)) T) (hm : cfg.memoize = false)
    (sh : Nat → Nat → List Nat) (len : Option Nat) (a : Async Nat) (ha : asyncInit sh (some order) len = .ok a)
    (N : Net Nat Int) (hN : cellularAutomaton n 1 true = .ok N) (heap : List (Net Nat Int)) (r : Nat) (hr : heap[r]? = some N) (u : σ)
    (init : Option (Conds Nat Int)) (s : Nat → Nat) (hb : ∀ x, x < n → s x < 2) (hlen : (initDict cfg init).length = n)
    (h0 : ∀ x, x < n → (initDict cfg init).get? x = some (s x : Int)) (fuel : Nat) (hf : T ≤ fuel) :
    ∃ res, evolve fuel (cfg.withRule (asyncRule sh false (pureRule (nksCaRule (R : Int))))) init r ⟨heap, (a, u)⟩ = .ok res ∧
      ShowsRun (cfg.withRule (asyncRule sh false (pureRule (nksCaRule (R : Int))))) res T n (fun t x => (seqRun n R order s t x : Int)) := by
  obtain ⟨N', rs, e1, e2, e3, e4⟩ := C43_left_to_right n 1 hn (by omega)
  rw [hN] at e1
  cases e1
  have hrule : ∀ (t x : Nat), x < n → ∀ c : NodeCtx Nat Int Int I,
      c.neighbourActs = [(seqRun n R order s t ((x + n - 1) % n) : Int), (seqRun n R order s t x : Int), (seqRun n R order s t ((x + 1) % n) : Int)] →
      nksCaRule (R : Int) c = .ok (ecaRule R (seqRun n R order s t ((x + n - 1) % n)) (seqRun n R order s t x) (seqRun n R order s t ((x + 1) % n)) : Int) := by
    intro t x hx c hc
    have l1 := seqRun_lt (R := R) (order := order) (by omega) hb t ((x + n - 1) % n) (Nat.mod_lt _ (by omega))
    have l2 := seqRun_lt (R := R) (order := order) (by omega) hb t x hx
    have l3 := seqRun_lt (R := R) (order := order) (by omega) hb t ((x + 1) % n) (Nat.mod_lt _ (by omega))
    have hb : Binary c.neighbourActs := by
      rw [hc]
      intro v hv
      simp only [List.mem_cons, List.not_mem_nil, or_false] at hv
      rcases hv with rfl | rfl | rfl <;> omega
    have h256 : 2 ^ 2 ^ c.neighbourActs.length = 256 := by
      have h3 : c.neighbourActs.length = 3 := by rw [hc]; simp only [List.length_cons, List.length_nil]
      rw [h3]
    rw [(C28_binary_ca R c hb (by omega)).2.2.1]
    have hnum : (numeral c.neighbourActs).toNat =
        4 * seqRun n R order s t ((x + n - 1) % n) + 2 * seqRun n R order s t x + seqRun n R order s t ((x + 1) % n) := by
      rw [hc]
      simp only [numeral, List.foldl]
      omega
    rw [hnum]
    rfl
  have hord : Config.Ordinary { cfg with rule := some (pickRule (cyclic order) (pureRule (nksCaRule (R : Int)))) }
      (fun c => if cyclic order c.t = some c.node then nksCaRule (R : Int) c else .ok c.current) T := by
    refine ⟨?_, h.pert, h.top, h.input, h.key, h.persist, h.compression⟩
    unfold Config.PureRule
    refine congrArg some ?_
    funext c u
    unfold pickRule pureRule
    by_cases hp : cyclic order c.t = some c.node
    · simp only [if_pos hp]
    · simp only [if_neg hp]
  obtain ⟨res', g1, g2⟩ := ca_run hord hT (by omega) e3 (nb := fun x => [(x + n - 1) % n, x, (x + 1) % n])
    (f := fun t x => (seqRun n R order s t x : Int)) (init := init) (by
      intro x hx
      refine ⟨?_, ?_⟩
      · simp only [specNbrs, e2]
        rw [e4 x hx, ringCell_three hx hn]
      · intro y hy
        simp only [List.mem_cons, List.not_mem_nil, or_false] at hy
        rcases hy with rfl | rfl | rfl
        · exact Nat.mod_lt _ (by omega)
        · exact hx
        · exact Nat.mod_lt _ (by omega)) hlen h0 (by
      intro t ht x hx
      show (if order[(t + 1 - 1) % order.length]? = some x then nksCaRule (R : Int) _ else Except.ok (seqRun n R order s t x : Int)) = _
      rw [Nat.add_sub_cancel]
      rw [seqRun, seqStep]
      split
      · exact hrule t x hx _ rfl
      · rfl) (by intro h'; exact absurd (hm.symm.trans h') (by decide)) (w := ⟨heap, u⟩) hr hf
  have hsame := C38_run cfg sh (pureRule (nksCaRule (R : Int))) hm h.top order hO hne len a ha N (e3.nodup_iff.2 List.nodup_range)
    (fun x hx => e3.mem_iff.2 (List.mem_range.2 (hs x hx))) (by
      intro c u o u' he
      unfold pureRule at he
      split at he
      · cases he
      · cases he; exact ⟨rfl, rfl⟩) heap r hr u fuel init
  rcases hsame with ⟨e, _, k2⟩ | ⟨x, y, k1, k2, k3, _⟩
  · rw [g1] at k2; cases k2
  · rw [g1] at k2
    cases k2
    refine ⟨x, k1, ?_, ?_⟩
    · rw [k3]; exact g2.1
    · intro t ht
      obtain ⟨d, d1, d2⟩ := g2.2 t ht
      refine ⟨d, ?_, d2⟩
      rw [← d1]
      unfold Evolved.acts
      rw [k3]
      rfl

end

/-- C120, sweeps of rule 60.  The update order `range(1, m + 1)` on a ring of `n > m` cells, any initial cells: after `k + 1`
sweeps, the cell `x` up to `m` is the parity of the number of the cells `i ≤ x` that were 1 at first and for which `k`
and `x - i` have no binary digit 1 in common; the other cells are as they were. -/
theorem C120_sweeps (n m : Nat) (hm : m < n) (hm0 : 0 < m) (s : Nat → Nat) (hs : ∀ x, s x < 2) (k x : Nat) (hx : x < n) :
    seqRun n 60 (List.range' 1 m) s ((k + 1) * m) x = if x ≤ m then overlapFree s k x else s x :=
  sweep_rows hm hm0 hs (k + 1) x hx

/-- C120, sweeps of rule 60 return.  If `m < 2 ^ e`, the rows after whole sweeps repeat themselves every `2 ^ e` sweeps, from the
start and whatever it is. -/
theorem C120_period (n m e : Nat) (hm : m < n) (hm0 : 0 < m) (he : m < 2 ^ e) (s : Nat → Nat) (hs : ∀ x, s x < 2) (k x : Nat) (hx : x < n) :
    seqRun n 60 (List.range' 1 m) s ((k + 2 ^ e) * m) x = seqRun n 60 (List.range' 1 m) s (k * m) x := by
  rw [sweep_rows hm hm0 hs _ x hx, sweep_rows hm hm0 hs _ x hx, sweepRow_period he hs]

/-- C120, one cell.  From a single 1 at the cell `p`, after `k + 1` sweeps the cell at the distance `d` to the right of `p` is 1
exactly if `k` and `d` have no binary digit 1 in common (Sierpinski's triangle); everything to the left of `p` and after
`m` is 0. -/
theorem C120_triangle (n m p : Nat) (hm : m < n) (hp0 : 0 < p) (hp : p ≤ m) (k x : Nat) (hx : x < n) :
    seqRun n 60 (List.range' 1 m) (fun y => if y = p then 1 else 0) ((k + 1) * m) x =
      if p ≤ x ∧ x ≤ m ∧ k &&& (x - p) = 0 then 1 else 0 := by
  rw [C120_sweeps n m hm (by omega) _ (by intro y; split <;> omega) k x hx]
  have hfilter : overlapFree (fun y => if y = p then 1 else 0) k x = if p ≤ x ∧ k &&& (x - p) = 0 then 1 else 0 := by
    unfold overlapFree
    have : ∀ i ∈ List.range (x + 1), (((if i = p then 1 else 0) == 1 && (k &&& (x - i)) == 0) = (decide (k &&& (x - p) = 0) && (i == p))) := by
      intro i _
      by_cases h : i = p
      · subst h
        simp only [if_pos, beq_self_eq_true, Bool.true_and, Bool.and_true]
        rw [Bool.eq_iff_iff]
        simp
      · simp [h]
    rw [List.filter_congr this]
    by_cases h1 : k &&& (x - p) = 0
    · simp only [h1, decide_true, Bool.true_and, and_true]
      have hc : ((List.range (x + 1)).filter fun i => i == p).length = (List.range (x + 1)).count p := by
        rw [List.count, List.countP_eq_length_filter]
      rw [hc]
      rw [List.nodup_range.count]
      by_cases h2 : p ≤ x
      · rw [if_pos h2, if_pos (List.mem_range.2 (by omega))]
      · rw [if_neg h2, if_neg (by rw [List.mem_range]; omega)]
    · simp only [h1, decide_false, Bool.false_and, and_false, if_false]
      rw [List.filter_eq_nil_iff.2 (by simp)]
      rfl
  split
  · rename_i h
    rw [hfilter]
    simp only [h, true_and]
  · rename_i h
    rw [if_neg (by omega), if_neg (by omega)]

section
variable {I σ κ : Type} [DecidableEq κ]

/-- The rows of the demo: the first is the initial row, row `k + 1` is the triangle's. -/
def demoRow : Nat → List Int
  | 0 => (List.range 21).map (fun x => if x = 10 then 1 else 0)
  | k + 1 => (List.range 21).map (fun x => if 10 ≤ x ∧ x ≤ 19 ∧ k &&& (x - 10) = 0 then 1 else 0)

/-- C120, the demo: 21 cells, 380 timesteps, every 19th row of the activities over time. -/
theorem C120_demo (cfg : Config Nat Int Int I σ κ) (h : cfg.Ordinary (nksCaRule 60) (19 * 20)) (hm : cfg.memoize = false) (hnat : cfg.natLabel = id)
    (sh : Nat → Nat → List Nat) (a : Async Nat) (ha : asyncInit sh (some (List.range' 1 19)) none = .ok a)
    (N : Net Nat Int) (hN : cellularAutomaton 21 1 true = .ok N) (heap : List (Net Nat Int)) (r : Nat) (hr : heap[r]? = some N) (u : σ)
    (fuel : Nat) (hf : 19 * 20 ≤ fuel) :
    ∃ res, evolve fuel (cfg.withRule (asyncRule sh false (pureRule (nksCaRule 60)))) (some (.list (List.replicate 10 0 ++ [1] ++ List.replicate 10 0))) r
        ⟨heap, (a, u)⟩ = .ok res ∧
      ∀ k, k < 20 → (activitiesOverTime (fun a b => decide (a ≤ b)) ((List.range (19 * 20)).map
        (res.acts (cfg.withRule (asyncRule sh false (pureRule (nksCaRule 60)))))))[k * 19]? = some (demoRow k) := by
  have h60 : (60 : Int) = ((60 : Nat) : Int) := rfl
  rw [h60] at h ⊢
  generalize hTT : 19 * 20 = T at h hf ⊢
  obtain ⟨i1, i2, i3⟩ := initDict_list hnat (List.replicate 10 (0 : Int) ++ [1] ++ List.replicate 10 0)
  have hinit : ∀ x : Nat, x < 21 → (List.replicate 10 (0 : Int) ++ [1] ++ List.replicate 10 0)[x]? = some (((if x = 10 then 1 else 0 : Nat) : Int)) := by
    decide
  obtain ⟨res, e1, e2⟩ := C120_run 21 60 (by omega) (by omega) (List.range' 1 19) (by decide) (by decide) (by decide) cfg T (by omega) h hm sh none a ha
    N hN heap r hr u (some (.list (List.replicate 10 0 ++ [1] ++ List.replicate 10 0))) (fun y => if y = 10 then 1 else 0) (by intro x _; split <;> omega)
    (by rw [i1]; rfl) (by
      intro x hx
      rw [i3 x hx, hinit x hx]) fuel hf
  refine ⟨res, e1, fun k hk => ?_⟩
  rw [C72_run_nat (by omega) e2, List.getElem?_map, List.getElem?_range (by omega), Option.map_some]
  refine congrArg some ?_
  cases k with
  | zero =>
    unfold demoRow
    refine List.map_congr_left fun x hx => ?_
    rw [Nat.zero_mul, seqRun]
    by_cases hx10 : x = 10
    · rw [if_pos hx10, if_pos hx10]; rfl
    · rw [if_neg hx10, if_neg hx10]; rfl
  | succ k =>
    unfold demoRow
    refine List.map_congr_left fun x hx => ?_
    rw [C120_triangle 21 19 10 (by omega) (by omega) (by omega) k x (List.mem_range.1 hx)]
    by_cases hc : 10 ≤ x ∧ x ≤ 19 ∧ k &&& (x - 10) = 0
    · rw [if_pos hc, if_pos hc]; rfl
    · rw [if_neg hc, if_neg hc]; rfl

end

/-- The call of the demo. -/
example : ∃ N a res, cellularAutomaton 21 1 true = .ok N ∧ asyncInit (fun _ n => List.range n) (some (List.range' 1 19)) none = .ok a ∧
    evolve 380 (({ Ex.base with input := .timesteps (19 * 20), rule := some (pureRule (nksCaRule 60)) }).withRule (asyncRule (fun _ n => List.range n) false (pureRule (nksCaRule 60))))
      (some (.list (List.replicate 10 0 ++ [1] ++ List.replicate 10 0))) 0 ⟨[N], (a, [])⟩ = .ok res := by
  obtain ⟨N, _, hN, _⟩ := C43_left_to_right 21 1 (by omega) (by omega)
  obtain ⟨res, h1, _⟩ := C120_demo { Ex.base with input := .timesteps (19 * 20), rule := some (pureRule (nksCaRule 60)) } ⟨rfl, rfl, rfl, rfl, rfl, rfl, rfl⟩ rfl rfl
    (fun _ n => List.range n) ⟨List.range' 1 19, 0, 0, 0⟩ rfl N hN [N] 0 rfl [] 380 (by omega)
  exact ⟨N, _, res, hN, rfl, h1⟩
/-- Some rows of the demo. -/
example : demoRow 3 = [0, 0, 0, 0, 0, 0, 0, 0, 0, 0, 1, 1, 0, 0, 1, 1, 0, 0, 1, 1, 0] ∧
    demoRow 4 = [0, 0, 0, 0, 0, 0, 0, 0, 0, 0, 1, 0, 0, 0, 1, 0, 0, 0, 1, 0, 0] ∧ demoRow 17 = demoRow 1 := by decide
/-- Two cells, four sweeps over six cells of a ring of eight. -/
example : (List.range 8).map (seqRun 8 60 (List.range' 1 6) (fun x => if x = 0 ∨ x = 2 then 1 else 0) (2 * 6)) = [1, 0, 0, 0, 0, 0, 0, 0] ∧
    (List.range 7).map (overlapFree (fun x => if x = 0 ∨ x = 2 then 1 else 0) 1) = [1, 0, 0, 0, 0, 0, 0] := by decide
/-- The synchronous automaton is another one: rule 60 with all cells at once gives other rows. -/
example : (List.range 8).map (eca 8 60 (fun x => if x = 2 then 1 else 0) 1) ≠ (List.range 8).map (seqRun 8 60 (List.range' 1 6) (fun x => if x = 2 then 1 else 0) 6) := by
  decide

end Verif
