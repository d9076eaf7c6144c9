import Verif.Proofs.Cycles
import Verif.Props.Majority
/-! # Property C140: an automaton with finitely many states repeats itself -/

namespace Verif
open Spec MG
section
variable {L A V I σ κ : Type} [DecidableEq L] [DecidableEq V] [DecidableEq κ]

/-- C140.  On any network whose neighbours are nodes, an ordinary call of `evolve` (without memoization, see C17) with a rule
that depends only on the node, its state and the states of its neighbours returns the run of that rule. -/
theorem C140_run (N : Net L A) (nb : L → List L) (hne : N.labels ≠ []) (hnd : N.labels.Nodup)
    (hnb : ∀ x ∈ N.labels, specNbrs N x = some (nb x) ∧ ∀ y ∈ nb x, y ∈ N.labels) (g : L → V → List V → V)
    (G : NodeCtx L A V I → Except Err V) (vals : List V) (s : L → V) (hs : ∀ x ∈ N.labels, s x ∈ vals)
    (hg : ∀ x ∈ N.labels, ∀ v ∈ vals, ∀ l : List V, l.length = (nb x).length → (∀ u ∈ l, u ∈ vals) → g x v l ∈ vals)
    (hG : ∀ c, c.node ∈ N.labels → c.current ∈ vals → (∀ u ∈ c.neighbourActs, u ∈ vals) → c.neighbourActs.length = (nb c.node).length →
      G c = .ok (g c.node c.current c.neighbourActs))
    (cfg : Config L A V I σ κ) (T : Nat) (hT : 1 ≤ T) (h : cfg.Ordinary G T) (hm : cfg.memoize = false)
    (init : Option (Conds L V)) (hlen : (initDict cfg init).length = N.labels.length)
    (h0 : ∀ x ∈ N.labels, (initDict cfg init).get? x = some (s x)) (r : Nat) (w : World L A σ) (hr : w.heap[r]? = some N) (fuel : Nat)
    (hfu : T ≤ fuel) : ∃ res, evolve fuel cfg init r w = .ok res ∧ ShowsOn cfg res T N.labels (localRun nb g s) := by
  have hsz : N.size = N.labels.length := by simp [Net.labels, Net.size, Dict.keys]
  have hpk : cfg.PackOk := by intro hc; rw [h.compression] at hc; cases hc
  have hmem := localRun_mem (fun x hx => (hnb x hx).2) hs hg
  obtain ⟨res, _, e1, _, e3⟩ := evolve_pure h.rule h.pert h.top hpk hnd (nb := nb) hnb (init := init) (f := localRun nb g s)
    (by rw [hlen, hsz]) h0 (T := T) (by
      intro t _ x hx
      refine (hG _ hx (hmem t x hx) ?_ ?_).trans rfl
      · intro u hu
        obtain ⟨y, hy, rfl⟩ := List.mem_map.1 hu
        exact hmem t y ((hnb x hx).2 y hy)
      · exact List.length_map ..) (fun hc => by rw [hm] at hc; cases hc) hT h.input hr hfu
  exact ⟨res, e1, shows_on h.persist h.compression hne hlen h0 e3⟩

/-- C140.  Such a run on `n` nodes with states from a list of `k` repeats itself: from some timestep `i` on it has the period
`j - i`, and `j` is at most `k ^ n`.  Neither depends on the number of timesteps. -/
theorem C140_repeats (N : Net L A) (nb : L → List L) (hne : N.labels ≠ []) (hnd : N.labels.Nodup)
    (hnb : ∀ x ∈ N.labels, specNbrs N x = some (nb x) ∧ ∀ y ∈ nb x, y ∈ N.labels) (g : L → V → List V → V)
    (G : NodeCtx L A V I → Except Err V) (vals : List V) (s : L → V) (hs : ∀ x ∈ N.labels, s x ∈ vals)
    (hg : ∀ x ∈ N.labels, ∀ v ∈ vals, ∀ l : List V, l.length = (nb x).length → (∀ u ∈ l, u ∈ vals) → g x v l ∈ vals)
    (hG : ∀ c, c.node ∈ N.labels → c.current ∈ vals → (∀ u ∈ c.neighbourActs, u ∈ vals) → c.neighbourActs.length = (nb c.node).length →
      G c = .ok (g c.node c.current c.neighbourActs)) :
    ∃ i j, i < j ∧ j ≤ vals.length ^ N.labels.length ∧
      ∀ (cfg : Config L A V I σ κ) (T : Nat) (_ : 1 ≤ T) (_ : cfg.Ordinary G T) (_ : cfg.memoize = false)
        (init : Option (Conds L V)) (_ : (initDict cfg init).length = N.labels.length)
        (_ : ∀ x ∈ N.labels, (initDict cfg init).get? x = some (s x)) (r : Nat) (w : World L A σ) (_ : w.heap[r]? = some N) (fuel : Nat)
        (_ : T ≤ fuel), ∃ res, evolve fuel cfg init r w = .ok res ∧ res.states.length = T ∧
          ∀ t, i ≤ t → t + (j - i) < T → ∃ d d', res.acts cfg t = some d ∧ res.acts cfg (t + (j - i)) = some d' ∧
            ∀ x ∈ N.labels, ∃ v, d.get? x = some v ∧ d'.get? x = some v := by
  have hmem := localRun_mem (fun x hx => (hnb x hx).2) hs hg
  obtain ⟨i, j, hij, hj, he⟩ := rows_repeat N.labels vals (localRun nb g s) hmem
  refine ⟨i, j, hij, hj, ?_⟩
  intro cfg T hT h hm init hlen h0 r w hr fuel hfu
  obtain ⟨res, e1, e2, e3⟩ := C140_run N nb hne hnd hnb g G vals s hs hg hG cfg T hT h hm init hlen h0 r w hr fuel hfu
  refine ⟨res, e1, e2, fun t hi ht => ?_⟩
  obtain ⟨d, d1, _, d3⟩ := e3 t (by omega)
  obtain ⟨d', d1', _, d3'⟩ := e3 (t + (j - i)) ht
  refine ⟨d, d', d1, d1', fun x hx => ⟨_, d3 x hx, ?_⟩⟩
  rw [d3' x hx]
  have := localRun_future (fun x hx => (hnb x hx).2) he (t - i) x hx
  rw [show i + (t - i) = t by omega, show j + (t - i) = t + (j - i) by omega] at this
  rw [this]

omit [DecidableEq L] [DecidableEq κ] in
/-- C140.  If no row has two predecessors, the run is periodic from its first state on. -/
theorem C140_reversible (ls : List L) (nb : L → List L) (hc : ∀ x ∈ ls, ∀ y ∈ nb x, y ∈ ls) (g : L → V → List V → V) (vals : List V)
    (s : L → V) (hs : ∀ x ∈ ls, s x ∈ vals)
    (hg : ∀ x ∈ ls, ∀ v ∈ vals, ∀ l : List V, l.length = (nb x).length → (∀ u ∈ l, u ∈ vals) → g x v l ∈ vals)
    (hinj : ∀ p q : L → V, (∀ x ∈ ls, p x ∈ vals) → (∀ x ∈ ls, q x ∈ vals) →
      (∀ x ∈ ls, g x (p x) ((nb x).map p) = g x (q x) ((nb x).map q)) → ∀ x ∈ ls, p x = q x) :
    ∃ P, 0 < P ∧ P ≤ vals.length ^ ls.length ∧ ∀ t, ∀ x ∈ ls, localRun nb g s (t + P) x = localRun nb g s t x := by
  have hmem := localRun_mem hc hs hg
  obtain ⟨i, j, hij, hj, he⟩ := rows_repeat ls vals (localRun nb g s) hmem
  have back : ∀ k, k ≤ i → ∀ x ∈ ls, localRun nb g s (i - k) x = localRun nb g s (j - k) x := by
    intro k
    induction k with
    | zero => exact fun _ => he
    | succ k ih =>
      intro hk
      refine hinj _ _ (hmem _) (hmem _) fun x hx => ?_
      have := ih (by omega) x hx
      rw [show i - k = i - (k + 1) + 1 by omega, show j - k = j - (k + 1) + 1 by omega] at this
      exact this
  have b0 := back i (Nat.le_refl _)
  rw [Nat.sub_self] at b0
  refine ⟨j - i, by omega, by omega, fun t x hx => ?_⟩
  have := localRun_future hc b0 t x hx
  rw [Nat.zero_add] at this
  rw [this, Nat.add_comm]

/-- Two nodes that copy each other. -/
def Ex.copyNet : Net Nat Int := fromAdjacencyMatrix [[0, 1], [1, 0]]

example : ∃ i j, i < j ∧ j ≤ 4 ∧
    ∀ (cfg : Config Nat Int Int Unit Unit Unit) (T : Nat) (_ : 1 ≤ T) (_ : cfg.Ordinary (fun c => .ok (c.neighbourActs.sum % 2)) T)
      (_ : cfg.memoize = false) (init : Option (Conds Nat Int)) (_ : (initDict cfg init).length = 2)
      (_ : ∀ x ∈ Ex.copyNet.labels, (initDict cfg init).get? x = some (if x = 0 then 1 else 0)) (r : Nat) (w : World Nat Int Unit)
      (_ : w.heap[r]? = some Ex.copyNet) (fuel : Nat) (_ : T ≤ fuel), ∃ res, evolve fuel cfg init r w = .ok res ∧ res.states.length = T ∧
        ∀ t, i ≤ t → t + (j - i) < T → ∃ d d', res.acts cfg t = some d ∧ res.acts cfg (t + (j - i)) = some d' ∧
          ∀ x ∈ Ex.copyNet.labels, ∃ v, d.get? x = some v ∧ d'.get? x = some v :=
  C140_repeats Ex.copyNet (fun x => [1 - x]) (by decide) (by decide) (by decide) (fun _ _ l => l.sum % 2) _ [0, 1]
    (fun x => if x = 0 then 1 else 0) (by decide) (by
      intro x _ v _ l _ _
      rcases Int.emod_two_eq l.sum with h | h <;> rw [h] <;> decide) (fun _ _ _ _ _ => rfl)

/-- They are reversible, of period two. -/
example : ∃ P, 0 < P ∧ P ≤ 4 ∧ ∀ t, ∀ x ∈ [0, 1],
    localRun (fun x => [1 - x]) (fun _ _ l => l.sum % 2) (fun x => if x = 0 then (1 : Int) else 0) (t + P) x =
      localRun (fun x => [1 - x]) (fun _ _ l => l.sum % 2) (fun x => if x = 0 then (1 : Int) else 0) t x :=
  C140_reversible [0, 1] (fun x => [1 - x]) (by decide) (fun _ _ l => l.sum % 2) [0, 1] _ (by decide) (by
      intro x _ v _ l _ _
      rcases Int.emod_two_eq l.sum with h | h <;> rw [h] <;> decide) (by
    intro p q hp hq h x hx
    have p0 := hp 0 (by decide)
    have p1 := hp 1 (by decide)
    have q0 := hq 0 (by decide)
    have q1 := hq 1 (by decide)
    have h0 := h 0 (by decide)
    have h1 := h 1 (by decide)
    simp only [List.map_cons, List.map_nil, List.sum_cons, List.sum_nil, List.mem_cons, List.not_mem_nil, or_false, Nat.sub_zero, Nat.sub_self] at *
    rcases hx with rfl | rfl <;> omega)

/-- C140.  The Game of Life on a torus (`C47_game_of_life` gives the same states for `evolve`): every pattern ends in a cycle,
which it has reached after `2 ^ (rows * cols)` steps at the latest. -/
theorem C140_life (rows cols : Nat) (hr : 0 < rows) (hc : 0 < cols) (s : Nat → Nat → Bool) :
    ∃ i j, i < j ∧ j ≤ 2 ^ (rows * cols) ∧ ∀ t, i ≤ t → ∀ a b, a < rows → b < cols →
      life rows cols s (t + (j - i)) a b = life rows cols s t a b := by
  obtain ⟨i, j, hij, hj, he⟩ := rows_repeat (List.range (rows * cols)) [false, true] (fun t x => life rows cols s t (x / cols) (x % cols))
    (fun t x _ => by cases life rows cols s t (x / cols) (x % cols) <;> decide)
  rw [List.length_range] at hj
  have h0 : ∀ a b, a < rows → b < cols → life rows cols s i a b = life rows cols s j a b := by
    intro a b ha hb
    have := he (a * cols + b) (List.mem_range.2 (by
      have := Nat.mul_le_mul_right cols (Nat.succ_le_of_lt ha)
      rw [Nat.succ_mul] at this
      omega))
    simp only [Nat.mul_comm a cols, Nat.mul_add_div hc, Nat.div_eq_of_lt hb, Nat.mul_add_mod, Nat.mod_eq_of_lt hb, Nat.add_zero] at this
    exact this
  have step : ∀ d a b, a < rows → b < cols → life rows cols s (i + d) a b = life rows cols s (j + d) a b := by
    intro d
    induction d with
    | zero => exact h0
    | succ d ih =>
      intro a b ha hb
      rw [← Nat.add_assoc, ← Nat.add_assoc, life, life, ih a b ha hb]
      congr 1
      apply List.countP_congr
      intro p hp
      have hin : p.1 < rows ∧ p.2 < cols := by
        simp only [around, List.mem_cons, List.not_mem_nil, or_false] at hp
        rcases hp with rfl | rfl | rfl | rfl | rfl | rfl | rfl | rfl <;>
          exact ⟨by first | exact Nat.mod_lt _ hr | exact ha, by first | exact Nat.mod_lt _ hc | exact hb⟩
      rw [ih p.1 p.2 hin.1 hin.2]
  refine ⟨i, j, hij, hj, fun t ht a b ha hb => ?_⟩
  have := step (t - i) a b ha hb
  rw [show i + (t - i) = t by omega, show j + (t - i) = t + (j - i) by omega] at this
  exact this.symm

/-- A blinker. -/
example : ∃ i j, i < j ∧ j ≤ 2 ^ 25 ∧ ∀ t, i ≤ t → ∀ a b, a < 5 → b < 5 →
    life 5 5 (fun a b => decide (a = 2 ∧ 1 ≤ b ∧ b ≤ 3)) (t + (j - i)) a b = life 5 5 (fun a b => decide (a = 2 ∧ 1 ≤ b ∧ b ≤ 3)) t a b :=
  C140_life 5 5 (by decide) (by decide) _

end
end Verif
