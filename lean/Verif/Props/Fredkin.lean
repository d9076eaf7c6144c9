import Verif.Proofs.Fredkin
import Verif.Props.Examples
/-! # C93: Fredkin's self-replicating automata -/

namespace Verif
open Spec
section
variable {I σ κ : Type} [DecidableEq κ]

/-- C93.  For the neighbourhood `nbh` with the directions `D` and `p` colours: every ordinary call of `evolve` with the
rule of the demos on `cellular_automaton2d(rows, cols, r=1, neighbourhood=nbh)`, from any initial pattern `s`, returns, and
its states are the automaton that adds up the neighbours of a cell modulo `p`. -/
theorem C93_run (rows cols : Nat) (hrw : 3 ≤ rows) (hcl : 3 ≤ cols) (nbh : String) (D : List (Int × Int))
    (hnbh : (nbh = "Moore" ∧ D = moore8) ∨ (nbh = "von Neumann" ∧ D = vonNeumann4)) (p : Nat)
    (cfg : Config Nat Int Int I σ κ) (T : Nat) (hT : 1 ≤ T) (h : cfg.Ordinary (fredkinRule p) T) (N : Net Nat Int)
    (hN : cellularAutomaton2d rows cols 1 nbh true = .ok N) (r : Nat) (w : World Nat Int σ)
    (hr : w.heap[r]? = some N) (init : Option (Conds Nat Int)) (s : Nat → Nat → Int)
    (hlen : (initDict cfg init).length = rows * cols)
    (h0 : ∀ a b, a < rows → b < cols → (initDict cfg init).get? (a * cols + b) = some (s a b))
    (fuel : Nat) (hf : T ≤ fuel) :
    ∃ res, evolve fuel cfg init r w = .ok res ∧ ShowsRun cfg res T (rows * cols)
      (fun t x => torusCA rows cols D (fun _ l => l.sum % (p : Int)) s t (x / cols) (x % cols)) := by
  have h9 : 9 ≤ rows * cols := Nat.mul_le_mul hrw hcl
  rcases hnbh with ⟨rfl, rfl⟩ | ⟨rfl, rfl⟩
  · obtain ⟨M, m1, m2⟩ := C41_moore rows cols 1 h9
    exact torus_run hrw hcl moore_directions m1 m2 (fredkin_rule p) cfg T hT h N hN r w hr init s hlen h0 fuel hf
  · obtain ⟨M, m1, m2⟩ := C41_von_neumann rows cols 1 h9
    exact torus_run hrw hcl vonNeumann_directions m1 m2 (fredkin_rule p) cfg T hT h N hN r w hr init s hlen h0 fuel hf

/-- C93, replication.  If `p` is a prime, then in the state `p ^ k` every cell holds the sum modulo `p` of the initial
values at the distance `p ^ k` in the directions of the neighbourhood, around the torus: the pattern is the sum of as many
copies of the initial pattern as there are neighbours. -/
theorem C93_replicates (rows cols : Nat) (hrw : 3 ≤ rows) (hcl : 3 ≤ cols) (nbh : String) (D : List (Int × Int))
    (hnbh : (nbh = "Moore" ∧ D = moore8) ∨ (nbh = "von Neumann" ∧ D = vonNeumann4)) (p : Nat) (hp : p.Prime) (k : Nat)
    (cfg : Config Nat Int Int I σ κ) (T : Nat) (hT : p ^ k < T) (h : cfg.Ordinary (fredkinRule p) T) (N : Net Nat Int)
    (hN : cellularAutomaton2d rows cols 1 nbh true = .ok N) (r : Nat) (w : World Nat Int σ)
    (hr : w.heap[r]? = some N) (init : Option (Conds Nat Int)) (s : Nat → Nat → Int)
    (hlen : (initDict cfg init).length = rows * cols)
    (h0 : ∀ a b, a < rows → b < cols → (initDict cfg init).get? (a * cols + b) = some (s a b))
    (fuel : Nat) (hf : T ≤ fuel) :
    ∃ res d, evolve fuel cfg init r w = .ok res ∧ res.acts cfg (p ^ k) = some d ∧ ∀ a b, a < rows → b < cols →
      d.get? (a * cols + b) = some ((D.map (fun e =>
        torusAt rows cols s ((a : Int) + (p : Int) ^ k * e.1) ((b : Int) + (p : Int) ^ k * e.2))).sum % (p : Int)) := by
  obtain ⟨res, g1, _, g3⟩ := C93_run rows cols hrw hcl nbh D hnbh p cfg T (by omega) h N hN r w hr init s hlen h0 fuel hf
  obtain ⟨d, d1, _, d3⟩ := g3 (p ^ k) hT
  refine ⟨res, d, g1, d1, ?_⟩
  intro a b ha hb
  rw [d3 _ (label_lt ha hb)]
  have q1 : (a * cols + b) / cols = a := by
    rw [Nat.mul_comm, Nat.mul_add_div (by omega), Nat.div_eq_of_lt hb, Nat.add_zero]
  have q2 : (a * cols + b) % cols = b := by
    rw [Nat.mul_comm, Nat.mul_add_mod, Nat.mod_eq_of_lt hb]
  simp only [q1, q2]
  rw [fredkin_replicates (by omega) (by omega) hp k D s ha hb]

/-- C93, separate copies.  If the initial pattern lies in a box of `p ^ k` rows and `p ^ k` columns at `(i0, j0)`, holds
colours, and the torus has at least `3 * p ^ k` rows and columns, then the state `p ^ k` consists of exact copies of
the pattern, displaced by `p ^ k` cells in the directions opposite to those in `D` (which are again those of `D`), and
zeros elsewhere. -/
theorem C93_copies (rows cols : Nat) (hrw : 3 ≤ rows) (hcl : 3 ≤ cols) (nbh : String) (D : List (Int × Int))
    (hnbh : (nbh = "Moore" ∧ D = moore8) ∨ (nbh = "von Neumann" ∧ D = vonNeumann4)) (p : Nat) (hp : p.Prime) (k : Nat)
    (cfg : Config Nat Int Int I σ κ) (T : Nat) (hT : p ^ k < T) (h : cfg.Ordinary (fredkinRule p) T) (N : Net Nat Int)
    (hN : cellularAutomaton2d rows cols 1 nbh true = .ok N) (r : Nat) (w : World Nat Int σ)
    (hr : w.heap[r]? = some N) (init : Option (Conds Nat Int)) (s : Nat → Nat → Int)
    (hlen : (initDict cfg init).length = rows * cols)
    (h0 : ∀ a b, a < rows → b < cols → (initDict cfg init).get? (a * cols + b) = some (s a b))
    (hcol : ∀ a b, 0 ≤ s a b ∧ s a b < p) (i0 j0 : Nat)
    (hbox : ∀ a b, s a b ≠ 0 → (i0 ≤ a ∧ a < i0 + p ^ k) ∧ (j0 ≤ b ∧ b < j0 + p ^ k))
    (hbig : 3 * p ^ k ≤ rows ∧ 3 * p ^ k ≤ cols)
    (fuel : Nat) (hf : T ≤ fuel) :
    ∃ res d, evolve fuel cfg init r w = .ok res ∧ res.acts cfg (p ^ k) = some d ∧ ∀ a b, a < rows → b < cols →
      (∀ e ∈ D, ∀ a' b', a' = (((a : Int) + (p : Int) ^ k * e.1) % (rows : Int)).toNat →
        b' = (((b : Int) + (p : Int) ^ k * e.2) % (cols : Int)).toNat → s a' b' ≠ 0 →
        d.get? (a * cols + b) = some (s a' b')) ∧
      ((∀ e ∈ D, torusAt rows cols s ((a : Int) + (p : Int) ^ k * e.1) ((b : Int) + (p : Int) ^ k * e.2) = 0) →
        d.get? (a * cols + b) = some 0) := by
  obtain ⟨res, d, g1, g2, g3⟩ := C93_replicates rows cols hrw hcl nbh D hnbh p hp k cfg T hT h N hN r w hr init s hlen h0
    fuel hf
  have hq : 0 < p ^ k := pow_pos hp.pos k
  have hD : D.Nodup ∧ ∀ e ∈ D, e.1.natAbs ≤ 1 ∧ e.2.natAbs ≤ 1 := by
    rcases hnbh with ⟨_, rfl⟩ | ⟨_, rfl⟩ <;> exact ⟨by decide, by decide⟩
  refine ⟨res, d, g1, g2, ?_⟩
  intro a b ha hb
  rw [g3 a b ha hb]
  constructor
  · rintro e he a' b' rfl rfl hne
    have hs : (D.map (fun e => torusAt rows cols s ((a : Int) + (p : Int) ^ k * e.1) ((b : Int) + (p : Int) ^ k * e.2))).sum =
        torusAt rows cols s ((a : Int) + (p : Int) ^ k * e.1) ((b : Int) + (p : Int) ^ k * e.2) := by
      refine sum_single hD.1 he _ ?_
      intro f hf hfe
      apply Classical.byContradiction
      intro hn
      obtain ⟨x1, x2⟩ := hbox _ _ hne
      obtain ⟨y1, y2⟩ := hbox _ _ hn
      apply hfe
      have c : ((p : Int) ^ k) = ((p ^ k : Nat) : Int) := by push_cast; rfl
      rw [c] at x1 x2 y1 y2
      exact Prod.ext (interval_once hq hbig.1 (hD.2 f hf).1 (hD.2 e he).1 y1 x1)
        (interval_once hq hbig.2 (hD.2 f hf).2 (hD.2 e he).2 y2 x2)
    rw [hs, torusAt, Int.emod_eq_of_lt (hcol _ _).1 (hcol _ _).2]
  · intro hz
    rw [List.sum_eq_zero]
    · simp
    · intro x hx
      obtain ⟨e, he, rfl⟩ := List.mem_map.1 hx
      exact hz e he

/-- A small letter "L" in the colours 1 and 2, on a 9 × 9 torus. -/
def Ex.letter (a b : Nat) : Int := if (a, b) = (4, 4) then 1 else if (a, b) = (5, 4) then 2 else if (a, b) = (5, 5) then 1 else 0

/-- The hypotheses are met: three colours, three steps, a memoized call. -/
example : ∃ N res d, cellularAutomaton2d 9 9 1 "von Neumann" true = .ok N ∧
    evolve 4 { Ex.base with rule := some (pureRule (fredkinRule 3)), input := .timesteps 4, memoize := true }
      (some (.dict (Dict.ofKeys (List.range 81) (fun x => Ex.letter (x / 9) (x % 9))))) 0 ⟨[N], []⟩ = .ok res ∧
    res.acts { Ex.base with rule := some (pureRule (fredkinRule 3)), input := .timesteps 4, memoize := true } 3 = some d ∧
    d.get? (8 * 9 + 4) = some 2 ∧ d.get? (5 * 9 + 4) = some 0 := by
  obtain ⟨N, hN, _⟩ := C44_centre_partial.2 9 9 1 "von Neumann" (by decide) (by decide)
  obtain ⟨res, d, h1, h2, h3⟩ := C93_copies 9 9 (by omega) (by omega) "von Neumann" vonNeumann4 (Or.inr ⟨rfl, rfl⟩) 3
    (by decide) 1
    { Ex.base with rule := some (pureRule (fredkinRule 3)), input := .timesteps 4, memoize := true } 4 (by omega)
    ⟨rfl, rfl, rfl, rfl, rfl, rfl, rfl⟩ N hN 0 ⟨[N], []⟩ rfl
    (some (.dict (Dict.ofKeys (List.range 81) (fun x => Ex.letter (x / 9) (x % 9))))) Ex.letter (by decide)
    (by
      intro a b ha hb
      simp only [initDict, Conds.toDict, Dict.get?_ofKeys]
      rw [if_pos (List.mem_range.2 (label_lt ha hb))]
      have q1 : (a * 9 + b) / 9 = a := by omega
      have q2 : (a * 9 + b) % 9 = b := by omega
      rw [q1, q2])
    (by intro a b; unfold Ex.letter; split <;> [skip; split] <;> [skip; skip; split] <;> decide)
    4 4
    (by
      intro a b hn
      unfold Ex.letter at hn
      simp only [Prod.mk.injEq] at hn
      split at hn
      · omega
      · split at hn
        · omega
        · split at hn
          · omega
          · exact absurd rfl hn)
    (by decide) 4 (by omega)
  refine ⟨N, res, d, hN, h1, h2, ?_, ?_⟩
  · exact (h3 8 4 (by omega) (by omega)).1 (-1, 0) (by decide) 5 4 (by decide) (by decide) (by decide)
  · exact (h3 5 4 (by omega) (by omega)).2 (by decide)

end
end Verif
