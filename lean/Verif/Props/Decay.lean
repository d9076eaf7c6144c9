import Verif.Model.Decay
import Verif.Props.SmallWorld
import Mathlib.Algebra.Order.Archimedean.Basic
import Mathlib.Algebra.Order.Field.Rat
import Mathlib.Tactic.Linarith
/-! # C167: the rewiring probability of the dynamic particle swarm, and its networks -/

namespace Verif
open Verif.Spec Verif.MG

/-- C167.  The probability is `p` before timestep `steps - 1`, is multiplied by `drop` every `steps` timesteps and constant in between,
never grows, and stays between 0 and `p`. -/
theorem C167_decay (p drop : Rat) (steps : Nat) (hp : 0 ≤ p) (h0 : 0 ≤ drop) (h1 : drop ≤ 1) (hs : 0 < steps) :
    (∀ t, t + 1 < steps → pDecay p drop steps t = p) ∧
    (∀ t, pDecay p drop steps (t + steps) = drop * pDecay p drop steps t) ∧
    (∀ t, steps ∣ t → ∀ i, i < steps → 1 ≤ t → pDecay p drop steps (t - 1 + i) = pDecay p drop steps (t - 1)) ∧
    (∀ s t, s ≤ t → pDecay p drop steps t ≤ pDecay p drop steps s) ∧
    ∀ t, 0 ≤ pDecay p drop steps t ∧ pDecay p drop steps t ≤ p := by
  have mono : ∀ s t, s ≤ t → pDecay p drop steps t ≤ pDecay p drop steps s := fun s t h =>
    mul_le_mul_of_nonneg_left (pow_le_pow_of_le_one h0 h1 (Nat.div_le_div_right (by omega))) hp
  refine ⟨?_, ?_, ?_, mono, ?_⟩
  · intro t h
    unfold pDecay
    rw [Nat.div_eq_of_lt (by omega), pow_zero, mul_one]
  · intro t
    unfold pDecay
    rw [← Nat.add_assoc, Nat.add_div_right _ hs, pow_succ]
    grind
  · rintro t ⟨c, rfl⟩ i hi ht
    unfold pDecay
    rw [show 1 + (steps * c - 1 + i) = i + steps * c by omega, show 1 + (steps * c - 1) = 0 + steps * c by omega,
      Nat.add_mul_div_left _ _ hs, Nat.add_mul_div_left _ _ hs, Nat.div_eq_of_lt hi, Nat.zero_div]
  · intro t
    refine ⟨mul_nonneg hp (pow_nonneg h0 _), ?_⟩
    unfold pDecay
    have := mul_le_mul_of_nonneg_left (pow_le_one₀ (n := (1 + t) / steps) h0 h1) hp
    linarith

/-- C167.  It tends to 0. -/
theorem C167_limit (p drop : Rat) (steps : Nat) (hp : 0 ≤ p) (h0 : 0 ≤ drop) (h1 : drop < 1) (hs : 0 < steps) (ε : Rat) (hε : 0 < ε) :
    ∃ T, ∀ t, T ≤ t → pDecay p drop steps t < ε := by
  have hp1 : 0 < p + 1 := by linarith
  obtain ⟨m, hm⟩ := exists_pow_lt_of_lt_one (div_pos hε hp1) h1
  refine ⟨m * steps, fun t ht => ?_⟩
  have hle : m ≤ (1 + t) / steps := (Nat.le_div_iff_mul_le hs).2 (by omega)
  have h3 := pow_le_pow_of_le_one h0 (le_of_lt h1) hle
  have h4 : drop ^ m * (p + 1) < ε := (lt_div_iff₀ hp1).1 hm
  have h5 : 0 ≤ drop ^ m := pow_nonneg h0 _
  have h6 := mul_le_mul_of_nonneg_left h3 hp
  unfold pDecay
  nlinarith

/-- C167.  The values of the demo: nine tenths to the power `(1 + t) // 10 + 1`. -/
theorem C167_demo (t : Nat) : pDecay (9 / 10) (9 / 10) 10 t = (9 / 10) ^ ((1 + t) / 10 + 1) := by
  unfold pDecay
  rw [pow_succ]
  grind

/-- C167, against the comment of the demo that the first network "is essentially a fully connected network": whatever is drawn, the networks of 20
nodes with `k = 4` have 80 of the 380 edges of a complete network, and some pair of nodes is not linked. -/
theorem C167_network (luck : Nat × Nat → Option (Nat × List Nat)) (hl : DrawsNodes 20 luck) (N : Net Nat Int)
    (h : wattsStrogatzGraph 20 4 luck = .ok N) :
    ∃ g : MG Nat Int, N = ofMG g ∧ (∀ x, x ∈ g.labels ↔ x < 20) ∧ g.edges.length = 80 ∧
      ∃ a b, a < 20 ∧ b < 20 ∧ a ≠ b ∧ between g.edges a b = [] := by
  rcases C137_small_world 20 4 (by decide) (by decide) luck hl with e | ⟨g, e, _, _, hlab, _, _, _, hlen, _⟩
  · rw [e] at h; cases h
  · rw [e] at h
    cases h
    refine ⟨g, rfl, hlab, hlen, ?_⟩
    refine Classical.byContradiction fun hno => ?_
    let pairs : List (Nat × Nat) := ((List.range 20).flatMap (fun a => (List.range 20).map (fun b => (a, b)))).filter (fun p => decide (p.1 ≠ p.2))
    have hnd : pairs.Nodup := by decide +kernel
    have hcount : pairs.length = 380 := by decide +kernel
    have hsub : pairs ⊆ g.edges.map (fun e => (e.src, e.dst)) := by
      rintro ⟨a, b⟩ hab
      simp only [pairs, List.mem_filter, List.mem_flatMap, List.mem_map, List.mem_range, decide_eq_true_eq] at hab
      obtain ⟨⟨a', ha, b', hb, he⟩, hne⟩ := hab
      cases he
      have hb' : between g.edges a b ≠ [] := fun h0 => hno ⟨a, b, ha, hb, hne, h0⟩
      obtain ⟨x, hx⟩ := List.exists_mem_of_ne_nil _ hb'
      simp only [between, List.mem_map, List.mem_filter] at hx
      obtain ⟨ed, ⟨hed, hd⟩, _⟩ := hx
      simp at hd
      exact List.mem_map.2 ⟨ed, hed, by rw [hd.1, hd.2]⟩
    have := hnd.length_le_of_subset hsub
    rw [List.length_map, hlen, hcount] at this
    omega

example : pDecay (9 / 10) (9 / 10) 10 8 = 9 / 10 := (C167_decay (9 / 10) (9 / 10) 10 (by norm_num) (by norm_num) (by norm_num) (by decide)).1 8 (by decide)
example : pDecay (9 / 10) (9 / 10) 10 9 = 81 / 100 := by rw [C167_demo]; norm_num
example : ∃ T, ∀ t, T ≤ t → pDecay (9 / 10) (9 / 10) 10 t < 1 / 1000 :=
  C167_limit _ _ 10 (by norm_num) (by norm_num) (by norm_num) (by decide) _ (by norm_num)
/-- Nothing is rewired. -/
example : ∃ N, wattsStrogatzGraph 20 4 (fun _ => none) = .ok N :=
  C137_ends 20 4 (by decide) (by decide) _ (fun p w ds h => by cases h) (fun p w ds h => by cases h)

end Verif
