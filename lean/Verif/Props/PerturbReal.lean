import Verif.Proofs.PerturbReal
import Verif.Props.Perturb
/-! # Property C141: the continuous generalisations of rules 30 and 90 of the perturbation demo -/

namespace Verif
open Spec
section
variable {I σ κ : Type} [DecidableEq κ]

theorem bumps_eq (x : ℝ) : bumps x = twoBumps x := by
  unfold bumps twoBumps
  rw [neg_mul, neg_mul]

theorem noisePert_eq (noise : ℝ) (u : Nat → Nat → ℝ) (c : PertCtx Nat ℝ I) : noisePert noise u c = .ok (pushed noise (u c.t c.node) c.activity) := by
  unfold noisePert npSign pushed
  congr 1
  by_cases h : c.activity < 1 / 2
  · rw [if_pos (by linarith), if_pos h]; ring
  · rw [if_neg (by linarith), if_neg h]
    by_cases h2 : 1 / 2 < c.activity
    · rw [if_neg (by intro h0; linarith), if_pos h2]; ring
    · rw [if_pos (by linarith), if_neg h2]; ring

/-- A ring with noise, for any rule of three values. -/
theorem noisy_run (n : Nat) (hn : 3 ≤ n) (G : NodeCtx Nat Int ℝ I → Except Err ℝ) (φ : ℝ → ℝ → ℝ → ℝ)
    (hG : ∀ c a b d, c.neighbourActs = [a, b, d] → G c = .ok (φ a b d)) (hm : MemoSafe (κ := κ) none true G) (noise : ℝ) (u : Nat → Nat → ℝ)
    (cfg : Config Nat Int ℝ I σ κ) (T : Nat) (hT : 1 ≤ T) (h : cfg.Perturbed G (some (noisePert noise u)) T) (N : Net Nat Int)
    (hN : cellularAutomaton n 1 true = .ok N) (r : Nat)
    (w : World Nat Int σ) (hr : w.heap[r]? = some N) (init : Option (Conds Nat ℝ)) (s : Nat → ℝ) (hlen : (initDict cfg init).length = n)
    (h0 : ∀ x, x < n → (initDict cfg init).get? x = some (s x)) (fuel : Nat) (hf : T ≤ fuel) :
    ∃ res, evolve fuel cfg init r w = .ok res ∧ ShowsRun cfg res T n (noisyRing n φ (fun t x => pushed noise (u t x)) s) := by
  obtain ⟨N', rs, e1, e2, e3, e4⟩ := C43_left_to_right n 1 hn (by omega)
  rw [hN] at e1
  cases e1
  have hrot : N.rotation.isSome = true := by rw [e2]; rfl
  obtain ⟨c1, h1, m1, i1, o1, ev1⟩ := h.ordinary hr (fun _ => by rw [h.key, hrot]; exact hm)
  have := ca_run h1 hT (by omega) e3 (nb := fun x => [(x + n - 1) % n, x, (x + 1) % n]) (init := init)
    (f := noisyRing n φ (fun t x => pushed noise (u t x)) s) (r := r) (w := w) (fuel := fuel) ?_ (by rw [i1]; exact hlen)
    (by rw [i1]; exact h0) ?_ (fun hm => by rw [m1] at hm; cases hm) hr hf
  · obtain ⟨res, g1, g2, g3⟩ := this
    refine ⟨res, by rw [ev1]; exact g1, g2, ?_⟩
    intro t ht
    obtain ⟨d, d1, d2⟩ := g3 t ht
    exact ⟨d, by rw [← o1]; exact d1, d2⟩
  · intro x hx
    refine ⟨?_, ?_⟩
    · simp only [specNbrs, e2]
      rw [e4 x hx, ringCell_three hx hn]
    · intro y hy
      simp only [List.mem_cons, List.not_mem_nil, or_false] at hy
      rcases hy with rfl | rfl | rfl
      · exact Nat.mod_lt _ (by omega)
      · exact hx
      · exact Nat.mod_lt _ (by omega)
  · intro t ht x hx
    unfold thenPert
    rw [hG _ _ _ _ rfl]
    exact noisePert_eq noise u _

/-- C141.  `algebraic_rule_30` on `cellular_automaton(n)`, `n ≥ 3`, with the perturbation of the demo, any amount of noise, any
random numbers and any initial values, with or without memoization. -/
theorem C141_run30 (n : Nat) (hn : 3 ≤ n) (noise : ℝ) (u : Nat → Nat → ℝ)
    (cfg : Config Nat Int ℝ I σ κ) (T : Nat) (hT : 1 ≤ T) (h : cfg.Perturbed algebraicRule30 (some (noisePert noise u)) T) (N : Net Nat Int)
    (hN : cellularAutomaton n 1 true = .ok N) (r : Nat)
    (w : World Nat Int σ) (hr : w.heap[r]? = some N) (init : Option (Conds Nat ℝ)) (s : Nat → ℝ) (hlen : (initDict cfg init).length = n)
    (h0 : ∀ x, x < n → (initDict cfg init).get? x = some (s x)) (fuel : Nat) (hf : T ≤ fuel) :
    ∃ res, evolve fuel cfg init r w = .ok res ∧
      ShowsRun cfg res T n (noisyRing n (fun a b c => twoBumps (a + b + c + b * c)) (fun t x => pushed noise (u t x)) s) :=
  noisy_run n hn _ _ (fun c a b d hc => by unfold algebraicRule30; rw [hc]; simp only [bumps_eq])
    (fun c c' hcc => by simp only [algebraicRule30, hcc]) noise u cfg T hT h N hN r w hr init s hlen h0 fuel hf

/-- C141.  The same for `algebraic_rule_90`. -/
theorem C141_run90 (n : Nat) (hn : 3 ≤ n) (noise : ℝ) (u : Nat → Nat → ℝ)
    (cfg : Config Nat Int ℝ I σ κ) (T : Nat) (hT : 1 ≤ T) (h : cfg.Perturbed algebraicRule90 (some (noisePert noise u)) T) (N : Net Nat Int)
    (hN : cellularAutomaton n 1 true = .ok N) (r : Nat)
    (w : World Nat Int σ) (hr : w.heap[r]? = some N) (init : Option (Conds Nat ℝ)) (s : Nat → ℝ) (hlen : (initDict cfg init).length = n)
    (h0 : ∀ x, x < n → (initDict cfg init).get? x = some (s x)) (fuel : Nat) (hf : T ≤ fuel) :
    ∃ res, evolve fuel cfg init r w = .ok res ∧
      ShowsRun cfg res T n (noisyRing n (fun a _ c => twoBumps (a + c)) (fun t x => pushed noise (u t x)) s) :=
  noisy_run n hn _ _ (fun c a b d hc => by unfold algebraicRule90; rw [hc]; simp only [bumps_eq])
    (fun c c' hcc => by simp only [algebraicRule90, hcc]) noise u cfg T hT h N hN r w hr init s hlen h0 fuel hf

/-- C141.  Nodes with another number of neighbours make the first rule raise a `ValueError`, and nodes with fewer than three the
second an `IndexError`. -/
theorem C141_errors {L A : Type} (c : NodeCtx L A ℝ I) :
    (c.neighbourActs.length ≠ 3 → algebraicRule30 c = .error .valueError) ∧
      (c.neighbourActs.length < 3 → algebraicRule90 c = .error .indexError) := by
  unfold algebraicRule30 algebraicRule90
  match c.neighbourActs with
  | [] => exact ⟨fun _ => rfl, fun _ => rfl⟩
  | [_] => exact ⟨fun _ => rfl, fun _ => rfl⟩
  | [_, _] => exact ⟨fun _ => rfl, fun _ => rfl⟩
  | [_, _, _] => exact ⟨fun h => absurd rfl h, fun h => absurd h (by simp)⟩
  | _ :: _ :: _ :: _ :: _ => exact ⟨fun _ => rfl, fun h => by simp at h; omega⟩

example : ([] : List ℝ).length ≠ 3 ∧ ([] : List ℝ).length < 3 := by decide

/-- A call with the rule and the noise of the demo. -/
noncomputable def Ex.realCfg (u : Nat → Nat → ℝ) : Config Nat Int ℝ Unit Unit Unit :=
  { rule := some (pureRule algebraicRule30),
    perturbation := some (fun c u' => match noisePert (1 / 50) u c with | .error e => .error e | .ok v => .ok (v, u')),
    topology := none, input := .timesteps 4, past := [], order := .activitiesFirst, copyNetwork := true, memoize := true, key := none,
    natLabel := id, labelIdx := fun l => some (l : Int), persistActs := true, persistNet := true, compression := false,
    actAttr := fun _ => 0, labelCodec := natCodec, attrCodec := intCodec, valCodec := ⟨fun _ => .ok (), fun x => x⟩ }

example (u : Nat → Nat → ℝ) : ∃ N res, cellularAutomaton 5 1 true = .ok N ∧
    evolve 4 (Ex.realCfg u) (some (.list [0, 0, 1, 0, 0])) 0 ⟨[N], ()⟩ = .ok res ∧ ShowsRun (Ex.realCfg u) res 4 5
      (noisyRing 5 (fun a b c => twoBumps (a + b + c + b * c)) (fun t x => pushed (1 / 50) (u t x)) (fun x => ([0, 0, 1, 0, 0] : List ℝ).getD x 0)) := by
  obtain ⟨N, _, hN, _⟩ := C43_left_to_right 5 1 (by omega) (by omega)
  have hi := initDict_list (cfg := Ex.realCfg u) rfl [0, 0, 1, 0, 0]
  obtain ⟨res, h1, h2⟩ := C141_run30 5 (by omega) (1 / 50) u (Ex.realCfg u) 4 (by omega) ⟨rfl, rfl, rfl, rfl, rfl, rfl, rfl⟩ N hN 0 ⟨[N], ()⟩ rfl
    (some (.list [0, 0, 1, 0, 0])) (fun x => ([0, 0, 1, 0, 0] : List ℝ).getD x 0) (by rw [hi.1]; rfl)
    (by
      intro x hx
      rw [hi.2.2 x (by simpa using hx), List.getD_eq_getElem?_getD, List.getElem?_eq_getElem (by simpa using hx)]
      rfl) 4 (by omega)
  exact ⟨N, res, hN, h1, h2⟩

/-- C141.  Whatever the initial values, all later ones lie between 0 and `1 + exp(-10)`, up to the noise. -/
theorem C141_bounded (n : Nat) (noise : ℝ) (hn : 0 ≤ noise) (u : Nat → Nat → ℝ) (hu : ∀ t x, 0 ≤ u t x ∧ u t x ≤ 1) (g : ℝ → ℝ → ℝ → ℝ)
    (s : Nat → ℝ) (t x : Nat) :
    -noise < noisyRing n (fun a b c => twoBumps (g a b c)) (fun t x => pushed noise (u t x)) s (t + 1) x ∧
      noisyRing n (fun a b c => twoBumps (g a b c)) (fun t x => pushed noise (u t x)) s (t + 1) x ≤ 1 + Real.exp (-10) + noise := by
  rw [noisyRing]
  generalize g _ _ _ = y
  have h1 := twoBumps_pos y
  have h2 := twoBumps_le y
  obtain ⟨h3, h4⟩ := abs_le.1 (pushed_near (v := twoBumps y) hn (hu (t + 1) x).1 (hu (t + 1) x).2)
  constructor <;> linarith

/-- C141.  The noise never takes a value to the other side of one half, and changes it by at most its amount. -/
theorem C141_side (noise u v : ℝ) (hn : 0 ≤ noise) (hu : 0 ≤ u ∧ u ≤ 1) :
    (pushed noise u v < 1 / 2 ↔ v < 1 / 2) ∧ (1 / 2 < pushed noise u v ↔ 1 / 2 < v) ∧ |pushed noise u v - v| ≤ noise := by
  have h1 : 0 ≤ u * noise := mul_nonneg hu.1 hn
  refine ⟨?_, ?_, pushed_near hn hu.1 hu.2⟩
  · unfold pushed
    split
    · constructor <;> intro <;> linarith
    · split <;> constructor <;> intro <;> linarith
  · unfold pushed
    split
    · constructor <;> intro <;> linarith
    · split <;> constructor <;> intro <;> linarith

theorem near_bound {a e : ℝ} {A : Nat} (h : |a - A| ≤ e) : (A : ℝ) - e ≤ a ∧ a ≤ A + e := by
  obtain ⟨h1, h2⟩ := abs_le.1 h
  constructor <;> linarith

theorem step30 {a b c : ℝ} {A B C : Nat} (hA : A < 2) (hB : B < 2) (hC : C < 2) (ha : |a - A| ≤ 1 / 500) (hb : |b - B| ≤ 1 / 500)
    (hc : |c - C| ≤ 1 / 500) : |twoBumps (a + b + c + b * c) - (ecaRule 30 A B C : Nat)| ≤ 3 / 2000 := by
  obtain ⟨a1, a2⟩ := near_bound ha
  obtain ⟨b1, b2⟩ := near_bound hb
  obtain ⟨c1, c2⟩ := near_bound hc
  have hprod : |b * c - (B : ℝ) * C| ≤ 2.1 / 500 := by
    have hB' : (0 : ℝ) ≤ B ∧ (B : ℝ) ≤ 1 := ⟨by positivity, by exact_mod_cast Nat.lt_succ_iff.1 hB⟩
    have hC' : (0 : ℝ) ≤ C ∧ (C : ℝ) ≤ 1 := ⟨by positivity, by exact_mod_cast Nat.lt_succ_iff.1 hC⟩
    have e : b * c - (B : ℝ) * C = (b - B) * (c - C) + (b - B) * C + (c - C) * B := by ring
    have f1 : |(b - B) * (c - C)| ≤ 1 / 500 * (1 / 500) := by rw [abs_mul]; exact mul_le_mul hb hc (abs_nonneg _) (by norm_num)
    have f2 : |(b - B) * (C : ℝ)| ≤ 1 / 500 * 1 := by
      rw [abs_mul, abs_of_nonneg hC'.1]; exact mul_le_mul hb hC'.2 hC'.1 (by norm_num)
    have f3 : |(c - C) * (B : ℝ)| ≤ 1 / 500 * 1 := by
      rw [abs_mul, abs_of_nonneg hB'.1]; exact mul_le_mul hc hB'.2 hB'.1 (by norm_num)
    rw [e]
    have g1 := abs_add_le ((b - B) * (c - C) + (b - B) * C) ((c - C) * B)
    have g2 := abs_add_le ((b - B) * (c - C)) ((b - B) * (C : ℝ))
    linarith
  have hx : |a + b + c + b * c - ((A : ℝ) + B + C + B * C)| ≤ 1 / 90 := by
    obtain ⟨p1, p2⟩ := abs_le.1 hprod
    rw [abs_le]
    constructor <;> linarith
  have hpos := twoBumps_pos (a + b + c + b * c)
  have key : ∀ k : ℝ, (A : ℝ) + B + C + B * C = k →
      ((k = 1 ∨ k = 3) → |twoBumps (a + b + c + b * c) - 1| ≤ 3 / 2000) ∧
      ((k = 0 ∨ k = 2 ∨ k = 4) → |twoBumps (a + b + c + b * c) - 0| ≤ 3 / 2000) := by
    intro k hk
    rw [hk] at hx
    refine ⟨fun h => ?_, fun h => ?_⟩
    · obtain ⟨q1, q2⟩ := twoBumps_odd k h hx (by norm_num)
      rw [abs_le]
      constructor <;> linarith
    · have q := twoBumps_even k h hx (by norm_num)
      rw [abs_le]
      constructor <;> linarith
  clear hx hprod
  have d : (A = 0 ∨ A = 1) ∧ (B = 0 ∨ B = 1) ∧ (C = 0 ∨ C = 1) := by omega
  obtain ⟨rfl | rfl, rfl | rfl, rfl | rfl⟩ := d <;> norm_num [ecaRule] at key ⊢ <;> exact key

theorem step90 {a c : ℝ} {A B C : Nat} (hA : A < 2) (hB : B < 2) (hC : C < 2) (ha : |a - A| ≤ 1 / 80) (hc : |c - C| ≤ 1 / 80) :
    |twoBumps (a + c) - (ecaRule 90 A B C : Nat)| ≤ 1 / 160 := by
  obtain ⟨a1, a2⟩ := near_bound ha
  obtain ⟨c1, c2⟩ := near_bound hc
  have hx : |a + c - ((A : ℝ) + C)| ≤ 1 / 40 := by
    rw [abs_le]
    constructor <;> linarith
  have hpos := twoBumps_pos (a + c)
  have key : ∀ k : ℝ, (A : ℝ) + C = k →
      ((k = 1 ∨ k = 3) → |twoBumps (a + c) - 1| ≤ 1 / 160) ∧ ((k = 0 ∨ k = 2 ∨ k = 4) → |twoBumps (a + c) - 0| ≤ 1 / 160) := by
    intro k hk
    rw [hk] at hx
    refine ⟨fun h => ?_, fun h => ?_⟩
    · obtain ⟨q1, q2⟩ := twoBumps_odd k h hx (by norm_num)
      rw [abs_le]
      constructor <;> linarith
    · have q := twoBumps_even k h hx (by norm_num)
      rw [abs_le]
      constructor <;> linarith
  clear hx
  have d : (A = 0 ∨ A = 1) ∧ (B = 0 ∨ B = 1) ∧ (C = 0 ∨ C = 1) := by omega
  obtain ⟨rfl | rfl, rfl | rfl, rfl | rfl⟩ := d <;> norm_num [ecaRule] at key ⊢ <;> exact key

theorem noisy_follows {n R : Nat} (hn : 0 < n) {φ : ℝ → ℝ → ℝ → ℝ} {e q noise : ℝ} (hnz : 0 ≤ noise) (hq : q + noise ≤ e) (he : 0 ≤ e)
    (hstep : ∀ (a b c : ℝ) (A B C : Nat), A < 2 → B < 2 → C < 2 → |a - A| ≤ e → |b - B| ≤ e → |c - C| ≤ e → |φ a b c - (ecaRule R A B C : Nat)| ≤ q)
    {u : Nat → Nat → ℝ} (hu : ∀ t x, 0 ≤ u t x ∧ u t x ≤ 1) {s : Nat → Nat} (hs : ∀ x, x < n → s x < 2) :
    ∀ t x, x < n → |noisyRing n φ (fun t x => pushed noise (u t x)) (fun x => (s x : ℝ)) t x - (eca n R s t x : Nat)| ≤ e ∧ eca n R s t x < 2 := by
  intro t
  induction t with
  | zero =>
    intro x hx
    refine ⟨?_, hs x hx⟩
    simp only [noisyRing, eca, sub_self, abs_zero]
    exact he
  | succ t ih =>
    intro x hx
    obtain ⟨l1, l2⟩ := ih ((x + n - 1) % n) (Nat.mod_lt _ hn)
    obtain ⟨m1, m2⟩ := ih x hx
    obtain ⟨r1, r2⟩ := ih ((x + 1) % n) (Nat.mod_lt _ hn)
    have hst := hstep _ _ _ _ _ _ l2 m2 r2 l1 m1 r1
    refine ⟨?_, Nat.mod_lt _ (by omega)⟩
    rw [noisyRing, eca]
    generalize φ _ _ _ = v at hst ⊢
    have hp := pushed_near (v := v) hnz (hu (t + 1) x).1 (hu (t + 1) x).2
    have := abs_sub_le (pushed noise (u (t + 1) x) v) v ((ecaRule R (eca n R s t ((x + n - 1) % n)) (eca n R s t x) (eca n R s t ((x + 1) % n)) : Nat) : ℝ)
    linarith

/-- C141.  With noise of at most 0.0005 (none included), the continuous rule 30 stays within 0.002 of elementary rule 30 for ever,
whatever the random numbers and the initial zeros and ones. -/
theorem C141_follows30 (n : Nat) (hn : 0 < n) (noise : ℝ) (h0 : 0 ≤ noise) (h1 : noise ≤ 1 / 2000) (u : Nat → Nat → ℝ)
    (hu : ∀ t x, 0 ≤ u t x ∧ u t x ≤ 1) (s : Nat → Nat) (hs : ∀ x, x < n → s x < 2) (t x : Nat) (hx : x < n) :
    |noisyRing n (fun a b c => twoBumps (a + b + c + b * c)) (fun t x => pushed noise (u t x)) (fun x => (s x : ℝ)) t x - (eca n 30 s t x : Nat)|
      ≤ 1 / 500 :=
  (noisy_follows (q := 3 / 2000) hn h0 (by linarith) (by norm_num) (fun _ _ _ _ _ _ hA hB hC ha hb hc => step30 hA hB hC ha hb hc) hu hs t x hx).1

/-- C141.  With noise of at most 0.00625, the continuous rule 90 stays within 0.0125 of elementary rule 90 for ever. -/
theorem C141_follows90 (n : Nat) (hn : 0 < n) (noise : ℝ) (h0 : 0 ≤ noise) (h1 : noise ≤ 1 / 160) (u : Nat → Nat → ℝ)
    (hu : ∀ t x, 0 ≤ u t x ∧ u t x ≤ 1) (s : Nat → Nat) (hs : ∀ x, x < n → s x < 2) (t x : Nat) (hx : x < n) :
    |noisyRing n (fun a _ c => twoBumps (a + c)) (fun t x => pushed noise (u t x)) (fun x => (s x : ℝ)) t x - (eca n 90 s t x : Nat)| ≤ 1 / 80 :=
  (noisy_follows (q := 1 / 160) hn h0 (by linarith) (by norm_num) (fun _ _ _ _ _ _ hA hB hC ha _ hc => step90 hA hB hC ha hc) hu hs t x hx).1

/-- The initial conditions of the demo, without noise. -/
example (t x : Nat) (hx : x < 200) :
    |noisyRing 200 (fun a b c => twoBumps (a + b + c + b * c)) (fun t x => pushed 0 ((fun _ _ => 0) t x)) (fun x => ((if x = 100 then 1 else 0 : Nat) : ℝ)) t x
      - (eca 200 30 (fun x => if x = 100 then 1 else 0) t x : Nat)| ≤ 1 / 500 :=
  C141_follows30 200 (by decide) 0 (le_refl _) (by norm_num) (fun _ _ => 0) (fun _ _ => ⟨le_refl _, by norm_num⟩) _ (fun y _ => by split <;> decide) t x hx

end
end Verif
