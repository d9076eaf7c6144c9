import Verif.Props.Dynamics
import Verif.Props.Fields
import Verif.Props.Topology
import Verif.Proofs.TorusCA
/-! # C104, C105: continuous automata, reaction and diffusion -/

namespace Verif
open Spec

/-! ## C104: continuous automaton -/

theorem rat_floor_neg (q : Rat) : (-q).floor = -q.ceil := by
  rw [Rat.ceil_eq_neg_floor_neg]
  omega

theorem modf_halfSum (l m r : Rat) : modfFrac ((l + m + r) / 3 * (3 / 2)) = halfSum l m r := by
  have e : (l + m + r) / 3 * (3 / 2) = (l + m + r) / 2 := by grind
  unfold modfFrac halfSum
  rw [e]
  simp only
  generalize (l + m + r) / 2 = v
  by_cases h : 0 ≤ v
  · rw [if_pos h, if_neg (by grind)]
  · rw [if_neg h, if_pos (by grind), rat_floor_neg, Rat.intCast_neg]
    grind

/-- C104: the demo shows the automaton, with or without memoization. -/
theorem C104_run {I σ κ : Type} [DecidableEq κ] {cfg : Config Nat Int Rat I σ κ} {n T : Nat} {s : Nat → Rat} {init : Option (Conds Nat Rat)}
    {r : Nat} {w : World Nat Int σ} (h : RingCall cfg continuousRule n T s init r w) {fuel : Nat} (hf : T ≤ fuel) :
    ∃ res, evolve fuel cfg init r w = .ok res ∧ ShowsRun cfg res T n (ringField n halfSum s) := by
  refine ring_scheme h ?_ hf
  intro c x a b _ h2 _ _
  unfold continuousRule
  rw [h2, if_neg (by simp)]
  have hs : ([a, c.current, b] : List Rat).sum = a + c.current + b := by simp; grind
  have h3 : (([a, c.current, b] : List Rat).length : Rat) = 3 := rfl
  rw [hs, h3, modf_halfSum]

/-- C104, error branch: the mean of no neighbours raises `ZeroDivisionError`. -/
theorem C104_no_neighbours {A I σ κ : Type} [DecidableEq κ] {cfg : Config Nat A Rat I σ κ} {T : Nat} (hT : 2 ≤ T) (h : cfg.Ordinary continuousRule T)
    {n : Nat} (hn : 0 < n) {s : Nat → Rat} {init : Option (Conds Nat Rat)} (hlen : (initDict cfg init).length = n)
    (h0 : ∀ x, x < n → (initDict cfg init).get? x = some (s x)) {r : Nat} {w : World Nat A σ}
    (hr : w.heap[r]? = some (disconnectedN A n)) {fuel : Nat} (hfu : 1 ≤ fuel) : evolve fuel cfg init r w = .error .zeroDivision := by
  refine disconnected_fail hT h ?_ hn hlen h0 hr hfu
  intro c hc _
  unfold continuousRule
  rw [hc]
  rfl

theorem rat_lt_floor (v : Rat) : v < (v.floor : Rat) + 1 := by
  have := Rat.lt_floor_add_one v
  rwa [Rat.intCast_add] at this

theorem halfSum_nonneg {l m r : Rat} (hl : 0 ≤ l) (hm : 0 ≤ m) (hr : 0 ≤ r) : 0 ≤ halfSum l m r ∧ halfSum l m r < 1 ∧ halfSum l m r ≤ (l + m + r) / 2 := by
  have hv : ¬ (l + m + r) / 2 < 0 := by grind
  unfold halfSum
  simp only
  rw [if_neg hv]
  have h1 := Rat.floor_le (a := (l + m + r) / 2)
  have h2 := rat_lt_floor (v := (l + m + r) / 2)
  have h0 : (0 : Rat) ≤ (((l + m + r) / 2).floor : Rat) := by
    have : (0 : Int) ≤ ((l + m + r) / 2).floor := Rat.le_floor_iff.2 (by simpa using Rat.not_lt.1 hv)
    rw [show (0 : Rat) = ((0 : Int) : Rat) from rfl]
    exact Rat.intCast_le_intCast.2 this
  refine ⟨by grind, by grind, by grind⟩

/-- C104: from non-negative values all later values are at least 0 and below 1. -/
theorem C104_unit {n : Nat} (hn : 0 < n) {s : Nat → Rat} (hs : ∀ x, x < n → 0 ≤ s x) (t x : Nat) (hx : x < n) :
    0 ≤ ringField n halfSum s t x ∧ ringField n halfSum s (t + 1) x < 1 := by
  have h : ∀ t x, x < n → 0 ≤ ringField n halfSum s t x := by
    intro t
    induction t with
    | zero => exact hs
    | succ t ih =>
      intro x hx
      exact (halfSum_nonneg (ih _ (leftOf_lt hn)) (ih x hx) (ih _ (rightOf_lt hn))).1
  exact ⟨h t x hx, (halfSum_nonneg (h t _ (leftOf_lt hn)) (h t x hx) (h t _ (rightOf_lt hn))).2.1⟩

/-- C104: for any start all later values lie strictly between -1 and 1. -/
theorem C104_bounded (n : Nat) (s : Nat → Rat) (t x : Nat) : -1 < ringField n halfSum s (t + 1) x ∧ ringField n halfSum s (t + 1) x < 1 := by
  simp only [ringField, halfSum]
  generalize (ringField n halfSum s t (leftOf n x) + ringField n halfSum s t x + ringField n halfSum s t (rightOf n x)) / 2 = v
  have h1 := Rat.floor_le (a := v)
  have h2 := rat_lt_floor (v := v)
  have h3 := Rat.floor_le (a := -v)
  have h4 := rat_lt_floor (v := -v)
  split <;> constructor <;> grind

/-- C104: from whole numbers, the values after `t` steps are fractions with the denominator `2 ^ t`. -/
theorem C104_dyadic {n : Nat} (hn : 0 < n) {s : Nat → Rat} (hs : ∀ x, x < n → ∃ z : Int, s x = z) : ∀ t x, x < n → ∃ z : Int, (2 : Rat) ^ t * ringField n halfSum s t x = z := by
  intro t
  induction t with
  | zero =>
    intro x hx
    obtain ⟨z, hz⟩ := hs x hx
    exact ⟨z, by simp [ringField, hz]⟩
  | succ t ih =>
    intro x hx
    obtain ⟨a, ha⟩ := ih (leftOf n x) (leftOf_lt hn)
    obtain ⟨b, hb⟩ := ih x hx
    obtain ⟨c, hc⟩ := ih (rightOf n x) (rightOf_lt hn)
    have h2 : ∃ k : Int, (2 : Rat) ^ t = k := ⟨2 ^ t, by simp⟩
    obtain ⟨k, hk⟩ := h2
    simp only [ringField, halfSum, Rat.pow_succ]
    generalize ringField n halfSum s t (leftOf n x) = l at *
    generalize ringField n halfSum s t x = m at *
    generalize ringField n halfSum s t (rightOf n x) = r at *
    split
    · refine ⟨a + b + c + k * 2 * (-((l + m + r) / 2)).floor, ?_⟩
      simp only [Rat.intCast_add, Rat.intCast_mul, ← ha, ← hb, ← hc, ← hk]
      have : ((2 : Int) : Rat) = 2 := rfl
      rw [this]
      grind
    · refine ⟨a + b + c - k * 2 * ((l + m + r) / 2).floor, ?_⟩
      simp only [Rat.intCast_add, Rat.intCast_sub, Rat.intCast_mul, ← ha, ← hb, ← hc, ← hk]
      have : ((2 : Int) : Rat) = 2 := rfl
      rw [this]
      grind

/-- C104, light cone (for any scheme on the ring): after `t` steps a cell depends on the cells at most `t` away only. -/
theorem C104_light_cone {n : Nat} (hn : 0 < n) (φ : Rat → Rat → Rat → Rat) {s s' : Nat → Rat} : ∀ (t x : Nat), x < n →
    (∀ k, k ≤ 2 * t → s ((x + t * n - t + k) % n) = s' ((x + t * n - t + k) % n)) → ringField n φ s t x = ringField n φ s' t x := by
  intro t
  induction t with
  | zero =>
    intro x hx h
    have := h 0 (by omega)
    simpa [Nat.mod_eq_of_lt hx, ringField] using this
  | succ t ih =>
    intro x hx h
    have ht : t ≤ t * n := Nat.le_mul_of_pos_right t hn
    have hmul : (t + 1) * n = t * n + n := Nat.succ_mul t n
    have key : ∀ y d, d ≤ 2 → y % n = (x + n - 1 + d) % n → ∀ k, k ≤ 2 * t → s ((y % n + t * n - t + k) % n) = s' ((y % n + t * n - t + k) % n) := by
      intro y d hd hy k hk
      have hh := h (k + d) (by omega)
      have e : (x + (t + 1) * n - (t + 1) + (k + d)) % n = (y % n + t * n - t + k) % n := by
        rw [hy]
        have e1 : x + (t + 1) * n - (t + 1) + (k + d) = (x + n - 1 + d) + (t * n - t + k) := by omega
        have e2 : (x + n - 1 + d) % n + t * n - t + k = (x + n - 1 + d) % n + (t * n - t + k) := by omega
        rw [e1, e2, Nat.mod_add_mod]
      rw [e] at hh
      exact hh
    have hl := ih (leftOf n x) (leftOf_lt hn) (key (x + n - 1) 0 (by omega) rfl)
    have hm := ih x hx (by
      have := key x 1 (by omega) (by rw [show x + n - 1 + 1 = x + n by omega, Nat.add_mod_right])
      rwa [Nat.mod_eq_of_lt hx] at this)
    have hr := ih (rightOf n x) (rightOf_lt hn) (key (x + 1) 2 (by omega) (by rw [show x + n - 1 + 2 = x + 1 + n by omega, Nat.add_mod_right]))
    simp only [ringField, hl, hm, hr]

/-! ## C105: reaction and diffusion -/

theorem rat_sum_perm {l l' : List Rat} (h : l.Perm l') : l.sum = l'.sum := by
  induction h with
  | nil => rfl
  | cons x _ ih => simp [ih]
  | swap x y l => simp only [List.sum_cons]; grind
  | trans _ _ ih1 ih2 => exact ih1.trans ih2

theorem filter_zip_map {α β : Type} (p : α → Bool) (g : α → β) (l : List α) :
    ((l.map g).zip l).filter (fun q => p q.2) = (l.filter p).map (fun y => (g y, y)) := by
  induction l with
  | nil => rfl
  | cons x l ih =>
    simp only [List.map_cons, List.zip_cons_cons, List.filter_cons, ih]
    split <;> rfl

theorem reactDiffuse_eq {I : Type} (ru rv f k : Rat) (c : NodeCtx Nat Int (Rat × Rat) I) (g : Nat → Rat × Rat) (ys : List Nat)
    (h1 : c.neighbours.Perm (c.node :: ys)) (h2 : c.node ∉ ys) (h3 : c.neighbourActs = c.neighbours.map g) :
    reactDiffuse ru rv f k c = .ok (grayScott ru rv f k c.current (ys.map g)) := by
  have hp : (c.neighbours.filter (fun y => decide (y ≠ c.node))).Perm ys := by
    refine (h1.filter _).trans ?_
    rw [List.filter_cons, if_neg (by simp), List.filter_eq_self.2]
    intro y hy
    have : y ≠ c.node := fun he => h2 (he ▸ hy)
    simpa using this
  unfold reactDiffuse
  simp only
  rw [h3, filter_zip_map (fun y => decide (y ≠ c.node)) g c.neighbours]
  simp only [List.map_map, Function.comp_def]
  rw [rat_sum_perm (hp.map (fun y => (g y).1)), rat_sum_perm (hp.map (fun y => (g y).2))]
  unfold grayScott
  simp only [List.map_map, Function.comp_def]
  congr 1
  refine Prod.ext ?_ ?_
  · simp only; grind
  · simp only; grind

/-- C105: the demo shows Gray and Scott's scheme on the torus, with or without memoization. -/
theorem C105_run {I σ κ : Type} [DecidableEq κ] {rows cols : Nat} (hrw : 3 ≤ rows) (hcl : 3 ≤ cols) {ru rv f k : Rat}
    {cfg : Config Nat Int (Rat × Rat) I σ κ} {T : Nat} (hT : 1 ≤ T) (h : cfg.Ordinary (reactDiffuse ru rv f k) T) {N : Net Nat Int}
    (hN : cellularAutomaton2d rows cols 1 "von Neumann" true = .ok N) {r : Nat} {w : World Nat Int σ} (hr : w.heap[r]? = some N)
    {init : Option (Conds Nat (Rat × Rat))} {s : Nat → Nat → Rat × Rat} (hlen : (initDict cfg init).length = rows * cols)
    (h0 : ∀ a b, a < rows → b < cols → (initDict cfg init).get? (a * cols + b) = some (s a b)) {fuel : Nat} (hf : T ≤ fuel) :
    ∃ res, evolve fuel cfg init r w = .ok res ∧ ShowsRun cfg res T (rows * cols)
      (fun t x => torusCA rows cols vonNeumann4 (grayScott ru rv f k) s t (x / cols) (x % cols)) := by
  obtain ⟨M, m1, m2⟩ := C41_von_neumann rows cols 1 (Nat.mul_le_mul hrw hcl)
  refine torus_run_at hrw hcl vonNeumann_directions m1 m2 ?_ ?_ cfg T hT h N hN r w hr init s hlen h0 fuel hf
  · intro v l l' hl
    unfold grayScott
    rw [rat_sum_perm (hl.map Prod.fst), rat_sum_perm (hl.map Prod.snd)]
  · intro c g ys h1 h2 h3 _
    exact reactDiffuse_eq ru rv f k c g ys h1 h2 h3

theorem gridTotal_congr {rows cols : Nat} {f g : Nat → Nat → Rat} (h : ∀ a b, a < rows → b < cols → f a b = g a b) :
    gridTotal rows cols f = gridTotal rows cols g :=
  ringTotal_congr (fun a ha => ringTotal_congr (fun b hb => h a b ha hb))

theorem gridTotal_add (rows cols : Nat) (f g : Nat → Nat → Rat) :
    gridTotal rows cols (fun a b => f a b + g a b) = gridTotal rows cols f + gridTotal rows cols g := by
  unfold gridTotal
  rw [← ringTotal_add]
  exact ringTotal_congr (fun a _ => ringTotal_add cols _ _)

theorem gridTotal_mul (rows cols : Nat) (c : Rat) (f : Nat → Nat → Rat) :
    gridTotal rows cols (fun a b => c * f a b) = c * gridTotal rows cols f := by
  unfold gridTotal
  rw [← ringTotal_mul]
  exact ringTotal_congr (fun a _ => ringTotal_mul cols _ _)

theorem ringTotal_const (n : Nat) (c : Rat) : ringTotal n (fun _ => c) = (n : Rat) * c := by
  induction n with
  | zero => simp [ringTotal]
  | succ n ih =>
    rw [ringTotal, ih]
    have : ((n + 1 : Nat) : Rat) = (n : Rat) + 1 := by simp
    rw [this]
    grind

theorem gridTotal_const (rows cols : Nat) (c : Rat) : gridTotal rows cols (fun _ _ => c) = (rows : Rat) * (cols : Rat) * c := by
  unfold gridTotal
  rw [ringTotal_congr (g := fun _ => (cols : Rat) * c) (fun _ _ => ringTotal_const cols c), ringTotal_const]
  grind

theorem emod_right {n a : Nat} : ((a : Int) + 1) % (n : Int) = (rightOf n a : Int) := by
  unfold rightOf
  rw [Int.natCast_emod]
  rfl

theorem emod_left {n a : Nat} (h : a < n) : ((a : Int) + -1) % (n : Int) = (leftOf n a : Int) := by
  unfold leftOf
  rw [Int.natCast_emod, ← Int.add_emod_right]
  congr 1
  omega

/-- The values around a cell of the torus. -/
theorem torusNbrs_four {V : Type} {rows cols : Nat} (s : Nat → Nat → V) {a b : Nat} (ha : a < rows) (hb : b < cols) :
    torusNbrs rows cols vonNeumann4 s a b = [s (leftOf rows a) b, s a (leftOf cols b), s a (rightOf cols b), s (rightOf rows a) b] := by
  unfold torusNbrs vonNeumann4 torusAt
  simp only [List.map_cons, List.map_nil]
  rw [emod_left ha, emod_left hb, emod_right, emod_right, natCast_emod_self ha, natCast_emod_self hb]
  simp only [Int.toNat_natCast]

/-- Diffusion keeps the total. -/
theorem gridTotal_around (rows cols : Nat) (u : Nat → Nat → Rat) :
    gridTotal rows cols (fun a b => u (leftOf rows a) b + u a (leftOf cols b) + u a (rightOf cols b) + u (rightOf rows a) b) = 4 * gridTotal rows cols u := by
  rw [gridTotal_add, gridTotal_add, gridTotal_add]
  have h1 : gridTotal rows cols (fun a b => u (leftOf rows a) b) = gridTotal rows cols u :=
    ringTotal_left rows (fun a => ringTotal cols (u a))
  have h2 : gridTotal rows cols (fun a b => u (rightOf rows a) b) = gridTotal rows cols u :=
    ringTotal_right rows (fun a => ringTotal cols (u a))
  have h3 : gridTotal rows cols (fun a b => u a (leftOf cols b)) = gridTotal rows cols u :=
    ringTotal_congr (fun a _ => ringTotal_left cols (u a))
  have h4 : gridTotal rows cols (fun a b => u a (rightOf cols b)) = gridTotal rows cols u :=
    ringTotal_congr (fun a _ => ringTotal_right cols (u a))
  rw [h1, h2, h3, h4]
  grind

section
variable (rows cols : Nat) (ru rv f k : Rat) (s : Nat → Nat → Rat × Rat)

/-- The concentrations after `t` steps. -/
abbrev grayField : Nat → Nat → Nat → Rat × Rat := torusCA rows cols vonNeumann4 (grayScott ru rv f k) s

/-- C105, balance: diffusion moves the substances only; the totals change by the reaction, the feed and the loss. -/
theorem C105_balance (t : Nat) :
    let U := fun t => gridTotal rows cols (fun a b => (grayField rows cols ru rv f k s t a b).1)
    let W := fun t => gridTotal rows cols (fun a b => (grayField rows cols ru rv f k s t a b).2)
    let R := gridTotal rows cols (fun a b => (grayField rows cols ru rv f k s t a b).1 * (grayField rows cols ru rv f k s t a b).2 ^ 2)
    U (t + 1) = U t - R + f * ((rows : Rat) * (cols : Rat) - U t) ∧ W (t + 1) = W t + R - k * W t := by
  intro U W R
  generalize hp : grayField rows cols ru rv f k s t = p
  have hU : U t = gridTotal rows cols (fun a b => (p a b).1) := by rw [← hp]
  have hW : W t = gridTotal rows cols (fun a b => (p a b).2) := by rw [← hp]
  have hR : R = gridTotal rows cols (fun a b => (p a b).1 * (p a b).2 ^ 2) := by rw [← hp]
  constructor
  · have e : U (t + 1) = gridTotal rows cols (fun a b => ((1 - f - 4 * ru) * (p a b).1 +
        ru * ((p (leftOf rows a) b).1 + (p a (leftOf cols b)).1 + (p a (rightOf cols b)).1 + (p (rightOf rows a) b).1)) +
        ((-1) * ((p a b).1 * (p a b).2 ^ 2) + f)) := by
      refine gridTotal_congr ?_
      intro a b ha hb
      show (grayScott ru rv f k (grayField rows cols ru rv f k s t a b) (torusNbrs rows cols vonNeumann4 (grayField rows cols ru rv f k s t) a b)).1 = _
      rw [hp, torusNbrs_four _ ha hb]
      simp only [grayScott, List.map_cons, List.map_nil, List.sum_cons, List.sum_nil]
      grind
    rw [e, gridTotal_add, gridTotal_add, gridTotal_add, gridTotal_mul, gridTotal_mul, gridTotal_mul, gridTotal_around rows cols (fun a b => (p a b).1),
      gridTotal_const, hU, hR]
    grind
  · have e : W (t + 1) = gridTotal rows cols (fun a b => ((1 - k - 4 * rv) * (p a b).2 +
        rv * ((p (leftOf rows a) b).2 + (p a (leftOf cols b)).2 + (p a (rightOf cols b)).2 + (p (rightOf rows a) b).2)) +
        ((p a b).1 * (p a b).2 ^ 2)) := by
      refine gridTotal_congr ?_
      intro a b ha hb
      show (grayScott ru rv f k (grayField rows cols ru rv f k s t a b) (torusNbrs rows cols vonNeumann4 (grayField rows cols ru rv f k s t) a b)).2 = _
      rw [hp, torusNbrs_four _ ha hb]
      simp only [grayScott, List.map_cons, List.map_nil, List.sum_cons, List.sum_nil]
      grind
    rw [e, gridTotal_add, gridTotal_add, gridTotal_mul, gridTotal_mul, gridTotal_around rows cols (fun a b => (p a b).2), hW, hR]
    grind

/-- C105: without feed and loss the total of both substances is constant. -/
theorem C105_conserved (t : Nat) :
    gridTotal rows cols (fun a b => (grayField rows cols ru rv 0 0 s t a b).1) + gridTotal rows cols (fun a b => (grayField rows cols ru rv 0 0 s t a b).2) =
      gridTotal rows cols (fun a b => (s a b).1) + gridTotal rows cols (fun a b => (s a b).2) := by
  induction t with
  | zero => rfl
  | succ t ih =>
    have h := C105_balance rows cols ru rv 0 0 s t
    simp only at h
    rw [h.1, h.2, ← ih]
    grind

/-- C105: the uniform state without the second substance is steady; without it the second substance never appears. -/
theorem C105_steady (h : ∀ a b, a < rows → b < cols → (s a b).2 = 0) (t a b : Nat) (ha : a < rows) (hb : b < cols) :
    (grayField rows cols ru rv f k s t a b).2 = 0 ∧
    ((∀ a b, a < rows → b < cols → (s a b).1 = 1) → (grayField rows cols ru rv f k s t a b).1 = 1) := by
  induction t generalizing a b with
  | zero => exact ⟨h a b ha hb, fun h1 => h1 a b ha hb⟩
  | succ t ih =>
    have c0 := ih a b ha hb
    have c1 := ih (leftOf rows a) b (leftOf_lt (by omega)) hb
    have c2 := ih a (leftOf cols b) ha (leftOf_lt (by omega))
    have c3 := ih a (rightOf cols b) ha (rightOf_lt (by omega))
    have c4 := ih (rightOf rows a) b (rightOf_lt (by omega)) hb
    have e : grayField rows cols ru rv f k s (t + 1) a b = grayScott ru rv f k (grayField rows cols ru rv f k s t a b)
      (torusNbrs rows cols vonNeumann4 (grayField rows cols ru rv f k s t) a b) := rfl
    rw [e, torusNbrs_four _ ha hb]
    simp only [grayScott, List.map_cons, List.map_nil, List.sum_cons, List.sum_nil]
    rw [c0.1, c1.1, c2.1, c3.1, c4.1]
    refine ⟨by grind, ?_⟩
    intro h1
    rw [c0.2 h1, c1.2 h1, c2.2 h1, c3.2 h1, c4.2 h1]
    grind

/-- C105, one step of bounded concentrations: if all first concentrations lie in `[0, 1]`, all second ones are at least 0 and the rates are small, then
the next first concentrations are at most 1 and the next second ones at least 0; they stay at least 0 as long as the second ones are not too
large. -/
theorem C105_bounds (hru : 0 ≤ ru) (hrv : 0 ≤ rv) (hf : 0 ≤ f) (hu : 4 * ru + f ≤ 1) (hv : 4 * rv + k ≤ 1) (t : Nat)
    (h : ∀ a b, a < rows → b < cols → 0 ≤ (grayField rows cols ru rv f k s t a b).1 ∧ (grayField rows cols ru rv f k s t a b).1 ≤ 1 ∧
      0 ≤ (grayField rows cols ru rv f k s t a b).2) (a b : Nat) (ha : a < rows) (hb : b < cols) :
    (grayField rows cols ru rv f k s (t + 1) a b).1 ≤ 1 ∧ 0 ≤ (grayField rows cols ru rv f k s (t + 1) a b).2 ∧
    ((grayField rows cols ru rv f k s t a b).2 ^ 2 ≤ 1 - 4 * ru - f → 0 ≤ (grayField rows cols ru rv f k s (t + 1) a b).1) := by
  have e : grayField rows cols ru rv f k s (t + 1) a b = grayScott ru rv f k (grayField rows cols ru rv f k s t a b)
    (torusNbrs rows cols vonNeumann4 (grayField rows cols ru rv f k s t) a b) := rfl
  rw [e, torusNbrs_four _ ha hb]
  have c0 := h a b ha hb
  have c1 := h (leftOf rows a) b (leftOf_lt (by omega)) hb
  have c2 := h a (leftOf cols b) ha (leftOf_lt (by omega))
  have c3 := h a (rightOf cols b) ha (rightOf_lt (by omega))
  have c4 := h (rightOf rows a) b (rightOf_lt (by omega)) hb
  simp only [grayScott, List.map_cons, List.map_nil, List.sum_cons, List.sum_nil]
  generalize grayField rows cols ru rv f k s t a b = p at *
  generalize grayField rows cols ru rv f k s t (leftOf rows a) b = p1 at *
  generalize grayField rows cols ru rv f k s t a (leftOf cols b) = p2 at *
  generalize grayField rows cols ru rv f k s t a (rightOf cols b) = p3 at *
  generalize grayField rows cols ru rv f k s t (rightOf rows a) b = p4 at *
  have q1 := Rat.mul_nonneg c0.1 (rat_sq_nonneg p.2)
  refine ⟨?_, ?_, ?_⟩
  · have q2 := Rat.mul_nonneg (show 0 ≤ 1 - 4 * ru - f by grind) (show 0 ≤ 1 - p.1 by grind)
    have q3 := Rat.mul_nonneg hru (show 0 ≤ 4 - (p1.1 + p2.1 + p3.1 + p4.1) by grind)
    grind
  · have q2 := Rat.mul_nonneg (show 0 ≤ 1 - 4 * rv - k by grind) c0.2.2
    have q3 := Rat.mul_nonneg hrv (show 0 ≤ p1.2 + p2.2 + p3.2 + p4.2 by grind)
    grind
  · intro hs
    have q2 := Rat.mul_nonneg (show 0 ≤ 1 - 4 * ru - f - p.2 ^ 2 by grind) c0.1
    have q3 := Rat.mul_nonneg hru (show 0 ≤ p1.1 + p2.1 + p3.1 + p4.1 by grind)
    grind

end
/-- The automaton from a single 1 on seven cells, memoized; its values; and the light cone. -/
example : (∃ res, evolve 4 { Ex.ratBase with rule := some (pureRule continuousRule), input := .timesteps 4, memoize := true, past := [] }
      (some (.list [0, 0, 0, 1, 0, 0, 0])) 0 ⟨[Ex.ringNet 7], ()⟩ = .ok res ∧
      ShowsRun { Ex.ratBase with rule := some (pureRule continuousRule), input := .timesteps 4, memoize := true, past := [] } res 4 7
        (ringField 7 halfSum (fun x => [0, 0, 0, 1, 0, 0, 0].getD x 0))) :=
  C104_run (Ex.ringCall 7 4 (by omega) (by omega) _ rfl true []) (by omega)
example : (List.range 7).map (ringField 7 halfSum (fun x => [0, 0, 0, 1, 0, 0, 0].getD x 0) 2) = [0, 1 / 4, 1 / 2, 3 / 4, 1 / 2, 1 / 4, 0] ∧
    halfSum (-1) (-1) (-1) = -1 / 2 := by decide +kernel
example : evolve 3 (Ex.dynCall id (0 : Int) continuousRule 3 false) (some (.list [1, 2])) 0 ⟨[disconnectedN Int 2], ()⟩ = .error .zeroDivision := by
  refine C104_no_neighbours (n := 2) (T := 3) (by omega) (Ex.dynCall_ordinary _ _ _ _ _) (by omega) (s := fun x => [1, 2].getD x 0) rfl ?_ rfl (by omega)
  intro x hx
  match x, hx with
  | 0, _ => rfl
  | 1, _ => rfl

/-- Reaction and diffusion on a torus of 3 by 4 cells, memoized. -/
example : ∃ N, cellularAutomaton2d 3 4 1 "von Neumann" true = .ok N ∧ ∃ res,
    evolve 6 (Ex.dynCall id (0 : Int) (reactDiffuse (1 / 50) (1 / 100) (1 / 100) (1 / 20)) 6 true)
      (some (.list (List.replicate 11 (1, 0) ++ [(1 / 2, 1 / 4)]))) 0 ⟨[N], ()⟩ = .ok res ∧
    ShowsRun (Ex.dynCall id (0 : Int) (reactDiffuse (1 / 50) (1 / 100) (1 / 100) (1 / 20)) 6 true) res 6 12
      (fun t x => torusCA 3 4 vonNeumann4 (grayScott (1 / 50) (1 / 100) (1 / 100) (1 / 20))
        (fun a b => if a * 4 + b = 11 then (1 / 2, 1 / 4) else (1, 0)) t (x / 4) (x % 4)) := by
  have hN : ∃ N, cellularAutomaton2d 3 4 1 "von Neumann" true = .ok N := by
    have : (cellularAutomaton2d 3 4 1 "von Neumann" true).toOption.isSome = true := by decide +kernel
    cases hc : cellularAutomaton2d 3 4 1 "von Neumann" true with
    | ok N => exact ⟨N, rfl⟩
    | error e => rw [hc] at this; cases this
  obtain ⟨N, hN⟩ := hN
  refine ⟨N, hN, C105_run (by omega) (by omega) (by omega) (Ex.dynCall_ordinary _ _ _ _ _) hN rfl rfl ?_ (by omega)⟩
  intro a b ha hb
  rw [(initDict_list (cfg := Ex.dynCall id (0 : Int) (reactDiffuse (1 / 50) (1 / 100) (1 / 100) (1 / 20)) 6 true) rfl _).2.2 _ (by simp; omega)]
  by_cases h : a * 4 + b = 11
  · rw [h]; rfl
  · rw [if_neg h, List.getElem?_append_left (by simp; omega), List.getElem?_replicate, if_pos (by omega)]
example : grayScott (1 / 50) (1 / 100) (1 / 100) (1 / 20) (1, 0) [(1, 0), (1, 0), (1, 0), (1 / 2, 1 / 4)] = (99 / 100, 1 / 400) := by decide +kernel

end Verif
