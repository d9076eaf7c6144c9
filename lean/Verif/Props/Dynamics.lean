import Verif.Proofs.Dynamics
import Verif.Proofs.FirstFail
import Verif.Props.RunRows
import Verif.Props.EndToEnd
/-! # C101 to C103: spring, Lorenz attractor, logistic map -/

namespace Verif
open Spec MG

/-! ## C101: spring -/

section
variable {I σ κ : Type} [DecidableEq κ]

/-- C101: the demo shows the semi-implicit Euler method, with or without memoization. -/
theorem C101_run {cfg : Config Nat Int (Rat × Rat) I σ κ} {dt : Rat} {T : Nat} (hT : 1 ≤ T) (h : cfg.Ordinary (springRule dt) T)
    {q : Rat × Rat} {init : Option (Conds Nat (Rat × Rat))} (hlen : (initDict cfg init).length = 1) (h0 : (initDict cfg init).get? 0 = some q)
    {r : Nat} {w : World Nat Int σ} (hr : w.heap[r]? = some singleNode) {fuel : Nat} (hfu : T ≤ fuel) :
    ∃ res, evolve fuel cfg init r w = .ok res ∧ ShowsOn cfg res T [0] (fun t _ => spring dt q t) := by
  obtain ⟨e1, e2⟩ := loop_mg
  rw [e1] at hr
  refine mg_run h hT e2 rfl (by simp [loopMG, MG.labels]) (init := init) (f := fun t _ => spring dt q t) hlen ?_ ?_ ?_ hr hfu
  · intro x hx
    simp only [loopMG, MG.labels, Dict.keys, List.map_cons, List.map_nil, List.mem_singleton] at hx
    subst hx
    exact h0
  · intro t _ x _ c _ _ hc _ _ _ _
    unfold springRule
    simp only [hc, spring]
    congr 2
    grind
  · intro _ t t' x x' _ _ hx hx' hp
    simp only [loopMG, MG.labels, Dict.keys, List.map_cons, List.map_nil, List.mem_singleton] at hx hx'
    subst hx hx'
    have : (sources loopMG.edges 0) = [0] := rfl
    rw [this] at hp
    simp only [List.map_cons, List.map_nil, List.singleton_perm_singleton] at hp
    simp only [spring, hp]

end

/-- C101: the energy changes only in the mixed term: this quantity is constant. -/
theorem C101_conserved (h : Rat) (q : Rat × Rat) (t : Nat) :
    springEnergy (spring h q t) + 6 * h * (spring h q t).1 * (spring h q t).2 = springEnergy q + 6 * h * q.1 * q.2 := by
  induction t with
  | zero => rfl
  | succ t ih =>
    rw [← ih]
    simp only [spring, springEnergy]
    grind

theorem rat_sq_nonneg (a : Rat) : 0 ≤ a ^ 2 := by
  rw [Rat.pow_succ, Rat.pow_succ, Rat.pow_zero, Rat.one_mul]
  rcases Rat.le_total (a := 0) (b := a) with h | h
  · exact Rat.mul_nonneg h h
  · have := Rat.mul_nonneg (a := -a) (b := -a) (by grind) (by grind)
    grind

theorem spring_mixed (h x v : Rat) (hh : 6 * h ^ 2 ≤ 1) :
    6 * h * x * v ≤ (v ^ 2 + 6 * x ^ 2) / 2 ∧ -(6 * h * x * v) ≤ (v ^ 2 + 6 * x ^ 2) / 2 := by
  have h1 : 0 ≤ (v - 6 * h * x) ^ 2 := rat_sq_nonneg _
  have h2 : 0 ≤ (v + 6 * h * x) ^ 2 := rat_sq_nonneg _
  have h3 : 0 ≤ (1 - 6 * h ^ 2) * (6 * x ^ 2) := Rat.mul_nonneg (by grind) (Rat.mul_nonneg (by decide) (rat_sq_nonneg _))
  constructor <;> grind

/-- C101: with a step of at most `1/√6` the energy stays within a factor of three, for ever. -/
theorem C101_bounded {h : Rat} (hh : 6 * h ^ 2 ≤ 1) (q : Rat × Rat) (t : Nat) :
    springEnergy (spring h q t) ≤ 3 * springEnergy q ∧ springEnergy q ≤ 3 * springEnergy (spring h q t) := by
  have hc := C101_conserved h q t
  have a := spring_mixed h q.1 q.2 hh
  have b := spring_mixed h (spring h q t).1 (spring h q t).2 hh
  simp only [springEnergy] at *
  constructor <;> grind

/-- C101: Euler's method as written in the demo's documentation gains energy at every step instead. -/
theorem C101_euler_energy (h : Rat) (q : Rat × Rat) (t : Nat) : springEnergy (springEuler h q t) = (1 + 6 * h ^ 2) ^ t * springEnergy q := by
  induction t with
  | zero => simp [springEuler]
  | succ t ih =>
    rw [Rat.pow_succ, Rat.mul_assoc, Rat.mul_comm _ (springEnergy q), ← Rat.mul_assoc, ← ih]
    simp only [springEuler, springEnergy]
    grind

/-- C101, disagreement: the documented equations give another trajectory from each start off the origin, already at the first two steps. -/
theorem C101_documentation {h : Rat} {q : Rat × Rat} : (∀ t, spring h q t = springEuler h q t) ↔ h = 0 ∨ q = (0, 0) := by
  constructor
  · intro he
    have h1 := congrArg Prod.snd (he 1)
    have h2 := congrArg Prod.snd (he 2)
    simp only [spring, springEuler] at h1 h2
    have a1 : h * h * q.2 = 0 := by grind
    have a2 : h * h * h * q.1 = 0 := by grind
    rcases Rat.mul_eq_zero.1 a1 with b | b
    · exact Or.inl (by rcases Rat.mul_eq_zero.1 b with c | c <;> exact c)
    · rcases Rat.mul_eq_zero.1 a2 with c | c
      · rcases Rat.mul_eq_zero.1 c with c | c
        · exact Or.inl (by rcases Rat.mul_eq_zero.1 c with c | c <;> exact c)
        · exact Or.inl c
      · exact Or.inr (Prod.ext c b)
  · rintro (rfl | rfl) t
    · induction t with
      | zero => rfl
      | succ t ih =>
        simp only [spring, springEuler, ← ih]
        exact Prod.ext rfl (by grind)
    · have : ∀ t, spring h (0, 0) t = (0, 0) ∧ springEuler h (0, 0) t = (0, 0) := by
        intro t
        induction t with
        | zero => exact ⟨rfl, rfl⟩
        | succ t ih =>
          simp only [spring, springEuler, ih.1, ih.2]
          exact ⟨Prod.ext (by grind) (by grind), Prod.ext (by grind) (by grind)⟩
      rw [(this t).1, (this t).2]

/-! ## C102: Lorenz attractor -/

section
variable {A I σ κ : Type} [DecidableEq κ]

/-- C102: the demo on one node without edges, without memoization. -/
theorem C102_run {cfg : Config Nat A (Rat × Rat × Rat) I σ κ} {a b r dt : Rat} {T : Nat} (hT : 1 ≤ T) (h : cfg.Ordinary (lorenzRule a b r dt) T)
    (hm : cfg.memoize = false) {q : Rat × Rat × Rat} {init : Option (Conds Nat (Rat × Rat × Rat))} (hlen : (initDict cfg init).length = 1)
    (h0 : (initDict cfg init).get? 0 = some q) {i : Nat} {w : World Nat A σ} (hr : w.heap[i]? = some (Net.ofSize 1)) {fuel : Nat} (hfu : T ≤ fuel) :
    ∃ res, evolve fuel cfg init i w = .ok res ∧ ShowsOn cfg res T [0] (fun t _ => lorenz a b r dt q t) := by
  obtain ⟨e1, e2⟩ := point_mg A
  rw [e1] at hr
  refine mg_run h hT e2 rfl (by simp [pointMG, MG.labels]) (init := init) (f := fun t _ => lorenz a b r dt q t) hlen ?_ ?_ ?_ hr hfu
  · intro x hx
    simp only [pointMG, MG.labels, Dict.keys, List.map_cons, List.map_nil, List.mem_singleton] at hx
    subst hx
    exact h0
  · intro t _ x _ c _ _ hc _ _ _ _
    unfold lorenzRule
    simp only [hc, lorenz]
    congr 1
    refine Prod.ext ?_ (Prod.ext ?_ ?_)
    · simp only; grind
    · simp only; grind
    · simp only; grind
  · intro h'
    rw [hm] at h'
    cases h'

theorem edgeData_of {L V : Type} [DecidableEq L] {c : NodeCtx L Rat V I} {es : List (Edge L Rat)} {x y : L} {k : String} {v : Rat}
    (hc : c.connections = incomingOf es x) (hs : y ∈ sources es x) (hb : between es y x = [[(k, v)]]) : edgeData c y k 0 = .ok v := by
  unfold edgeData
  have : c.connections.get y = .ok [[(k, v)]] := by
    rw [Dict.get_eq_ok_iff, hc, get?_incomingOf, if_pos hs, hb]
  rw [this]
  have hp : pyGet [[(k, v)]] (0 : Int) = .ok [(k, v)] := rfl
  simp only [hp]
  rw [Dict.get_eq_ok_iff]
  simp [Dict.get?]

theorem lorenz_sources (a b r : Rat) : sources (lorenzMG a b r).edges "x" = ["x", "y"] ∧ sources (lorenzMG a b r).edges "y" = ["x", "z", "y"] ∧
    sources (lorenzMG a b r).edges "z" = ["x", "y", "z"] := ⟨rfl, rfl, rfl⟩

theorem lorenz_weights (a b r : Rat) :
    (between (lorenzMG a b r).edges "x" "x" = [[("weight", a)]] ∧ between (lorenzMG a b r).edges "y" "x" = [[("weight", a)]]) ∧
    (between (lorenzMG a b r).edges "x" "y" = [[("weight", r)]] ∧ between (lorenzMG a b r).edges "y" "y" = [[("weight", 1)]] ∧
      between (lorenzMG a b r).edges "z" "y" = [[("weight", 1)]]) ∧
    between (lorenzMG a b r).edges "x" "z" = [[("weight", 1)]] ∧ between (lorenzMG a b r).edges "y" "z" = [[("weight", 1)]] ∧
      between (lorenzMG a b r).edges "z" "z" = [[("weight", b)]] := ⟨⟨rfl, rfl⟩, ⟨rfl, rfl, rfl⟩, rfl, rfl, rfl⟩

theorem lorenzRule_x {c : NodeCtx String Rat Rat I} {dt wx wy y : Rat} (hn : c.node = "x") (h1 : edgeData c "x" "weight" 0 = .ok wx)
    (h2 : edgeData c "y" "weight" 0 = .ok wy) (hy : c.activities.get "y" = .ok y) :
    lorenzNetworkRule dt c = .ok (c.current + (wy * y - wx * c.current) * dt) := by
  unfold lorenzNetworkRule
  rw [if_pos hn, h1, h2, hy]
  rfl

theorem lorenzRule_y {c : NodeCtx String Rat Rat I} {dt wx wy wz x z : Rat} (hn : c.node = "y") (h1 : edgeData c "x" "weight" 0 = .ok wx)
    (h2 : edgeData c "y" "weight" 0 = .ok wy) (h3 : edgeData c "z" "weight" 0 = .ok wz) (hx : c.activities.get "x" = .ok x)
    (hz : c.activities.get "z" = .ok z) : lorenzNetworkRule dt c = .ok (c.current + (wx * x - wy * c.current - x * wz * z) * dt) := by
  unfold lorenzNetworkRule
  rw [if_neg (by rw [hn]; decide), if_pos hn, h1, h2, h3, hx, hz]
  rfl

theorem lorenzRule_z {c : NodeCtx String Rat Rat I} {dt wx wy wz x y : Rat} (hn : c.node = "z") (h1 : edgeData c "x" "weight" 0 = .ok wx)
    (h2 : edgeData c "y" "weight" 0 = .ok wy) (h3 : edgeData c "z" "weight" 0 = .ok wz) (hx : c.activities.get "x" = .ok x)
    (hy : c.activities.get "y" = .ok y) : lorenzNetworkRule dt c = .ok (c.current + (wx * x * wy * y - wz * c.current) * dt) := by
  unfold lorenzNetworkRule
  rw [if_neg (by rw [hn]; decide), if_neg (by rw [hn]; decide), h1, h2, h3, hx, hy]
  rfl

/-- The component of the Lorenz system at a node of the second demo. -/
def lorenzAt (q : Rat × Rat × Rat) (label : String) : Rat := if label = "x" then q.1 else if label = "y" then q.2.1 else q.2.2

theorem lorenz_algebra (a b r dt x y z : Rat) : x + (a * y - a * x) * dt = x + dt * (a * (y - x)) ∧
    y + (r * x - 1 * y - x * 1 * z) * dt = y + dt * (r * x - y - x * z) ∧ z + (1 * x * 1 * y - b * z) * dt = z + dt * (x * y - b * z) := by
  refine ⟨?_, ?_, ?_⟩ <;> grind

theorem lorenzAt_x (q : Rat × Rat × Rat) : lorenzAt q "x" = q.1 := rfl
theorem lorenzAt_y (q : Rat × Rat × Rat) : lorenzAt q "y" = q.2.1 := rfl
theorem lorenzAt_z (q : Rat × Rat × Rat) : lorenzAt q "z" = q.2.2 := rfl

/-- C102: the demo on three nodes gives the components, without memoization. -/
theorem C102_network {cfg : Config String Rat Rat I σ κ} {a b r dt : Rat} {T : Nat} (hT : 1 ≤ T) (h : cfg.Ordinary (lorenzNetworkRule dt) T)
    (hm : cfg.memoize = false) {q : Rat × Rat × Rat} {init : Option (Conds String Rat)} (hlen : (initDict cfg init).length = 3)
    (h0 : ∀ x ∈ ["x", "y", "z"], (initDict cfg init).get? x = some (lorenzAt q x)) {i : Nat} {w : World String Rat σ}
    (hr : w.heap[i]? = some (lorenzNetwork a b r)) {fuel : Nat} (hfu : T ≤ fuel) :
    ∃ res, evolve fuel cfg init i w = .ok res ∧ ShowsOn cfg res T ["x", "y", "z"] (fun t => lorenzAt (lorenz a b r dt q t)) := by
  obtain ⟨e1, e2⟩ := lorenz_mg a b r
  rw [e1] at hr
  refine mg_run h hT e2 rfl (by simp [lorenzMG, MG.labels]) (init := init) (f := fun t => lorenzAt (lorenz a b r dt q t)) hlen h0 ?_ ?_ hr hfu
  · intro t _ x hx c hn _ hc hacts _ _ hcon
    have ax := hacts "x" (by simp [lorenzMG, MG.labels])
    have ay := hacts "y" (by simp [lorenzMG, MG.labels])
    have az := hacts "z" (by simp [lorenzMG, MG.labels])
    simp only [lorenzAt_x, lorenzAt_y, lorenzAt_z] at ax ay az
    simp only [lorenzMG, MG.labels, List.map_cons, List.map_nil, List.mem_cons, List.not_mem_nil, or_false] at hx
    obtain ⟨s1, s2, s3⟩ := lorenz_sources a b r
    obtain ⟨⟨w1, w2⟩, ⟨w3, w4, w5⟩, w6, w7, w8⟩ := lorenz_weights a b r
    rcases hx with rfl | rfl | rfl
    · rw [lorenzRule_x hn (edgeData_of hcon (by rw [s1]; simp) w1) (edgeData_of hcon (by rw [s1]; simp) w2) ay, hc]
      exact congrArg Except.ok (lorenz_algebra a b r dt _ _ 0).1
    · rw [lorenzRule_y hn (edgeData_of hcon (by rw [s2]; simp) w3) (edgeData_of hcon (by rw [s2]; simp) w4)
        (edgeData_of hcon (by rw [s2]; simp) w5) ax az, hc]
      exact congrArg Except.ok (lorenz_algebra a b r dt _ _ _).2.1
    · rw [lorenzRule_z hn (edgeData_of hcon (by rw [s3]; simp) w6) (edgeData_of hcon (by rw [s3]; simp) w7)
        (edgeData_of hcon (by rw [s3]; simp) w8) ax ay, hc]
      exact congrArg Except.ok (lorenz_algebra a b r dt _ _ _).2.2
  · intro h'
    rw [hm] at h'
    cases h'

end

/-- Order of strings as that of their code points. -/
theorem strOrder : TotalOrder (fun a b : String => decide (a ≤ b)) := by
  refine ⟨?_, ?_, ?_⟩
  · intro a b c h1 h2
    simp only [decide_eq_true_eq] at *
    exact String.le_trans h1 h2
  · intro a b
    simp only [Bool.or_eq_true, decide_eq_true_eq]
    exact String.le_total a b
  · intro a b h1 h2
    simp only [decide_eq_true_eq] at *
    exact String.le_antisymm h1 h2

/-- C102: the rows plotted by the second demo are the points plotted by the first. -/
theorem C102_rows {I σ κ : Type} {cfg : Config String Rat Rat I σ κ} {res : Evolved String Rat Rat σ} {a b r dt : Rat} {q : Rat × Rat × Rat} {T : Nat}
    (h : ShowsOn cfg res T ["x", "y", "z"] (fun t => lorenzAt (lorenz a b r dt q t))) :
    activitiesOverTime (fun a b => decide (a ≤ b)) ((List.range T).map (res.acts cfg)) =
      (List.range T).map (fun t => [(lorenz a b r dt q t).1, (lorenz a b r dt q t).2.1, (lorenz a b r dt q t).2.2]) := by
  rw [C72_run strOrder (by decide) (by simp) h, List.mergeSort_of_pairwise (by decide)]
  rfl

/-- C102: the system is symmetric under rotation by half a turn about the `z` axis. -/
theorem C102_symmetry (a b r dt x y z : Rat) (t : Nat) : lorenz a b r dt (-x, -y, z) t =
    (-(lorenz a b r dt (x, y, z) t).1, -(lorenz a b r dt (x, y, z) t).2.1, (lorenz a b r dt (x, y, z) t).2.2) := by
  induction t with
  | zero => rfl
  | succ t ih =>
    simp only [lorenz, ih]
    generalize lorenz a b r dt (x, y, z) t = p
    refine Prod.ext ?_ (Prod.ext ?_ ?_)
    · simp only; grind
    · simp only; grind
    · simp only; grind

/-- C102: the `z` axis is invariant, with geometric decay. -/
theorem C102_axis (a b r dt z : Rat) (t : Nat) : lorenz a b r dt (0, 0, z) t = (0, 0, (1 - b * dt) ^ t * z) := by
  induction t with
  | zero => simp [lorenz]
  | succ t ih =>
    simp only [lorenz, ih, Rat.pow_succ]
    generalize (1 - b * dt) ^ t = p
    refine Prod.ext ?_ (Prod.ext ?_ ?_)
    · simp only; grind
    · simp only; grind
    · simp only; grind

/-- C102: the fixed points of the method are those of the equations. -/
theorem C102_fixed {a b r dt : Rat} (ha : a ≠ 0) (hd : dt ≠ 0) (q : Rat × Rat × Rat) : (∀ t, lorenz a b r dt q t = q) ↔
    q.2.1 = q.1 ∧ (q.1 = 0 ∨ q.2.2 = r - 1) ∧ q.1 ^ 2 = b * q.2.2 := by
  obtain ⟨x, y, z⟩ := q
  constructor
  · intro h
    have h1 := h 1
    simp only [lorenz, Prod.mk.injEq] at h1
    obtain ⟨h1, h2, h3⟩ := h1
    have a1 : dt * (a * (y - x)) = 0 := by grind
    have a2 : dt * (r * x - y - x * z) = 0 := by grind
    have a3 : dt * (x * y - b * z) = 0 := by grind
    have b1 : y - x = 0 := ((Rat.mul_eq_zero.1 ((Rat.mul_eq_zero.1 a1).resolve_left hd)).resolve_left ha)
    have b2 := (Rat.mul_eq_zero.1 a2).resolve_left hd
    have b3 := (Rat.mul_eq_zero.1 a3).resolve_left hd
    have hy : y = x := by grind
    subst hy
    have b4 : y * (r - 1 - z) = 0 := by grind
    refine ⟨rfl, ?_, by simp only; grind⟩
    rcases Rat.mul_eq_zero.1 b4 with h | h
    · exact Or.inl h
    · exact Or.inr (by simp only; grind)
  · rintro ⟨h1, h2, h3⟩ t
    simp only at h1 h2 h3
    subst h1
    have b4 : y * (r - 1 - z) = 0 := by rcases h2 with h | h <;> rw [h] <;> grind
    induction t with
    | zero => rfl
    | succ t ih =>
      simp only [lorenz, ih]
      refine Prod.ext ?_ (Prod.ext ?_ ?_)
      · simp only; grind
      · simp only; grind
      · simp only; grind

/-! ## C103: logistic map -/

section
variable {I σ κ : Type} [DecidableEq κ]

/-- C103: each node shows the iterates of the logistic map with its own growth rate, without memoization. -/
theorem C103_run {cfg : Config Nat Rat Rat I σ κ} {T : Nat} (hT : 1 ≤ T) (h : cfg.Ordinary logisticRule T) (hm : cfg.memoize = false)
    {rates : List Rat} (hne : rates ≠ []) {s : Nat → Rat} {init : Option (Conds Nat Rat)} (hlen : (initDict cfg init).length = rates.length)
    (h0 : ∀ x, x < rates.length → (initDict cfg init).get? x = some (s x)) {r : Nat} {w : World Nat Rat σ}
    (hr : w.heap[r]? = some (logisticNetwork rates)) {fuel : Nat} (hfu : T ≤ fuel) :
    ∃ res, evolve fuel cfg init r w = .ok res ∧ ShowsRun cfg res T rates.length (fun t x => logistic (rates.getD x 0) (s x) t) := by
  obtain ⟨e1, e2⟩ := logistic_mg rates
  rw [e1] at hr
  have hl := logisticMG_labels rates
  obtain ⟨res, h1, h2⟩ := mg_run h hT e2 rfl (by
      rw [hl]
      intro he
      have := congrArg List.length he
      simp only [List.length_range, List.length_nil] at this
      exact hne (List.length_eq_zero_iff.1 this)) (init := init)
    (f := fun t x => logistic (rates.getD x 0) (s x) t) (by rw [hl]; simpa using hlen)
    (by intro x hx; rw [hl] at hx; exact h0 x (by simpa using hx)) (by
      intro t _ x hx c hn _ hc _ _ _ hcon
      rw [hl, List.mem_range] at hx
      obtain ⟨s1, s2⟩ := logisticMG_at (rates := rates) (i := x) (List.getElem?_eq_getElem hx)
      unfold logisticRule
      rw [hn, edgeData_of hcon (by rw [s1]; simp) s2, hc]
      simp only [logistic, List.getD_eq_getElem?_getD, List.getElem?_eq_getElem hx, Option.getD_some])
    (by intro h'; rw [hm] at h'; cases h') hr hfu
  refine ⟨res, h1, h2.1, ?_⟩
  intro t ht
  obtain ⟨d, d1, d2, d3⟩ := h2.2 t ht
  rw [hl] at d2 d3
  exact ⟨d, d1, by simpa using d2, fun x hx => d3 x (by simpa using hx)⟩

/-- C103: memoization is right when all growth rates are equal. -/
theorem C103_memoized {cfg : Config Nat Rat Rat I σ κ} {T : Nat} (hT : 1 ≤ T) (h : cfg.Ordinary logisticRule T)
    {n : Nat} (hn : 0 < n) {g : Rat} {s : Nat → Rat} {init : Option (Conds Nat Rat)} (hlen : (initDict cfg init).length = n)
    (h0 : ∀ x, x < n → (initDict cfg init).get? x = some (s x)) {r : Nat} {w : World Nat Rat σ}
    (hr : w.heap[r]? = some (logisticNetwork (List.replicate n g))) {fuel : Nat} (hfu : T ≤ fuel) :
    ∃ res, evolve fuel cfg init r w = .ok res ∧ ShowsRun cfg res T n (fun t x => logistic g (s x) t) := by
  obtain ⟨e1, e2⟩ := logistic_mg (List.replicate n g)
  rw [e1] at hr
  have hl : (logisticMG (List.replicate n g)).labels = List.range n := by rw [logisticMG_labels]; simp
  have hat : ∀ x, x < n → sources (logisticMG (List.replicate n g)).edges x = [x] ∧
      between (logisticMG (List.replicate n g)).edges x x = [[("growth_rate", g)]] := fun x hx =>
    logisticMG_at (by rw [List.getElem?_replicate, if_pos hx])
  obtain ⟨res, h1, h2⟩ := mg_run h hT e2 rfl (by
      rw [hl]
      intro he
      have := congrArg List.length he
      simp only [List.length_range, List.length_nil] at this
      omega) (init := init)
    (f := fun t x => logistic g (s x) t) (by rw [hl]; simpa using hlen)
    (by intro x hx; rw [hl] at hx; exact h0 x (by simpa using hx)) (by
      intro t _ x hx c hn _ hc _ _ _ hcon
      rw [hl, List.mem_range] at hx
      obtain ⟨s1, s2⟩ := hat x hx
      unfold logisticRule
      rw [hn, edgeData_of hcon (by rw [s1]; simp) s2, hc]
      simp only [logistic])
    (by
      intro _ t t' x x' _ _ hx hx' hp
      rw [hl, List.mem_range] at hx hx'
      rw [(hat x hx).1, (hat x' hx').1] at hp
      simp only [List.map_cons, List.map_nil, List.singleton_perm_singleton] at hp
      simp only [logistic, hp]) hr hfu
  refine ⟨res, h1, h2.1, ?_⟩
  intro t ht
  obtain ⟨d, d1, d2, d3⟩ := h2.2 t ht
  rw [hl] at d2 d3
  exact ⟨d, d1, by simpa using d2, fun x hx => d3 x (by simpa using hx)⟩

end

/-- C103: with a growth rate in `[0, 4]` a start in `[0, 1]` stays there, and from the first step on the value is at most a quarter of the rate. -/
theorem C103_unit {g x : Rat} (hg : 0 ≤ g) (hg4 : g ≤ 4) (hx : 0 ≤ x) (hx1 : x ≤ 1) (t : Nat) :
    0 ≤ logistic g x t ∧ logistic g x t ≤ 1 ∧ logistic g x (t + 1) ≤ g / 4 := by
  have hq : ∀ y : Rat, g * y * (1 - y) ≤ g / 4 := by
    intro y
    have := Rat.mul_nonneg hg (rat_sq_nonneg (1 - 2 * y))
    grind
  have h : ∀ t, 0 ≤ logistic g x t ∧ logistic g x t ≤ 1 := by
    intro t
    induction t with
    | zero => exact ⟨hx, hx1⟩
    | succ t ih =>
      have h1 := Rat.mul_nonneg (Rat.mul_nonneg hg ih.1) (show 0 ≤ 1 - logistic g x t by grind)
      have h2 := hq (logistic g x t)
      simp only [logistic]
      exact ⟨h1, by grind⟩
  exact ⟨(h t).1, (h t).2, hq _⟩

/-- C103: with a rate of at most 1 the population falls at every step, and geometrically for a rate below 1. -/
theorem C103_extinction {g x : Rat} (hg : 0 ≤ g) (hg1 : g ≤ 1) (hx : 0 ≤ x) (hx1 : x ≤ 1) (t : Nat) :
    logistic g x (t + 1) ≤ logistic g x t ∧ logistic g x t ≤ g ^ t * x := by
  have hu : ∀ t, 0 ≤ logistic g x t := fun t => (C103_unit hg (by grind) hx hx1 t).1
  have hstep : ∀ t, logistic g x (t + 1) ≤ g * logistic g x t := by
    intro t
    have := Rat.mul_nonneg hg (rat_sq_nonneg (logistic g x t))
    simp only [logistic]
    grind
  refine ⟨?_, ?_⟩
  · have h1 := hstep t
    have h2 := Rat.mul_nonneg (show 0 ≤ 1 - g by grind) (hu t)
    grind
  · induction t with
    | zero => simp [logistic]
    | succ t ih =>
      have h1 := hstep t
      have h2 := Rat.mul_nonneg hg (show 0 ≤ g ^ t * x - logistic g x t by grind)
      rw [Rat.pow_succ]
      grind

/-- C103: the fixed points are 0 and `1 - 1/g`. -/
theorem C103_fixed {g x : Rat} (hg : g ≠ 0) : (∀ t, logistic g x t = x) ↔ x = 0 ∨ x = 1 - 1 / g := by
  have key : g * x * (1 - x) = x ↔ x = 0 ∨ x = 1 - 1 / g := by
    constructor
    · intro h
      have : x * (g * (1 - x) - 1) = 0 := by grind
      rcases Rat.mul_eq_zero.1 this with h | h
      · exact Or.inl h
      · right
        have : g * (1 / g) = 1 := by grind
        have h2 : g * (x - (1 - 1 / g)) = 0 := by grind
        have := (Rat.mul_eq_zero.1 h2).resolve_left hg
        grind
    · rintro (rfl | rfl)
      · grind
      · grind
  rw [← key]
  constructor
  · intro h
    exact h 1
  · intro h t
    induction t with
    | zero => rfl
    | succ t ih => simp only [logistic, ih]; exact h

/-- C103: a state of period two solves a quadratic equation; there is none for rates from 0 to 3, apart from the fixed points. -/
theorem C103_period_two {g x : Rat} (h2 : logistic g x 2 = x) :
    logistic g x 1 = x ∨ (g ^ 2 * x ^ 2 - g * (g + 1) * x + (g + 1) = 0 ∧ ¬ (0 ≤ g ∧ g < 3)) := by
  have hfac : (logistic g x 1 - x) * (g ^ 2 * x ^ 2 - g * (g + 1) * x + (g + 1)) = logistic g x 2 - x := by
    simp only [logistic]
    grind
  rw [h2] at hfac
  rcases Rat.mul_eq_zero.1 (hfac.trans (by grind)) with h | h
  · exact Or.inl (by grind)
  · refine Or.inr ⟨h, ?_⟩
    rintro ⟨h0, h3⟩
    have hsq := rat_sq_nonneg (2 * g * x - (g + 1))
    have hp : 0 < (g + 1) * (3 - g) := Rat.mul_pos (by grind) (by grind)
    grind

/-- A rule that raises at a node without edges raises on a network without edges. -/
theorem disconnected_fail {A V I σ κ : Type} [DecidableEq V] [DecidableEq κ] {cfg : Config Nat A V I σ κ} {G : NodeCtx Nat A V I → Except Err V} {T : Nat}
    (hT : 2 ≤ T) (h : cfg.Ordinary G T) {e : Err} (hG : ∀ c, c.neighbourActs = [] → c.connections = [] → G c = .error e)
    {n : Nat} (hn : 0 < n) {s : Nat → V} {init : Option (Conds Nat V)} (hlen : (initDict cfg init).length = n)
    (h0 : ∀ x, x < n → (initDict cfg init).get? x = some (s x)) {r : Nat} {w : World Nat A σ}
    (hr : w.heap[r]? = some (disconnectedN A n)) {fuel : Nat} (hfu : 1 ≤ fuel) : evolve fuel cfg init r w = .error e := by
  have hl : (disconnectedN A n).labels = List.range n := by
    simp [disconnectedN, Net.ofSize, Net.labels, Dict.keys, Function.comp_def]
  have hget : ∀ x, x < n → (disconnectedN A n).nodes.get? x = some (Net.newNode) := by
    intro x hx
    have : (disconnectedN A n).nodes = Dict.ofKeys (List.range n) (fun _ => Net.newNode) := rfl
    rw [this, Dict.get?_ofKeys, if_pos (by simpa using hx)]
  obtain ⟨m, rfl⟩ : ∃ m, n = m + 1 := ⟨n - 1, by omega⟩
  have hl' : (disconnectedN A (m + 1)).labels = 0 :: (List.range m).map Nat.succ := by rw [hl, List.range_succ_eq_map]
  refine first_fail h hT (by rw [hl]; exact List.nodup_range) (nb := fun _ => []) (f := fun _ => s) ?_ ?_ ?_ hl' ?_ hr hfu
  · intro x hx
    rw [hl, List.mem_range] at hx
    refine ⟨?_, by simp⟩
    unfold specNbrs
    have : (disconnectedN A (m + 1)).rotation = none := rfl
    rw [this]
    simp only
    rw [hget x hx]
    rfl
  · rw [hlen]
    have := congrArg List.length hl
    simp [Net.labels, Dict.keys, Net.size] at this ⊢
    omega
  · intro x hx
    rw [hl, List.mem_range] at hx
    exact h0 x hx
  · refine hG _ rfl ?_
    simp only [plainCtx, runCtx]
    rw [hget 0 hn]
    rfl

/-- C103, error branch: without the self-loops the rule raises `KeyError`. -/
theorem C103_no_loop {I σ κ : Type} [DecidableEq κ] {cfg : Config Nat Rat Rat I σ κ} {T : Nat} (hT : 2 ≤ T) (h : cfg.Ordinary logisticRule T)
    {n : Nat} (hn : 0 < n) {s : Nat → Rat} {init : Option (Conds Nat Rat)} (hlen : (initDict cfg init).length = n)
    (h0 : ∀ x, x < n → (initDict cfg init).get? x = some (s x)) {r : Nat} {w : World Nat Rat σ}
    (hr : w.heap[r]? = some (disconnectedN Rat n)) {fuel : Nat} (hfu : 1 ≤ fuel) : evolve fuel cfg init r w = .error .keyError := by
  refine disconnected_fail hT h ?_ hn hlen h0 hr hfu
  intro c _ hc
  unfold logisticRule edgeData
  rw [hc]
  rfl

namespace Ex
/-- A call with rational attributes; activities of any type. -/
def dynBase (V : Type) (L A : Type) (lab : Nat → L) (a : A) : Config L A V Int Unit Unit :=
  { rule := none, input := .timesteps 1, topology := none, perturbation := none, past := [], order := .activitiesFirst, copyNetwork := true,
    compression := false, persistActs := true, persistNet := true, memoize := false, key := none, natLabel := lab,
    labelIdx := fun _ => none, actAttr := fun _ => a, labelCodec := ⟨fun _ => .ok (), fun x => x⟩, attrCodec := ⟨fun _ => .ok (), fun x => x⟩,
    valCodec := ⟨fun _ => .ok (), fun x => x⟩ }

/-- The call of the rule `G` for `T` timesteps. -/
def dynCall {V L A : Type} (lab : Nat → L) (a : A) (G : NodeCtx L A V Int → Except Err V) (T : Nat) (m : Bool) : Config L A V Int Unit Unit :=
  { dynBase V L A lab a with rule := some (pureRule G), input := .timesteps T, memoize := m }

theorem dynCall_ordinary {V L A : Type} (lab : Nat → L) (a : A) (G : NodeCtx L A V Int → Except Err V) (T : Nat) (m : Bool) :
    (dynCall lab a G T m).Ordinary G T := ⟨rfl, rfl, rfl, rfl, rfl, rfl, rfl⟩
end Ex

/-- The spring demo, also memoized. -/
example (m : Bool) : ∃ res, evolve 1000 (Ex.dynCall id 0 (springRule (1 / 40)) 1000 m)
      (some (.list [(-2, 0)])) 0 ⟨[singleNode], ()⟩ = .ok res ∧
    ShowsOn (Ex.dynCall id 0 (springRule (1 / 40)) 1000 m) res 1000 [0]
      (fun t _ => spring (1 / 40) (-2, 0) t) :=
  C101_run (by omega) (Ex.dynCall_ordinary _ _ _ _ _) rfl rfl rfl (by omega)
example : (6 : Rat) * (1 / 40) ^ 2 ≤ 1 ∧ spring (1 / 40) (-2, 0) 2 = (-797 / 400, 4791 / 8000) ∧
    springEuler (1 / 40) (-2, 0) 2 = (-797 / 400, 3 / 5) := by decide +kernel

/-- The two Lorenz demos, with their constants. -/
example : (∃ res, evolve 4500 (Ex.dynCall id 0 (lorenzRule 10 (8 / 3) 28 (1 / 200)) 4500 false)
      (some (.list [(1, 1, 1)])) 0 ⟨[Net.ofSize 1], ()⟩ = .ok res ∧
    ShowsOn (Ex.dynCall id 0 (lorenzRule 10 (8 / 3) 28 (1 / 200)) 4500 false) res 4500 [0]
      (fun t _ => lorenz 10 (8 / 3) 28 (1 / 200) (1, 1, 1) t)) ∧
    (∃ res, evolve 4500 (Ex.dynCall toString 0 (lorenzNetworkRule (1 / 200)) 4500 false)
      (some (.dict [("x", 1), ("y", 1), ("z", 1)])) 0 ⟨[lorenzNetwork 10 (8 / 3) 28], ()⟩ = .ok res ∧
    ShowsOn (Ex.dynCall toString 0 (lorenzNetworkRule (1 / 200)) 4500 false) res 4500 ["x", "y", "z"]
      (fun t => lorenzAt (lorenz 10 (8 / 3) 28 (1 / 200) (1, 1, 1) t))) := by
  refine ⟨C102_run (by omega) (Ex.dynCall_ordinary _ _ _ _ _) rfl rfl rfl rfl (by omega),
    C102_network (by omega) (Ex.dynCall_ordinary _ _ _ _ _) rfl rfl ?_ rfl (by omega)⟩
  intro x hx
  simp only [List.mem_cons, List.not_mem_nil, or_false] at hx
  rcases hx with rfl | rfl | rfl <;> rfl
example : lorenz 10 (8 / 3) 28 (1 / 200) (1, 1, 1) 1 = (1, 113 / 100, 119 / 120) ∧
    ((6 : Rat) ^ 2 = 4 * 9 ∧ (9 : Rat) = 10 - 1) := by decide +kernel

/-- The rows of both demos, by C72. -/
example : (∃ res, evolve 9 (Ex.dynCall toString 0 (lorenzNetworkRule (1 / 200)) 9 false) (some (.dict [("x", 1), ("y", 1), ("z", 1)])) 0
      ⟨[lorenzNetwork 10 (8 / 3) 28], ()⟩ = .ok res ∧
    activitiesOverTime (fun a b => decide (a ≤ b)) ((List.range 9).map (res.acts (Ex.dynCall toString 0 (lorenzNetworkRule (1 / 200)) 9 false))) =
      (List.range 9).map (fun t => [(lorenz 10 (8 / 3) 28 (1 / 200) (1, 1, 1) t).1, (lorenz 10 (8 / 3) 28 (1 / 200) (1, 1, 1) t).2.1,
        (lorenz 10 (8 / 3) 28 (1 / 200) (1, 1, 1) t).2.2])) := by
  obtain ⟨res, h1, h2⟩ := C102_network (T := 9) (fuel := 9) (a := 10) (b := 8 / 3) (r := 28) (q := (1, 1, 1)) (i := 0)
    (init := some (.dict [("x", 1), ("y", 1), ("z", 1)])) (w := ⟨[lorenzNetwork 10 (8 / 3) 28], ()⟩) (by omega)
    (Ex.dynCall_ordinary toString (0 : Rat) (lorenzNetworkRule (1 / 200)) 9 false) rfl rfl (by
      intro x hx
      simp only [List.mem_cons, List.not_mem_nil, or_false] at hx
      rcases hx with rfl | rfl | rfl <;> rfl) rfl (by omega)
  exact ⟨res, h1, C102_rows h2⟩

/-- Memoization is wrong for the demo on one node: without edges all keys are empty, so the first new value is kept for ever. -/
theorem C102_memoized :
    ((evolve 4 (Ex.dynCall id 0 (lorenzRule 10 1 28 1) 4 true)
      (some (.list [(1, 2, 3)])) 0 ⟨[Net.ofSize 1], ()⟩).toOption.map (fun r => (r.acts (Ex.dynBase (Rat × Rat × Rat) Nat Int id 0) 2).map (fun d => d.get? 0))) =
      some (some (some (11, 25, 2))) ∧
    lorenz 10 1 28 1 (1, 2, 3) 1 = (11, 25, 2) ∧ lorenz 10 1 28 1 (1, 2, 3) 2 = (151, 286, 275) := by decide +kernel

/-- The logistic map demo with its growth rates; the same, memoized, with one rate; and without self-loops. -/
example : (∃ res, evolve 20 (Ex.dynCall id 0 logisticRule 20 false)
      (some (.list [1 / 2, 1 / 2, 1 / 2])) 0 ⟨[logisticNetwork [1 / 2, 1, 7 / 2]], ()⟩ = .ok res ∧
    ShowsRun (Ex.dynCall id 0 logisticRule 20 false) res 20 3
      (fun t x => logistic ([1 / 2, 1, 7 / 2].getD x 0) (1 / 2) t)) ∧
    (∃ res, evolve 20 (Ex.dynCall id 0 logisticRule 20 true)
      (some (.list [1 / 2, 1 / 4])) 0 ⟨[logisticNetwork (List.replicate 2 3)], ()⟩ = .ok res ∧
    ShowsRun (Ex.dynCall id 0 logisticRule 20 true) res 20 2
      (fun t x => logistic 3 ([1 / 2, 1 / 4].getD x 0) t)) ∧
    evolve 20 (Ex.dynCall id 0 logisticRule 20 false)
      (some (.list [1 / 2, 1 / 4])) 0 ⟨[disconnectedN Rat 2], ()⟩ = .error .keyError := by
  refine ⟨C103_run (rates := [1 / 2, 1, 7 / 2]) (by decide) (Ex.dynCall_ordinary _ _ _ _ _) rfl (by simp) (s := fun _ => 1 / 2) rfl ?_ rfl (by omega),
    C103_memoized (n := 2) (by omega) (Ex.dynCall_ordinary _ _ _ _ _) (by omega) (s := fun x => [1 / 2, 1 / 4].getD x 0) rfl ?_ rfl (by omega),
    C103_no_loop (n := 2) (T := 20) (by omega) (Ex.dynCall_ordinary _ _ _ _ _) (by omega) (s := fun x => [1 / 2, 1 / 4].getD x 0) rfl ?_ rfl (by omega)⟩
  · intro x hx
    match x, hx with
    | 0, _ => rfl
    | 1, _ => rfl
    | 2, _ => rfl
  · intro x hx
    match x, hx with
    | 0, _ => rfl
    | 1, _ => rfl
  · intro x hx
    match x, hx with
    | 0, _ => rfl
    | 1, _ => rfl
example : logistic (7 / 2) (1 / 2) 1 = 7 / 8 ∧ logistic (7 / 2) (6 / 7) 2 = 6 / 7 ∧ logistic (7 / 2) (6 / 7) 1 = 3 / 7 ∧
    logistic 2 (1 / 2) 5 = 1 / 2 := by decide +kernel

/-- Memoization is wrong for nodes with different growth rates: they share the key, so the second node gets the value of the first. -/
theorem C103_shared_key :
    ((evolve 2 (Ex.dynCall id 0 logisticRule 2 true)
      (some (.list [1 / 2, 1 / 2])) 0 ⟨[logisticNetwork [1, 2]], ()⟩).toOption.map (fun r => (r.acts (Ex.dynBase Rat Nat Rat id 0) 1).map (fun d => d.get? 1))) =
      some (some (some (1 / 4))) ∧ logistic 2 (1 / 2) 1 = 1 / 2 := by decide +kernel

end Verif
