import Verif.Proofs.Additive
/-! # Properties C128 to C131: the algebra of elementary cellular automata -/

namespace Verif
section
variable {I σ κ I' σ' κ' : Type} [DecidableEq κ] [DecidableEq κ']

/-- The states of an `EcaCall` are those of the elementary cellular automaton (C46). -/
theorem EcaCall.act {n R T : Nat} {s : Nat → Nat} {cfg : Config Nat Int Int I σ κ} {res : Evolved Nat Int Int σ}
    (h : EcaCall n R T s cfg res) (t : Nat) (ht : t < T) (x : Nat) (hx : x < n) : actOf cfg res t x = some (eca n R s t x : Int) := by
  obtain ⟨N, r, w, init, fuel, h1, h2, h3, h4, h5, h6⟩ := h.call
  obtain ⟨res', e1, _, e2⟩ := C46_elementary_ca n R h.cells h.number cfg T h.steps h.ordinary N h1 r w h2 init s h.row h3 h4 fuel h5
  rw [h6] at e1
  cases e1
  obtain ⟨d, d1, _, d3⟩ := e2 t ht
  unfold actOf
  rw [d1]
  exact d3 x hx

/-! ## C128 -/

/-- C128.  Which of the 256 rules are reversible on `n ≥ 4` cells: six on every ring, eight on rings of an odd number of cells, and two on
rings whose number of cells is not a multiple of three. -/
theorem C128_reversible_rules (n R : Nat) (hn : 4 ≤ n) (hR : R < 256) :
    ReversibleOn n R ↔ R ∈ [15, 51, 85, 170, 204, 240] ∨ (R ∈ [45, 75, 89, 101, 154, 166, 180, 210] ∧ n % 2 = 1) ∨
      (R ∈ [105, 150] ∧ n % 3 ≠ 0) := reversible_iff n R hn hR

example : ReversibleOn 101 45 ∧ ¬ ReversibleOn 100 45 ∧ ReversibleOn 100 150 ∧ ¬ ReversibleOn 99 150 ∧ ¬ ReversibleOn 100 30 := by
  refine ⟨(C128_reversible_rules _ _ ?_ ?_).2 ?_, fun h => ?_, (C128_reversible_rules _ _ ?_ ?_).2 ?_, fun h => ?_, fun h => ?_⟩ <;>
    first
    | decide
    | exact absurd ((C128_reversible_rules _ _ (by decide) (by decide)).1 h) (by decide)

/-- C128.  On three cells 36 rules are reversible. -/
theorem C128_three_cells (R : Nat) (hR : R < 256) :
    ReversibleOn 3 R ↔ R ∈ [15, 27, 29, 39, 43, 45, 51, 53, 57, 71, 75, 77, 83, 85, 89, 99, 101, 113, 142, 154, 156, 166, 170, 172, 178,
      180, 184, 198, 202, 204, 210, 212, 216, 226, 228, 240] := by
  rw [reversible3_iff]
  exact reversible3 ⟨R, hR⟩

/-- C128.  A rule is reversible on a ring if and only if every row has a predecessor. -/
theorem C128_onto (n R : Nat) (hn : 0 < n) : ReversibleOn n R ↔ OntoOn n R := reversible_iff_onto hn

/-- C128.  A rule is reversible on a ring if and only if every row comes back. -/
theorem C128_returns (n R : Nat) (hn : 0 < n) :
    ReversibleOn n R ↔ ∀ s, BinaryRow n s → ∃ P, 0 < P ∧ P ≤ 2 ^ n ∧ ∀ x, x < n → eca n R s P x = s x := by
  constructor
  · exact fun h s hs => reversible_periodic hn h hs
  · intro h
    refine (reversible_iff_onto hn).2 (fun y hy => ?_)
    obtain ⟨P, h1, _, h3⟩ := h y hy
    refine ⟨eca n R y (P - 1), eca_binary hn hy _, fun x hx => ?_⟩
    rw [← eca_shift, show P - 1 + 1 = P by omega]
    exact h3 x hx

/-- C128.  The library: with a reversible rule two results that agree in one state (of the same number) come from the same initial
conditions; the options other than the rule and the timesteps may differ. -/
theorem C128_evolve_reversible {n R T T' : Nat} {s s' : Nat → Nat} {cfg : Config Nat Int Int I σ κ} {res : Evolved Nat Int Int σ}
    {cfg' : Config Nat Int Int I' σ' κ'} {res' : Evolved Nat Int Int σ'} (hn : 4 ≤ n)
    (hrev : R ∈ [15, 51, 85, 170, 204, 240] ∨ (R ∈ [45, 75, 89, 101, 154, 166, 180, 210] ∧ n % 2 = 1) ∨ (R ∈ [105, 150] ∧ n % 3 ≠ 0))
    (h : EcaCall n R T s cfg res) (h' : EcaCall n R T' s' cfg' res') (t : Nat) (ht : t < T) (ht' : t < T')
    (he : ∀ x, x < n → actOf cfg res t x = actOf cfg' res' t x) : ∀ x, x < n → s x = s' x := by
  refine reversible_all (R := R) (by omega) ((C128_reversible_rules n R hn h.number).2 hrev) h.row h'.row t (fun x hx => ?_)
  have := he x hx
  rw [h.act t ht x hx, h'.act t ht' x hx, Option.some_inj, Int.ofNat_inj] at this
  exact this

/-- C128.  With a reversible rule there is a number of steps after which all states of the result repeat, from the first one on. -/
theorem C128_evolve_returns {n R : Nat} {s : Nat → Nat} (hn : 4 ≤ n) (hR : R < 256) (hs : BinaryRow n s)
    (hrev : R ∈ [15, 51, 85, 170, 204, 240] ∨ (R ∈ [45, 75, 89, 101, 154, 166, 180, 210] ∧ n % 2 = 1) ∨ (R ∈ [105, 150] ∧ n % 3 ≠ 0)) :
    ∃ P, 0 < P ∧ P ≤ 2 ^ n ∧ ∀ (T : Nat) (cfg : Config Nat Int Int I σ κ) (res : Evolved Nat Int Int σ), EcaCall n R T s cfg res →
      ∀ t, t + P < T → ∀ x, x < n → actOf cfg res (t + P) x = actOf cfg res t x := by
  obtain ⟨P, h1, h2, h3⟩ := reversible_periodic (by omega) ((C128_reversible_rules n R hn hR).2 hrev) hs
  refine ⟨P, h1, h2, fun T cfg res h t ht x hx => ?_⟩
  rw [h.act _ ht x hx, h.act t (by omega) x hx, Nat.add_comm t P, eca_shift, eca_congr (by omega) h3 t x hx]

/-- C128.  With any other rule there are two different initial conditions whose results agree in all states but the first. -/
theorem C128_evolve_irreversible {n R : Nat} (hn : 4 ≤ n) (hR : R < 256)
    (hirr : ¬ (R ∈ [15, 51, 85, 170, 204, 240] ∨ (R ∈ [45, 75, 89, 101, 154, 166, 180, 210] ∧ n % 2 = 1) ∨
      (R ∈ [105, 150] ∧ n % 3 ≠ 0))) :
    ∃ s s', BinaryRow n s ∧ BinaryRow n s' ∧ (∃ x, x < n ∧ s x ≠ s' x) ∧
      ∀ (T T' : Nat) (cfg : Config Nat Int Int I σ κ) (res : Evolved Nat Int Int σ) (cfg' : Config Nat Int Int I' σ' κ')
        (res' : Evolved Nat Int Int σ'), EcaCall n R T s cfg res → EcaCall n R T' s' cfg' res' →
        ∀ t, 1 ≤ t → t < T → t < T' → ∀ x, x < n → actOf cfg res t x = actOf cfg' res' t x := by
  have hno := fun hr => hirr ((C128_reversible_rules n R hn hR).1 hr)
  unfold ReversibleOn at hno
  obtain ⟨s, hno⟩ := Classical.not_forall.1 hno
  obtain ⟨s', hno⟩ := Classical.not_forall.1 hno
  obtain ⟨hs, hno⟩ := Classical.not_forall.1 hno
  obtain ⟨hs', hno⟩ := Classical.not_forall.1 hno
  obtain ⟨he, hno⟩ := Classical.not_forall.1 hno
  obtain ⟨x, hno⟩ := Classical.not_forall.1 hno
  obtain ⟨hx, hno⟩ := Classical.not_forall.1 hno
  refine ⟨s, s', hs, hs', ⟨x, hx, hno⟩, fun T T' cfg res cfg' res' h h' t h1 ht ht' y hy => ?_⟩
  rw [h.act t ht y hy, h'.act t ht' y hy, show t = 1 + (t - 1) by omega, eca_shift, eca_shift (s := s'),
    eca_congr (by omega) he (t - 1) y hy]

/-! ## C129 -/

/-- C129.  The rules that keep the number of cells in state 1, on `n ≥ 4` cells: both shifts, the identity, the traffic rule and its mirror. -/
theorem C129_conserving_rules (n R : Nat) (hn : 4 ≤ n) (hR : R < 256) : ConservesOn n R ↔ R ∈ [170, 184, 204, 226, 240] :=
  conserves_iff n R hn hR

example : ConservesOn 100 184 ∧ ¬ ConservesOn 100 110 :=
  ⟨(C129_conserving_rules _ _ (by decide) (by decide)).2 (by decide),
   fun h => absurd ((C129_conserving_rules _ _ (by decide) (by decide)).1 h) (by decide)⟩

/-- C129.  On three cells there are four more. -/
theorem C129_three_cells (R : Nat) (hR : R < 256) : ConservesOn 3 R ↔ R ∈ [170, 172, 184, 202, 204, 216, 226, 228, 240] := by
  rw [conserves3_iff]
  exact conserves3 ⟨R, hR⟩

theorem sum_acts {n R T : Nat} {s : Nat → Nat} {cfg : Config Nat Int Int I σ κ} {res : Evolved Nat Int Int σ}
    (h : EcaCall n R T s cfg res) (t : Nat) (ht : t < T) :
    ((List.range n).map (fun x => (actOf cfg res t x).getD 0)).sum = (onesIn n (eca n R s t) : Int) := by
  have key : ∀ m, m ≤ n → ((List.range m).map (fun x => (actOf cfg res t x).getD 0)).sum = (onesIn m (eca n R s t) : Int) := by
    intro m
    induction m with
    | zero => intro _; rfl
    | succ m ih =>
      intro hm
      rw [List.range_succ, List.map_append, List.sum_append, ih (by omega), onesIn_succ]
      simp [h.act t ht m (by omega)]
  exact key n (Nat.le_refl n)

/-- C129.  The library: with these rules the activities of every state of the result add up to the same number. -/
theorem C129_evolve {n R T : Nat} {s : Nat → Nat} {cfg : Config Nat Int Int I σ κ} {res : Evolved Nat Int Int σ}
    (hR : R ∈ [170, 184, 204, 226, 240]) (h : EcaCall n R T s cfg res) (t : Nat) (ht : t < T) :
    ((List.range n).map (fun x => (actOf cfg res t x).getD 0)).sum = (((List.range n).map s).sum : Nat) := by
  have hn := h.cells
  obtain ⟨f, hf, rfl⟩ := conserving_flows R hR
  rw [sum_acts h t ht, conserves_all (by omega) (flow_conserves (flows_ok f hf) (by omega)) h.row]
  rfl

/-- C129.  With any other rule there are initial conditions for which the activities of the second state add up to another number than
those of the first. -/
theorem C129_evolve_others {n R : Nat} (hn : 4 ≤ n) (hR : R < 256) (hc : R ∉ [170, 184, 204, 226, 240]) :
    ∃ s, BinaryRow n s ∧ ∀ (T : Nat) (cfg : Config Nat Int Int I σ κ) (res : Evolved Nat Int Int σ), EcaCall n R T s cfg res → 1 < T →
      ((List.range n).map (fun x => (actOf cfg res 1 x).getD 0)).sum ≠ ((List.range n).map (fun x => (actOf cfg res 0 x).getD 0)).sum := by
  have hno := fun hr => hc ((C129_conserving_rules n R hn hR).1 hr)
  unfold ConservesOn at hno
  obtain ⟨s, hno⟩ := Classical.not_forall.1 hno
  obtain ⟨hs, hno⟩ := Classical.not_forall.1 hno
  refine ⟨s, hs, fun T cfg res h hT he => hno ?_⟩
  rw [sum_acts h 1 hT, sum_acts h 0 (by omega), Int.ofNat_inj] at he
  exact he

/-! ## C130 -/

/-- C130.  The mirrored rule on the mirrored row is the mirrored evolution, and the complemented rule on the complemented row is the
complemented evolution. -/
theorem C130_symmetries (n R : Nat) (hn : 0 < n) (hR : R < 256) (s : Nat → Nat) (hs : BinaryRow n s) (t x : Nat) (hx : x < n) :
    eca n (mirrorRule R) (fun y => s (n - 1 - y)) t x = eca n R s t (n - 1 - x) ∧
    eca n (complementRule R) (fun y => 1 - s y) t x = 1 - eca n R s t x :=
  ⟨mirror_run hn hR hs t x hx, complement_run hn hR hs t x hx⟩

example : mirrorRule 110 = 124 ∧ complementRule 110 = 137 ∧ mirrorRule (complementRule 110) = 193 ∧ mirrorRule 30 = 86 ∧
    complementRule 184 = 226 ∧ mirrorRule 184 = 226 := by decide

/-- C130.  Both are involutions of the 256 rules that commute; there are 88 rules up to them. -/
theorem C130_classes : (∀ R : Fin 256, mirrorRule R < 256 ∧ complementRule R < 256 ∧ mirrorRule (mirrorRule R) = R ∧
      complementRule (complementRule R) = R ∧ mirrorRule (complementRule R) = complementRule (mirrorRule R)) ∧
    ((List.range 256).filter (fun R => R ≤ mirrorRule R && R ≤ complementRule R && R ≤ mirrorRule (complementRule R))).length = 88 := by
  decide +kernel

/-- C130.  The library: the results of the four calls are each other's mirror images and complements. -/
theorem C130_evolve {n R T T' : Nat} {s s' : Nat → Nat} {cfg : Config Nat Int Int I σ κ} {res : Evolved Nat Int Int σ}
    {cfg' : Config Nat Int Int I' σ' κ'} {res' : Evolved Nat Int Int σ'} (h : EcaCall n R T s cfg res) (t : Nat) (ht : t < T)
    (ht' : t < T') (x : Nat) (hx : x < n) :
    (EcaCall n (mirrorRule R) T' s' cfg' res' → (∀ y, y < n → s' y = s (n - 1 - y)) →
      actOf cfg' res' t x = actOf cfg res t (n - 1 - x)) ∧
    (EcaCall n (complementRule R) T' s' cfg' res' → (∀ y, y < n → s' y = 1 - s y) →
      ∃ v, actOf cfg res t x = some v ∧ actOf cfg' res' t x = some (1 - v)) := by
  have hn := h.cells
  constructor
  · intro h' hs
    rw [h'.act t ht' x hx, h.act t ht _ (by omega), eca_congr (by omega) hs t x hx, mirror_run (by omega) h.number h.row t x hx]
  · intro h' hs
    refine ⟨_, h.act t ht x hx, ?_⟩
    rw [h'.act t ht' x hx, eca_congr (by omega) hs t x hx, complement_run (by omega) h.number h.row t x hx]
    have := eca_binary (R := R) (by omega) h.row t x hx
    congr 1
    omega

/-! ## C131 -/

/-- C131.  The additive rules. -/
theorem C131_additive_rules (n R : Nat) (hn : 3 ≤ n) (hR : R < 256) : AdditiveOn n R ↔ R ∈ [0, 60, 90, 102, 150, 170, 204, 240] :=
  additive_iff n R hn hR

/-- C131.  The library: with an additive rule the activity of a cell in state `t` is the parity of the number of cells `y` in state 1 at
the beginning from which alone the cell would have been in state 1. -/
theorem C131_superposition {n R T : Nat} {s : Nat → Nat} {cfg : Config Nat Int Int I σ κ} {res : Evolved Nat Int Int σ}
    (hR : R ∈ [0, 60, 90, 102, 150, 170, 204, 240]) (h : EcaCall n R T s cfg res) (t : Nat) (ht : t < T) (x : Nat) (hx : x < n) :
    actOf cfg res t x =
      some ((((List.range n).map (fun y => s y * eca n R (fun z => if z = y then 1 else 0) t x)).sum % 2 : Nat) : Int) := by
  have hn := h.cells
  rw [h.act t ht x hx, additive_superposition (by omega) ((C131_additive_rules n R hn h.number).2 hR) h.row t x hx]
  rfl

/-- C131.  After `2^k` steps a rule that adds up its left cell (`l`), its own (`c`) and its right cell (`r`) modulo 2 has added up the
cells `2^k` places away and the cell itself. -/
theorem C131_powers_of_two {n T : Nat} {s : Nat → Nat} {cfg : Config Nat Int Int I σ κ} {res : Evolved Nat Int Int σ}
    (R l c r : Nat) (hR : (R, l, c, r) ∈ [(0, 0, 0, 0), (60, 1, 1, 0), (90, 1, 0, 1), (102, 0, 1, 1), (150, 1, 1, 1), (170, 0, 0, 1),
      (204, 0, 1, 0), (240, 1, 0, 0)]) (h : EcaCall n R T s cfg res) (k : Nat) (hk : 2 ^ k < T) (x : Nat) (hx : x < n) :
    actOf cfg res (2 ^ k) x = some (((l * s ((x + (n - 2 ^ k % n)) % n) + c * s x + r * s ((x + 2 ^ k) % n)) % 2 : Nat) : Int) := by
  have hn := h.cells
  obtain ⟨h1, h2, h3⟩ := additiveRules_bits (R, l, c, r) hR
  rw [h.act _ hk x hx, linear_power h1 h2 h3 (additive_local (R, l, c, r) hR) (by omega) k s h.row x hx]
  rfl

/-- C131.  Rule 90 on `2^(k+1)` cells, whatever the initial conditions: all activities are 0 from state `2^k` on. -/
theorem C131_rule90_dies {k T : Nat} {s : Nat → Nat} {cfg : Config Nat Int Int I σ κ} {res : Evolved Nat Int Int σ}
    (h : EcaCall (2 ^ (k + 1)) 90 T s cfg res) (t : Nat) (hk : 2 ^ k ≤ t) (ht : t < T) (x : Nat) (hx : x < 2 ^ (k + 1)) :
    actOf cfg res t x = some 0 := by
  rw [h.act t ht x hx, show t = 2 ^ k + (t - 2 ^ k) by omega, rule90_dies h.row _ x hx]
  rfl

/-- Rule 90 on eight cells: the hypotheses are met, and the activities are 0 from the fifth state on. -/
example : ∃ res, EcaCall 8 90 6 (fun x => if x = 2 ∨ x = 5 then 1 else 0)
    ({ Ex.base with rule := some (pureRule (nksCaRule 90)), input := .timesteps 6, memoize := true }) res := by
  obtain ⟨N, _, hN, _⟩ := C43_left_to_right 8 1 (by omega) (by omega)
  obtain ⟨res, h1, h2⟩ := C46_elementary_ca 8 90 (by omega) (by omega)
    { Ex.base with rule := some (pureRule (nksCaRule 90)), input := .timesteps 6, memoize := true } 6 (by omega)
    ⟨rfl, rfl, rfl, rfl, rfl, rfl, rfl⟩ N hN 0 ⟨[N], []⟩ rfl (some (.list [0, 0, 1, 0, 0, 1, 0, 0]))
    (fun x => if x = 2 ∨ x = 5 then 1 else 0) (by decide) (by decide) (by decide) 6 (by omega)
  exact ⟨res, by decide, by decide, by decide, ⟨rfl, rfl, rfl, rfl, rfl, rfl, rfl⟩, by unfold BinaryRow; decide,
    N, 0, ⟨[N], []⟩, some (.list [0, 0, 1, 0, 0, 1, 0, 0]), 6, hN, rfl, by decide, by decide, by decide, h1⟩
example : (List.range 5).map (fun t => (List.range 8).map (eca 8 90 (fun x => if x = 2 ∨ x = 5 then 1 else 0) t)) =
    [[0, 0, 1, 0, 0, 1, 0, 0], [0, 1, 0, 1, 1, 0, 1, 0], [1, 0, 0, 1, 1, 0, 0, 1], [1, 1, 1, 1, 1, 1, 1, 1], [0, 0, 0, 0, 0, 0, 0, 0]] := by
  decide +kernel

end
end Verif
