import Verif.Proofs.Traffic
import Verif.Props.Elementary
/-! # Property C144: traffic, and the classification of densities by two rules in succession -/

namespace Verif
section
variable {I σ κ I' σ' κ' : Type} [DecidableEq κ] [DecidableEq κ']

theorem EcaCall.eq_iff {n R T : Nat} {s : Nat → Nat} {cfg : Config Nat Int Int I σ κ} {res : Evolved Nat Int Int σ}
    (h : EcaCall n R T s cfg res) {t : Nat} (ht : t < T) {x : Nat} (hx : x < n) (v : Nat) :
    actOf cfg res t x = some (v : Int) ↔ eca n R s t x = v := by
  rw [h.act t ht x hx, Option.some_inj, Int.ofNat_inj]

/-- C144.  Under rule 184, from state number `(n - 2) / 2` on, there are not both two neighbouring ones and two neighbouring zeros. -/
theorem C144_settles {n T : Nat} {s : Nat → Nat} {cfg : Config Nat Int Int I σ κ} {res : Evolved Nat Int Int σ}
    (h : EcaCall n 184 T s cfg res) {t : Nat} (ht : t < T) (hn : n ≤ 2 * t + 3) {x y : Nat} (hx : x < n) (hy : y < n) :
    ¬ (actOf cfg res t x = some 1 ∧ actOf cfg res t ((x + 1) % n) = some 1 ∧
      actOf cfg res t y = some 0 ∧ actOf cfg res t ((y + 1) % n) = some 0) := by
  have h3 := h.cells
  have hx' := Nat.mod_lt (x + 1) (show 0 < n by omega)
  have hy' := Nat.mod_lt (y + 1) (show 0 < n by omega)
  rintro ⟨a, b, c, d⟩
  exact traffic_settles h3 h.row hn ⟨⟨x, hx, (h.eq_iff ht hx 1).1 a, (h.eq_iff ht hx' 1).1 b⟩,
    ⟨y, hy, (h.eq_iff ht hy 0).1 c, (h.eq_iff ht hy' 0).1 d⟩⟩

/-- C144.  From then on, if at most half of the cells are ones, every one moves to the right in every timestep; if at least half of them
are, the whole row moves to the left. -/
theorem C144_flow {n T : Nat} {s : Nat → Nat} {cfg : Config Nat Int Int I σ κ} {res : Evolved Nat Int Int σ}
    (h : EcaCall n 184 T s cfg res) {t : Nat} (ht : t + 1 < T) (hn : n ≤ 2 * t + 3) {x : Nat} (hx : x < n) :
    (2 * onesIn n s ≤ n → actOf cfg res (t + 1) ((x + 1) % n) = actOf cfg res t x) ∧
    (n ≤ 2 * onesIn n s → actOf cfg res (t + 1) x = actOf cfg res t ((x + 1) % n)) := by
  have h3 := h.cells
  have hn0 : 0 < n := by omega
  have hx' := Nat.mod_lt (x + 1) hn0
  have hb := eca_binary (R := 184) hn0 h.row t
  constructor
  · intro hd
    rw [h.act _ ht _ hx', h.act t (by omega) _ hx, eca_succ_one, free_flow hn0 hb (no_jam h3 h.row hn hd) x hx]
  · intro hd
    rw [h.act _ ht _ hx, h.act t (by omega) _ hx', eca_succ_one, jammed_flow hn0 hb (no_gap h3 h.row hn hd) x hx]

/-- C144.  The number of states is the least possible: on every even ring there are initial conditions with which all earlier states have
both two neighbouring ones and two neighbouring zeros. -/
theorem C144_sharp {n : Nat} (hn : 4 ≤ n) (h2 : n % 2 = 0) : ∃ s, BinaryRow n s ∧
    ∀ (T : Nat) (cfg : Config Nat Int Int I σ κ) (res : Evolved Nat Int Int σ), EcaCall n 184 T s cfg res → ∀ t, t < T → 2 * t + 3 < n →
      ∃ x y, x < n ∧ y < n ∧ actOf cfg res t x = some 1 ∧ actOf cfg res t ((x + 1) % n) = some 1 ∧
        actOf cfg res t y = some 0 ∧ actOf cfg res t ((y + 1) % n) = some 0 := by
  refine ⟨farRow n 0, fun x _ => ?_, fun T cfg res h t ht htn => ?_⟩
  · unfold farRow
    split <;> omega
  · obtain ⟨⟨y, hy, c, d⟩, ⟨x, hx, a, b⟩⟩ := farRow_pairs hn h2 t (by omega)
    have hx' := Nat.mod_lt (x + 1) (show 0 < n by omega)
    have hy' := Nat.mod_lt (y + 1) (show 0 < n by omega)
    have e := farRow_eca hn h2 t (by omega)
    exact ⟨x, y, hx, hy, (h.eq_iff ht hx 1).2 (by rw [e x hx, a]), (h.eq_iff ht hx' 1).2 (by rw [e _ hx', b]),
      (h.eq_iff ht hy 0).2 (by rw [e y hy, c]), (h.eq_iff ht hy' 0).2 (by rw [e _ hy', d])⟩

/-- C144.  No rule classifies densities (C121), but two rules in succession do: start `evolve` with rule 184, take a state from number
`(n - 2) / 2` on, and start `evolve` from it with rule 232; from state number `(n - 1) / 2` on, all cells show the state that the majority
of the cells had in the beginning.  If there was no majority, there never is a decision: neighbours differ in all states. -/
theorem C144_classifies {n T T' : Nat} {s s' : Nat → Nat} {cfg : Config Nat Int Int I σ κ} {res : Evolved Nat Int Int σ}
    {cfg' : Config Nat Int Int I' σ' κ'} {res' : Evolved Nat Int Int σ'} (h : EcaCall n 184 T s cfg res)
    (h' : EcaCall n 232 T' s' cfg' res') {t : Nat} (ht : t < T) (hn : n ≤ 2 * t + 3)
    (hfrom : ∀ x, x < n → actOf cfg res t x = some (s' x : Int)) {u : Nat} (hu : u < T') :
    (n ≤ 2 * u + 2 → 2 * onesIn n s < n → ∀ x, x < n → actOf cfg' res' u x = some 0) ∧
    (n ≤ 2 * u + 2 → n < 2 * onesIn n s → ∀ x, x < n → actOf cfg' res' u x = some 1) ∧
    (2 * onesIn n s = n → ∀ x, x < n → actOf cfg' res' u x ≠ actOf cfg' res' u ((x + 1) % n)) := by
  have h3 := h.cells
  have hn0 : 0 < n := by omega
  have hrow : ∀ x, x < n → eca n 184 s t x = s' x := fun x hx => (h.eq_iff ht hx _).1 (hfrom x hx)
  have hpair : ∀ v, Paired n v s' ↔ Paired n v (eca n 184 s t) := by
    intro v
    unfold Paired
    constructor <;> rintro ⟨x, hx, a, b⟩
    · exact ⟨x, hx, by rw [hrow x hx, a], by rw [hrow _ (Nat.mod_lt _ hn0), b]⟩
    · exact ⟨x, hx, by rw [← hrow x hx, a], by rw [← hrow _ (Nat.mod_lt _ hn0), b]⟩
  have hones : onesIn n s' = onesIn n s := by rw [← traffic_conserves hn0 h.row t]; exact onesIn_congr (fun x hx => (hrow x hx).symm)
  refine ⟨fun hun hd x hx => ?_, fun hun hd x hx => ?_, fun hd x hx => ?_⟩
  · have hp : ¬ Paired n 1 s' := fun e => no_jam h3 h.row hn (by omega) ((hpair 1).1 e)
    have hq : Paired n 0 s' := Classical.byContradiction (fun e => by
      have := (many_ones hn0 h'.row e).1
      omega)
    exact (h'.eq_iff hu hx 0).2 (vote_settles h3 h'.row (by decide) (by decide) (by decide) hp hq hun x hx)
  · have hp : ¬ Paired n 0 s' := fun e => no_gap h3 h.row hn (by omega) ((hpair 0).1 e)
    have hq : Paired n 1 s' := Classical.byContradiction (fun e => by
      have := (few_ones hn0 h'.row e).1
      omega)
    exact (h'.eq_iff hu hx 1).2 (vote_settles h3 h'.row (by decide) (by decide) (by decide) hp hq hun x hx)
  · have h1 : ¬ Paired n 1 s' := fun e => no_jam h3 h.row hn (by omega) ((hpair 1).1 e)
    have h0 : ¬ Paired n 0 s' := fun e => no_gap h3 h.row hn (by omega) ((hpair 0).1 e)
    rw [h'.act u hu x hx, h'.act u hu _ (Nat.mod_lt _ hn0), ne_eq, Option.some_inj, Int.ofNat_inj]
    exact vote_tie hn0 h'.row h1 h0 u x hx

end

/-- The calls exist: nine cells with five ones, four states with rule 184, then five states with rule 232 from the last of them. -/
example : ∃ res res' : Evolved Nat Int Int (List Int),
    EcaCall 9 184 4 ([1, 1, 1, 0, 0, 1, 0, 0, 1].getD · 0)
      { Ex.base with rule := some (pureRule (nksCaRule 184)), input := .timesteps 4, memoize := true } res ∧
    EcaCall 9 232 5 ([0, 1, 0, 1, 0, 1, 0, 1, 1].getD · 0)
      { Ex.base with rule := some (pureRule (nksCaRule 232)), input := .timesteps 5, memoize := true } res' ∧
    (∀ x, x < 9 → actOf { Ex.base with rule := some (pureRule (nksCaRule 184)), input := .timesteps 4, memoize := true } res 3 x =
      some (([0, 1, 0, 1, 0, 1, 0, 1, 1].getD x 0 : Nat) : Int)) ∧
    9 < 2 * onesIn 9 ([1, 1, 1, 0, 0, 1, 0, 0, 1].getD · 0) := by
  obtain ⟨N, _, hN, _⟩ := C43_left_to_right 9 1 (by omega) (by omega)
  obtain ⟨res, h1, _⟩ := C46_elementary_ca 9 184 (by omega) (by omega)
    { Ex.base with rule := some (pureRule (nksCaRule 184)), input := .timesteps 4, memoize := true } 4 (by omega)
    ⟨rfl, rfl, rfl, rfl, rfl, rfl, rfl⟩ N hN 0 ⟨[N], []⟩ rfl (some (.list [1, 1, 1, 0, 0, 1, 0, 0, 1]))
    ([1, 1, 1, 0, 0, 1, 0, 0, 1].getD · 0) (by decide) (by decide) (by decide) 4 (by omega)
  obtain ⟨res', h2, _⟩ := C46_elementary_ca 9 232 (by omega) (by omega)
    { Ex.base with rule := some (pureRule (nksCaRule 232)), input := .timesteps 5, memoize := true } 5 (by omega)
    ⟨rfl, rfl, rfl, rfl, rfl, rfl, rfl⟩ N hN 0 ⟨[N], []⟩ rfl (some (.list [0, 1, 0, 1, 0, 1, 0, 1, 1]))
    ([0, 1, 0, 1, 0, 1, 0, 1, 1].getD · 0) (by decide) (by decide) (by decide) 5 (by omega)
  have c1 : EcaCall 9 184 4 ([1, 1, 1, 0, 0, 1, 0, 0, 1].getD · 0)
      { Ex.base with rule := some (pureRule (nksCaRule 184)), input := .timesteps 4, memoize := true } res :=
    ⟨by decide, by decide, by decide, ⟨rfl, rfl, rfl, rfl, rfl, rfl, rfl⟩, by unfold BinaryRow; decide,
      N, 0, ⟨[N], []⟩, some (.list [1, 1, 1, 0, 0, 1, 0, 0, 1]), 4, hN, rfl, by decide, by decide, by decide, h1⟩
  refine ⟨res, res', c1, ⟨by decide, by decide, by decide, ⟨rfl, rfl, rfl, rfl, rfl, rfl, rfl⟩, by unfold BinaryRow; decide,
    N, 0, ⟨[N], []⟩, some (.list [0, 1, 0, 1, 0, 1, 0, 1, 1]), 5, hN, rfl, by decide, by decide, by decide, h2⟩, fun x hx => ?_, by decide⟩
  rw [c1.eq_iff (by decide) hx]
  have : ∀ x : Fin 9, eca 9 184 ([1, 1, 1, 0, 0, 1, 0, 0, 1].getD · 0) 3 x = [0, 1, 0, 1, 0, 1, 0, 1, 1].getD x 0 := by decide +kernel
  exact this ⟨x, hx⟩

end Verif
