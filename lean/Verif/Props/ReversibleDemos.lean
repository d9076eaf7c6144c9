import Verif.Spec.ReversibleDemos
import Verif.Proofs.ReversibleDemos
import Verif.Props.Density
/-! # Property C149: reversible elementary automata keep symmetries, and the demos of rule 122 are each other's reverse -/

namespace Verif
open Spec
section
variable {I σ κ : Type} [DecidableEq κ]

theorem Spec.SecondOrderCall.act {n R T : Nat} {p s : Nat → Nat} {cfg : Config Nat Int Int I σ κ} {res : Evolved Nat Int Int σ}
    (h : SecondOrderCall n R T p s cfg res) : res.states.length = T ∧ ∀ t, t < T → ∀ x, x < n →
      actOf cfg res t x = some (ecaTwo n R p s (t + 1) x : Int) := by
  obtain ⟨P, hP, hpast⟩ := h.past
  obtain ⟨N, r, w, init, fuel, hN, hr, hlen, h0, hf, he⟩ := h.call
  obtain ⟨res', h1, h2⟩ := C113_run n R h.cells h.number cfg T h.steps h.ordinary h.memo N hN r w hr p s h.pastRow h.row P hP hpast init hlen h0
    fuel hf
  rw [he] at h1
  cases h1
  refine ⟨h2.1, ?_⟩
  intro t ht x hx
  obtain ⟨d, d1, _, d3⟩ := h2.2 t ht
  unfold actOf
  rw [d1]
  exact d3 x hx

/-- C149.  Symmetric rules: if the rule is its own mirror image and the past and initial conditions of one call are the mirror images of those
of another, about any axis, then so are all states. -/
theorem C149_mirror {n R T m : Nat} {p s p' s' : Nat → Nat} {cfg cfg' : Config Nat Int Int I σ κ} {res res' : Evolved Nat Int Int σ}
    (hR : mirrorRule R = R) (hm : m < n) (h : SecondOrderCall n R T p s cfg res) (h' : SecondOrderCall n R T p' s' cfg' res')
    (hp : ∀ x, x < n → p' x = p (reflectCell n m x)) (hs : ∀ x, x < n → s' x = s (reflectCell n m x)) (t : Nat) (ht : t < T)
    (x : Nat) (hx : x < n) : actOf cfg' res' t x = actOf cfg res t (reflectCell n m x) := by
  have hn := h.cells
  rw [h.act.2 t ht _ (show reflectCell n m x < n from Nat.mod_lt _ (by omega)), h'.act.2 t ht x hx,
    ecaTwo_mirror h.cells h.number hm hR h.pastRow h.row hp hs (t + 1) x hx]

/-- C149.  Additive rules, as rule 90 of `reversible_ca_demo.py:8-12`: the states that belong to the sums modulo 2 of past and initial
conditions are the sums modulo 2 of the states. -/
theorem C149_superposition {n R T : Nat} {p s p' s' : Nat → Nat} {cfg cfg' cfg'' : Config Nat Int Int I σ κ}
    {res res' res'' : Evolved Nat Int Int σ} (hR : R ∈ [0, 60, 90, 102, 150, 170, 204, 240]) (h : SecondOrderCall n R T p s cfg res)
    (h' : SecondOrderCall n R T p' s' cfg' res')
    (h'' : SecondOrderCall n R T (fun y => (p y + p' y) % 2) (fun y => (s y + s' y) % 2) cfg'' res'')
    (t : Nat) (ht : t < T) (x : Nat) (hx : x < n) :
    ∃ a b : Nat, actOf cfg res t x = some (a : Int) ∧ actOf cfg' res' t x = some (b : Int) ∧
      actOf cfg'' res'' t x = some (((a + b) % 2 : Nat) : Int) := by
  have hn := h.cells
  refine ⟨_, _, h.act.2 t ht x hx, h'.act.2 t ht x hx, ?_⟩
  rw [h''.act.2 t ht x hx, ecaTwo_sum (by omega) ((additive_iff n R hn h.number).2 hR) h.pastRow h'.pastRow h.row h'.row (t + 1) x hx]

/-- C149.  Rules with even numbers keep zeros: a cell that sees only zeros within `t` places, in the past and in the initial conditions, is 0 in
state `t`. -/
theorem C149_quiet {n R T : Nat} {p s : Nat → Nat} {cfg : Config Nat Int Int I σ κ} {res : Evolved Nat Int Int σ} (hR : R % 2 = 0)
    (h : SecondOrderCall n R T p s cfg res) (t : Nat) (ht : t < T) (x : Nat) (hx : x < n) (h1 : QuietAround n p 0 x t)
    (h2 : QuietAround n s 0 x t) : actOf cfg res t x = some 0 := by
  rw [h.act.2 t ht x hx, (ecaTwo_quiet h.cells hR t x hx h1 h2).2]
  rfl

/-- The row as a function of the cell. -/
def cellsOf (l : List Int) (x : Nat) : Nat := (l[x]?.getD 0).toNat

theorem packed_ordered : Packed 100 1152920405095219200 (cellsOf orderedRow) := by
  refine ⟨by decide, ?_⟩
  intro x hx
  have : ∀ x : Fin 100, cellsOf orderedRow x = ((1152920405095219200 : Nat).testBit x).toNat := by decide +kernel
  exact this ⟨x, hx⟩

theorem reverse_rows : ∀ x : Fin 100, cellsOf reverseRow x = ((checkpoints[13]?.getD (0, 0)).1.testBit x).toNat ∧
    cellsOf reversePast x = ((checkpoints[13]?.getD (0, 0)).2.testBit x).toNat := by decide +kernel

/-- The rows of the reverse demo are rows 1001 and 1002 of the evolution from the ordered row. -/
theorem reverse_reached (x : Nat) (hx : x < 100) :
    ecaTwo 100 122 (cellsOf orderedRow) (cellsOf orderedRow) 1001 x = cellsOf reverseRow x ∧
    ecaTwo 100 122 (cellsOf orderedRow) (cellsOf orderedRow) 1002 x = cellsOf reversePast x := by
  have h := packed_two (n := 100) (by omega) packed_ordered packed_ordered (77 * 13)
  have hc := pack_checkpoints 13 (by omega)
  rw [show checkpoints[0]?.getD (0, 0) = (1152920405095219200, 1152920405095219200) from rfl] at hc
  rw [hc] at h
  obtain ⟨h1, h2⟩ := reverse_rows ⟨x, hx⟩
  exact ⟨(h.1.2 x hx).trans h1.symm, (h.2.2 x hx).trans h2.symm⟩

theorem ordered_binary : BinaryRow 100 (cellsOf orderedRow) := by
  have : ∀ x : Fin 100, cellsOf orderedRow x < 2 := by decide +kernel
  exact fun x hx => this ⟨x, hx⟩

/-- C149.  The two demos of rule 122 (`rule122R_entropy_demo.py:9-13`, `rule122R_reverse_demo.py:9-23`).  The "carefully chosen initial
conditions" of the second are such that its 1002 states are, read backwards, the past conditions of the first, its 1000 states and one more:
state `1000 - t` of the second is state `t` of the first, its last two states are the ordered row that the first demo starts from.  All states of
both are symmetric. -/
theorem C149_demos {cfg cfg' : Config Nat Int Int I σ κ} {res res' : Evolved Nat Int Int σ}
    (h : SecondOrderCall 100 122 1000 (cellsOf orderedRow) (cellsOf orderedRow) cfg res)
    (h' : SecondOrderCall 100 122 1002 (cellsOf reversePast) (cellsOf reverseRow) cfg' res') :
    res.states.length = 1000 ∧ res'.states.length = 1002 ∧ (∀ x, x < 100 →
      (∀ t, t < 1000 → actOf cfg' res' (1000 - t) x = actOf cfg res t x) ∧
      (∀ t, t = 1000 ∨ t = 1001 → actOf cfg' res' t x = orderedRow[x]?) ∧
      (∀ t, t < 1000 → actOf cfg res t x = actOf cfg res t (99 - x)) ∧
      ∀ t, t < 1002 → actOf cfg' res' t x = actOf cfg' res' t (99 - x)) := by
  have hback : ∀ t, t ≤ 1002 → ∀ x, x < 100 → ecaTwo 100 122 (cellsOf reversePast) (cellsOf reverseRow) t x =
      ecaTwo 100 122 (cellsOf orderedRow) (cellsOf orderedRow) (1002 - t) x := by
    obtain ⟨K, hK⟩ : ∃ K, K = 1001 := ⟨1001, rfl⟩
    have h1 : ∀ x, x < 100 → cellsOf reverseRow x = ecaTwo 100 122 (cellsOf orderedRow) (cellsOf orderedRow) K x := by
      rw [hK]
      exact fun x hx => (reverse_reached x hx).1.symm
    have h0 : ∀ x, x < 100 → cellsOf reversePast x = ecaTwo 100 122 (cellsOf orderedRow) (cellsOf orderedRow) (K + 1) x := by
      rw [hK]
      exact fun x hx => (reverse_reached x hx).2.symm
    have := ecaTwo_back (n := 100) (R := 122) (by omega) ordered_binary ordered_binary K h0 h1
    rw [show K + 1 = 1002 by omega] at this
    exact this
  have hsym : ∀ t x, x < 100 → ecaTwo 100 122 (cellsOf orderedRow) (cellsOf orderedRow) t x =
      ecaTwo 100 122 (cellsOf orderedRow) (cellsOf orderedRow) t (99 - x) := by
    have hrow : ∀ x, x < 100 → cellsOf orderedRow x = cellsOf orderedRow (reflectCell 100 99 x) := by
      have : ∀ x : Fin 100, cellsOf orderedRow x = cellsOf orderedRow (reflectCell 100 99 x) := by decide +kernel
      exact fun x hx => this ⟨x, hx⟩
    intro t x hx
    have := ecaTwo_mirror (n := 100) (R := 122) (m := 99) (by omega) (by omega) (by omega) (by decide +kernel) ordered_binary ordered_binary
      hrow hrow t x hx
    rw [show reflectCell 100 99 x = 99 - x by unfold reflectCell; omega] at this
    exact this
  have hord : ∀ x, x < 100 → orderedRow[x]? = some ((cellsOf orderedRow x : Nat) : Int) := by
    have : ∀ x : Fin 100, orderedRow[x.1]? = some ((cellsOf orderedRow x : Nat) : Int) := by decide +kernel
    exact fun x hx => this ⟨x, hx⟩
  have z0 : ∀ x, ecaTwo 100 122 (cellsOf orderedRow) (cellsOf orderedRow) 0 x = cellsOf orderedRow x := fun _ => rfl
  have z1 : ∀ x, ecaTwo 100 122 (cellsOf orderedRow) (cellsOf orderedRow) 1 x = cellsOf orderedRow x := fun _ => rfl
  obtain ⟨l1, a1⟩ := h.act
  obtain ⟨l2, a2⟩ := h'.act
  generalize ecaTwo 100 122 (cellsOf orderedRow) (cellsOf orderedRow) = z at *
  generalize ecaTwo 100 122 (cellsOf reversePast) (cellsOf reverseRow) = y at *
  refine ⟨l1, l2, ?_⟩
  intro x hx
  refine ⟨?_, ?_, ?_, ?_⟩
  · intro t ht
    rw [a1 t ht x hx, a2 (1000 - t) (by omega) x hx, hback _ (by omega) x hx, show 1002 - (1000 - t + 1) = t + 1 by omega]
  · intro t ht
    rw [a2 t (by omega) x hx, hback _ (by omega) x hx, hord x hx]
    rcases ht with rfl | rfl
    · rw [show 1002 - (1000 + 1) = 1 from rfl, z1]
    · rw [show 1002 - (1001 + 1) = 0 from rfl, z0]
  · intro t ht
    rw [a1 t ht x hx, a1 t ht (99 - x) (by omega), hsym (t + 1) x hx]
  · intro t ht
    rw [a2 t ht x hx, a2 t ht (99 - x) (by omega), hback _ (by omega) x hx, hback _ (by omega) (99 - x) (by omega), hsym _ x hx]

/-! ## Examples -/

/-- The configuration of such a call. -/
def Ex.secondOrderCfg (n R T : Nat) (p : Nat → Nat) : Config Nat Int Int Int (List Int) Unit :=
  { Ex.base with
    rule := some (pureRule (reversibleRule (nksCaRule (R : Int))))
    input := .timesteps T
    past := [.list ((List.range n).map (fun x => (p x : Int)))] }

/-- There are such calls, for all rows. -/
theorem Ex.secondOrder {n R T : Nat} (hn : 3 ≤ n) (hR : R < 256) (hT : 1 ≤ T) {p s : Nat → Nat} (bp : BinaryRow n p) (bs : BinaryRow n s) :
    ∃ res, SecondOrderCall n R T p s (Ex.secondOrderCfg n R T p) res := by
  obtain ⟨N, _, hN, _⟩ := C43_left_to_right n 1 hn (by omega)
  have ho : (Ex.secondOrderCfg n R T p).Ordinary (reversibleRule (nksCaRule (R : Int))) T := ⟨rfl, rfl, rfl, rfl, rfl, rfl, rfl⟩
  obtain ⟨i1, i2⟩ := initDict_row (cfg := Ex.secondOrderCfg n R T p) rfl n s
  have hpast : ∀ x, x < n → (Conds.toDict (Ex.secondOrderCfg n R T p).natLabel (.list ((List.range n).map (fun x => (p x : Int))))).get? x =
      some (p x : Int) := (initDict_row (cfg := Ex.secondOrderCfg n R T p) rfl n p).2
  obtain ⟨res, h1, _⟩ := C113_run n R hn hR (Ex.secondOrderCfg n R T p) T hT ho rfl N hN 0 ⟨[N], []⟩ rfl p s bp bs _ rfl hpast _ i1 i2 T
    (Nat.le_refl T)
  exact ⟨res, hn, hR, hT, ho, rfl, bp, bs, ⟨_, rfl, hpast⟩, N, 0, ⟨[N], []⟩, _, T, hN, rfl, i1, i2, Nat.le_refl T, h1⟩

/-- The two demos. -/
example : (∃ res, SecondOrderCall 100 122 1000 (cellsOf orderedRow) (cellsOf orderedRow) (Ex.secondOrderCfg 100 122 1000 (cellsOf orderedRow)) res) ∧
    ∃ res, SecondOrderCall 100 122 1002 (cellsOf reversePast) (cellsOf reverseRow) (Ex.secondOrderCfg 100 122 1002 (cellsOf reversePast)) res := by
  have b : ∀ x : Fin 100, cellsOf reversePast x < 2 ∧ cellsOf reverseRow x < 2 := by decide +kernel
  exact ⟨Ex.secondOrder (by omega) (by omega) (by omega) ordered_binary ordered_binary,
    Ex.secondOrder (by omega) (by omega) (by omega) (fun x hx => (b ⟨x, hx⟩).1) (fun x hx => (b ⟨x, hx⟩).2)⟩

/-- Rule 90, three calls as in `C149_superposition`, and a row that stays quiet for two steps. -/
example : ∃ res res' res'', SecondOrderCall 9 90 5 (pointRow 4) (pointRow 4) (Ex.secondOrderCfg 9 90 5 (pointRow 4)) res ∧
    SecondOrderCall 9 90 5 (pointRow 1) (pointRow 1) (Ex.secondOrderCfg 9 90 5 (pointRow 1)) res' ∧
    SecondOrderCall 9 90 5 (fun y => (pointRow 4 y + pointRow 1 y) % 2) (fun y => (pointRow 4 y + pointRow 1 y) % 2)
      (Ex.secondOrderCfg 9 90 5 (fun y => (pointRow 4 y + pointRow 1 y) % 2)) res'' ∧
    QuietAround 9 (pointRow 4) 0 1 2 := by
  have b : ∀ k, BinaryRow 9 (pointRow k) := fun k x _ => by unfold pointRow; split <;> omega
  obtain ⟨r1, h1⟩ := Ex.secondOrder (n := 9) (R := 90) (T := 5) (by omega) (by omega) (by omega) (b 4) (b 4)
  obtain ⟨r2, h2⟩ := Ex.secondOrder (n := 9) (R := 90) (T := 5) (by omega) (by omega) (by omega) (b 1) (b 1)
  obtain ⟨r3, h3⟩ := Ex.secondOrder (n := 9) (R := 90) (T := 5) (p := fun y => (pointRow 4 y + pointRow 1 y) % 2)
    (s := fun y => (pointRow 4 y + pointRow 1 y) % 2) (by omega) (by omega) (by omega) (fun _ _ => Nat.mod_lt _ (by omega))
    (fun _ _ => Nat.mod_lt _ (by omega))
  refine ⟨r1, r2, r3, h1, h2, h3, ?_⟩
  intro j h1 h2
  have : ringCell 9 1 j ≠ 4 := by
    unfold ringCell
    omega
  unfold pointRow
  rw [if_neg this]
example : (List.range 9).map (ecaTwo 9 90 (pointRow 4) (pointRow 4) 3) = [0, 0, 1, 1, 1, 1, 1, 0, 0] ∧ mirrorRule 90 = 90 := by decide +kernel

end
end Verif
