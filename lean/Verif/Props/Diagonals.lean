import Verif.Proofs.Diagonals
import Verif.Props.Traffic
import Verif.Props.RunRows
import Verif.Props.Examples
/-! # Property C152: the edges and the diagonals of the pattern that an elementary cellular automaton grows

`ringCell n c k` is the cell `k` places to the right of cell `c` on a ring of `n` cells (`k` may be negative).  A pattern of `w` cells
begins at cell `c` and all other cells are 0; in state `t` it can have grown by `t` cells on either side. -/

namespace Verif
open Spec
section
variable {I σ κ : Type} [DecidableEq κ]

theorem onRing_lt {n : Nat} (hn : 0 < n) (c : Nat) (k : Int) : ringCell n c k < n := toNat_ring_lt hn _

/-- C152.  **Nothing outside.**  In state `t` all cells more than `t` away from the pattern are 0, if the number of the rule is even. -/
theorem C152_outside {n R T : Nat} {s : Nat → Nat} {cfg : Config Nat Int Int I σ κ} {res : Evolved Nat Int Int σ}
    (h : EcaCall n R T s cfg res) (hR : R % 2 = 0) {c w : Nat} (h0 : ∀ k : Nat, w ≤ k → k < n → s (ringCell n c k) = 0)
    {t : Nat} (ht : t < T) {k : Nat} (h1 : w + t ≤ k) (h2 : k + t < n) : actOf cfg res t (ringCell n c k) = some 0 := by
  have hn : 0 < n := by omega
  have e : eca n R s t (ringCell n c k) = lineEca R (unrolled n s) t (c + k) := unrolled_run hn R s t (c + k)
  rw [h.act t ht _ (onRing_lt hn _ _), e, line_congr (s' := fun _ => 0) t _ (fun y hy1 hy2 => ?_),
    line_left (c := (c : Int) + k + t + 1) hR (fun _ _ => rfl) t _ (by omega)]
  · rfl
  · rw [← h0 (y - c).toNat (by omega) (by omega)]
    unfold unrolled ringCell
    congr 3
    omega

/-- C152.  **The edges.**  The leftmost cell that can be reached is 1 in all states from number 1 on, if the rule maps the neighbourhood
001 to 1, and it is 0 in all of them otherwise; the rightmost likewise with the neighbourhood 100. -/
theorem C152_edges {n R T : Nat} {s : Nat → Nat} {cfg : Config Nat Int Int I σ κ} {res : Evolved Nat Int Int σ}
    (h : EcaCall n R T s cfg res) (hR : R % 2 = 0) {c w : Nat} (hw : 0 < w) (h0 : ∀ k : Nat, w ≤ k → k < n → s (ringCell n c k) = 0)
    {t : Nat} (ht : t < T) (h1 : 1 ≤ t) (hn : w + 2 * t ≤ n) :
    (s (ringCell n c 0) = 1 → actOf cfg res t (ringCell n c (-t)) = some ((R / 2 ^ 1 % 2 : Nat) : Int)) ∧
    (s (ringCell n c (w - 1)) = 1 → actOf cfg res t (ringCell n c (w - 1 + t)) = some ((R / 2 ^ 4 % 2 : Nat) : Int)) := by
  have hn0 : 0 < n := by omega
  refine ⟨fun hc => ?_, fun hc => ?_⟩
  · rw [h.act t ht _ (onRing_lt hn0 _ _), ring_cutOut hw h0 hn (by omega) (by omega),
      show (c : Int) + -(t : Int) = c - t by omega, line_edge hR cutOut_left (by
        rw [cutOut, if_pos (by omega), ← hc]
        unfold unrolled ringCell
        congr 3), if_neg (by omega)]
  · rw [h.act t ht _ (onRing_lt hn0 _ _), ring_cutOut hw h0 hn (by omega) (by omega),
      show (c : Int) + ((w : Int) - 1 + t) = (c + w - 1) + t by omega, line_edge_right hR h.number (cutOut_lt hn0 h.row) cutOut_right (by
        rw [cutOut, if_pos (by omega), ← hc]
        unfold unrolled ringCell
        congr 3
        omega), if_neg (by omega)]

/-- C152.  **The diagonals.**  Whatever the rule with an even number and whatever the pattern: the cells that are `k` places inside the
left edge repeat with period `2 ^ k` from state number `2 ^ k` on, as long as the two edges have not met on the ring; and so do the cells
`k` places inside the right edge. -/
theorem C152_diagonals {n R T : Nat} {s : Nat → Nat} {cfg : Config Nat Int Int I σ κ} {res : Evolved Nat Int Int σ}
    (h : EcaCall n R T s cfg res) (hR : R % 2 = 0) {c w : Nat} (hw : 0 < w) (h0 : ∀ k : Nat, w ≤ k → k < n → s (ringCell n c k) = 0)
    (k : Nat) {t t' : Nat} (hp : t' = t + 2 ^ k) (hk : 2 ^ k ≤ t) (ht : t' < T) (hn : w + 2 * t' ≤ n) :
    actOf cfg res t' (ringCell n c (k - t')) = actOf cfg res t (ringCell n c (k - t)) ∧
    actOf cfg res t' (ringCell n c (w - 1 + t' - k)) = actOf cfg res t (ringCell n c (w - 1 + t - k)) := by
  have hn0 : 0 < n := by omega
  have hkt : k < 2 ^ k := Nat.lt_two_pow_self
  constructor
  · have := line_diagonals hR (cutOut_lt (c := c) (w := w) hn0 h.row) cutOut_left k k (Int.le_refl _) t hk
    rw [h.act t' ht _ (onRing_lt hn0 _ _), h.act t (by omega) _ (onRing_lt hn0 _ _),
      ring_cutOut hw h0 hn (by omega) (by omega), ring_cutOut hw h0 (by omega) (by omega) (by omega),
      show (c : Int) + ((k : Int) - t') = c - t' + k by omega, show (c : Int) + ((k : Int) - t) = c - t + k by omega, hp, this]
  · have := line_diagonals_right hR h.number (cutOut_lt (c := c) (w := w) hn0 h.row) cutOut_right k t hk
    rw [h.act t' ht _ (onRing_lt hn0 _ _), h.act t (by omega) _ (onRing_lt hn0 _ _),
      ring_cutOut hw h0 hn (by omega) (by omega), ring_cutOut hw h0 (by omega) (by omega) (by omega),
      show (c : Int) + ((w : Int) - 1 + t' - k) = (c + w - 1) + t' - k by omega,
      show (c : Int) + ((w : Int) - 1 + t - k) = (c + w - 1) + t - k by omega, hp, this]

/-- C152.  **Pascal's triangle.**  From a single cell in state 1, rule 90 shows the binomial coefficients modulo 2, with a 0 between any
two of them, and rule 60 shows them side by side. -/
theorem C152_pascal {n R T : Nat} {s : Nat → Nat} {cfg : Config Nat Int Int I σ κ} {res : Evolved Nat Int Int σ}
    (h : EcaCall n R T s cfg res) {c : Nat} (h0 : ∀ k : Nat, 1 ≤ k → k < n → s (ringCell n c k) = 0) (hc : s (ringCell n c 0) = 1)
    {t : Nat} (ht : t < T) (hn : 1 + 2 * t ≤ n) {k : Nat} (hk : k ≤ t) :
    (R = 90 → actOf cfg res t (ringCell n c (2 * k - t)) = some ((pascal t k % 2 : Nat) : Int) ∧
      (k < t → actOf cfg res t (ringCell n c (2 * k + 1 - t)) = some 0)) ∧
    (R = 60 → actOf cfg res t (ringCell n c k) = some ((pascal t k % 2 : Nat) : Int)) := by
  have hn0 : 0 < n := by omega
  have z : ∀ x, x ≠ (c : Int) → cutOut n c 1 s x = 0 := fun x hx => if_neg (by omega)
  have o : cutOut n c 1 s c = 1 := by
    rw [cutOut, if_pos (by omega), ← hc]
    unfold unrolled ringCell
    congr 3
  refine ⟨fun e => ?_, fun e => ?_⟩
  · subst e
    have p := line_pascal90 z o t k
    refine ⟨?_, fun hk' => ?_⟩
    · rw [h.act t ht _ (onRing_lt hn0 _ _), ring_cutOut (by decide) h0 hn (by omega) (by omega),
        show (c : Int) + (2 * (k : Int) - t) = c - t + 2 * k by omega, p.1]
    · rw [h.act t ht _ (onRing_lt hn0 _ _), ring_cutOut (by decide) h0 hn (by omega) (by omega),
        show (c : Int) + (2 * (k : Int) + 1 - t) = c - t + 2 * k + 1 by omega, p.2]
      rfl
  · subst e
    rw [h.act t ht _ (onRing_lt hn0 _ _), ring_cutOut (by decide) h0 hn (by omega) (by omega), (line_pascal60 z o t).1 k]

/-- **C152, the demo** (`elementary_ca_demo.py:6-12`).  Rule 30 from cell 100 of 200 cells: in each of the 100 states the cells `100 - t`
and `100 + t` are 1 and everything outside is 0.  From state number 2 on, the cell next to the left edge is 1, the next is 0 and the next is
0 and 1 in turn. -/
theorem C152_demo {s : Nat → Nat} {cfg : Config Nat Int Int I σ κ} {res : Evolved Nat Int Int σ}
    (h : EcaCall 200 30 100 s cfg res) (hs : ∀ x, x < 200 → s x = if x = 100 then 1 else 0) {t : Nat} (ht : t < 100) :
    actOf cfg res t (100 - t) = some 1 ∧ actOf cfg res t (100 + t) = some 1 ∧
    (∀ x, x < 200 → (x + t < 100 ∨ 100 + t < x) → actOf cfg res t x = some 0) ∧
    (2 ≤ t → actOf cfg res t (101 - t) = some 1 ∧ actOf cfg res t (102 - t) = some 0 ∧
      actOf cfg res t (103 - t) = some ((t % 2 : Nat) : Int)) := by
  have rc : ∀ (k : Int) (x : Nat), x < 200 → (100 + k = x ∨ 100 + k = x + 200) → ringCell 200 100 k = x := by
    intro k x hx e
    unfold ringCell
    omega
  have h0 : ∀ k : Nat, 1 ≤ k → k < 200 → s (ringCell 200 100 k) = 0 := by
    intro k h1 h2
    have hl : ringCell 200 100 k < 200 := toNat_ring_lt (by decide) _
    rw [hs _ hl, if_neg]
    unfold ringCell
    omega
  have hc : s (ringCell 200 100 0) = 1 := by rw [rc 0 100 (by decide) (by decide), hs _ (by decide)]; rfl
  have edge := fun h1 => C152_edges h (by decide) (by decide) h0 ht h1 (by omega)
  refine ⟨?_, ?_, ?_, ?_⟩
  · by_cases h1 : 1 ≤ t
    · have := (edge h1).1 hc
      rw [rc _ (100 - t) (by omega) (by omega)] at this
      exact this
    · rw [h.act t ht _ (by omega), show t = 0 by omega]
      show some ((s 100 : Nat) : Int) = _
      rw [hs 100 (by decide)]; rfl
  · by_cases h1 : 1 ≤ t
    · have := (edge h1).2 (by simpa using hc)
      rw [rc _ (100 + t) (by omega) (by omega)] at this
      exact this
    · rw [h.act t ht _ (by omega), show t = 0 by omega]
      show some ((s 100 : Nat) : Int) = _
      rw [hs 100 (by decide)]; rfl
  · intro x hx hxt
    rcases hxt with hxt | hxt
    · have := C152_outside h (by decide) (c := 100) (w := 1) h0 ht (k := x + 100) (by omega) (by omega)
      rw [rc _ x hx (by omega)] at this
      exact this
    · have := C152_outside h (by decide) (c := 100) (w := 1) h0 ht (k := x - 100) (by omega) (by omega)
      rw [rc _ x hx (by omega)] at this
      exact this
  · intro h2
    have z : ∀ x, x ≠ ((100 : Nat) : Int) → cutOut 200 100 1 s x = 0 := fun x hx => if_neg (by omega)
    have o : cutOut 200 100 1 s (100 : Nat) = 1 := by
      rw [cutOut, if_pos (by omega), ← hc]
      rfl
    obtain ⟨t', rfl⟩ : ∃ t', t = t' + 2 := ⟨t - 2, by omega⟩
    obtain ⟨_, l1, l2, l3⟩ := line_rule30 z o t'
    have at' : ∀ (k : Int) (x : Nat), x < 200 → 100 + k = x → -((t' + 2 : Nat) : Int) ≤ k → k < 1 + (t' + 2 : Nat) →
        actOf cfg res (t' + 2) x = some (lineEca 30 (cutOut 200 100 1 s) (t' + 2) ((100 : Nat) + k) : Int) := by
      intro k x hx e k1 k2
      rw [h.act _ ht _ hx, ← ring_cutOut (by decide) h0 (by omega) k1 k2, rc k x hx (by omega)]
    refine ⟨?_, ?_, ?_⟩
    · rw [at' (-((t' + 2 : Nat) : Int) + 1) _ (by omega) (by omega) (by omega) (by omega), ← Int.add_assoc, ← Int.sub_eq_add_neg, l1]; rfl
    · rw [at' (-((t' + 2 : Nat) : Int) + 2) _ (by omega) (by omega) (by omega) (by omega), ← Int.add_assoc, ← Int.sub_eq_add_neg, l2]; rfl
    · rw [at' (-((t' + 2 : Nat) : Int) + 3) _ (by omega) (by omega) (by omega) (by omega), ← Int.add_assoc, ← Int.sub_eq_add_neg, l3]
      rw [show (t' + 2) % 2 = t' % 2 by omega]

end

/-- The options of the demo (`elementary_ca_demo.py:10-12`). -/
def Ex.elementaryDemo : Config Nat Int Int Int (List Int) Unit :=
  { Ex.base with
    rule := some (pureRule (nksCaRule 30))
    input := .timesteps 100
    memoize := true }

/-- The call of the demo. -/
example : ∃ res, EcaCall 200 30 100 (fun x => if x = 100 then 1 else 0) Ex.elementaryDemo res := by
  obtain ⟨N, _, hN, _⟩ := C43_left_to_right 200 1 (by omega) (by omega)
  have hl := initDict_list (cfg := Ex.elementaryDemo) rfl ((List.range 200).map (fun x => ((if x = 100 then 1 else 0 : Nat) : Int)))
  have hb : BinaryRow 200 (fun x => if x = 100 then 1 else 0) := fun x _ => by show (if x = 100 then 1 else 0) < 2; split <;> decide
  have h1 : (initDict Ex.elementaryDemo (some (.list ((List.range 200).map (fun x => ((if x = 100 then 1 else 0 : Nat) : Int)))))).length
      = 200 := by
    rw [hl.1]; simp
  have h2 : ∀ x, x < 200 → (initDict Ex.elementaryDemo
      (some (.list ((List.range 200).map (fun x => ((if x = 100 then 1 else 0 : Nat) : Int)))))).get? x
        = some ((if x = 100 then 1 else 0 : Nat) : Int) := by
    intro x hx
    rw [hl.2.2 x (by simpa using hx), List.getElem?_map, List.getElem?_range hx]
    rfl
  obtain ⟨res, e1, _⟩ := C46_elementary_ca 200 30 (by omega) (by omega)
    Ex.elementaryDemo 100 (by omega)
    ⟨rfl, rfl, rfl, rfl, rfl, rfl, rfl⟩ N hN 0 ⟨[N], []⟩ rfl (some (.list ((List.range 200).map (fun x => ((if x = 100 then 1 else 0 : Nat) : Int)))))
    (fun x => if x = 100 then 1 else 0) hb h1 h2 100 (by omega)
  exact ⟨res, by decide, by decide, by decide, ⟨rfl, rfl, rfl, rfl, rfl, rfl, rfl⟩, hb,
    N, 0, ⟨[N], []⟩, some (.list ((List.range 200).map (fun x => ((if x = 100 then 1 else 0 : Nat) : Int)))), 100, hN, rfl, h1, h2, Nat.le_refl _, e1⟩

/-- Row 7 of the triangle is odd throughout, row 8 only at its ends. -/
example : (List.range 8).map (fun k => pascal 7 k % 2) = [1, 1, 1, 1, 1, 1, 1, 1] ∧
    (List.range 9).map (fun k => pascal 8 k % 2) = [1, 0, 0, 0, 0, 0, 0, 0, 1] := by decide

/-- A pattern that crosses the end of the row: cells 6, 7 and 0 of 8 cells. -/
example : ∀ k : Fin 8, 3 ≤ k.1 → (fun x => if x = 6 ∨ x = 0 then 1 else 0 : Nat → Nat) (ringCell 8 6 k.1) = 0 := by decide

end Verif
