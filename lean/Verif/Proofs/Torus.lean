import Verif.Props.EndToEnd
import Verif.Spec.Sandpile
/-! # Neighbourhoods on the torus -/

namespace Verif
open Spec

/-- `step_mod` with exact offsets, for any positive size. -/
theorem shift_mod {n a : Nat} (ha : a < n) :
    ((a : Int) + -1) % (n : Int) = (((a + n - 1) % n : Nat) : Int) ∧ ((a : Int) + 0) % (n : Int) = (a : Int) ∧
      ((a : Int) + 1) % (n : Int) = (((a + 1) % n : Nat) : Int) := by
  refine ⟨?_, ?_, ?_⟩
  · rw [Int.natCast_emod, ← Int.add_emod_right]
    congr 1
    omega
  · rw [Int.add_zero, Int.emod_eq_of_lt (by omega) (by omega)]
  · rw [Int.natCast_emod]; rfl

theorem cross_lt {rows cols a b : Nat} (ha : a < rows) (hb : b < cols) :
    ∀ p ∈ (a, b) :: cross rows cols a b, p.1 < rows ∧ p.2 < cols := by
  have h1 := Nat.mod_lt (a + rows - 1) (by omega : rows > 0)
  have h2 := Nat.mod_lt (a + 1) (by omega : rows > 0)
  have h3 := Nat.mod_lt (b + cols - 1) (by omega : cols > 0)
  have h4 := Nat.mod_lt (b + 1) (by omega : cols > 0)
  intro p hp
  simp only [cross, List.mem_cons, List.not_mem_nil, or_false] at hp
  rcases hp with rfl | rfl | rfl | rfl | rfl <;> exact ⟨by assumption, by assumption⟩

theorem cross_nodup {rows cols a b : Nat} (hr : 3 ≤ rows) (hc : 3 ≤ cols) (ha : a < rows) (hb : b < cols) :
    ((a, b) :: cross rows cols a b).Nodup := by
  obtain ⟨h1, h2, h3⟩ := mod_distinct ha hr
  obtain ⟨k1, k2, k3⟩ := mod_distinct hb hc
  unfold cross
  simp only [List.nodup_cons, List.mem_cons, List.not_mem_nil, Prod.mk.injEq, or_false, not_or, List.nodup_nil, and_true]
  simp [h1, h2, h3, k1, k2, k3, h1.symm, h2.symm, h3.symm, k1.symm, k2.symm, k3.symm]

theorem von_neumann_one {rows cols a b c d : Nat} (ha : a < rows) (hb : b < cols) :
    TorusReach rows cols (VonNeumannOffset 1) (a, b) (c, d) ↔ (c, d) ∈ (a, b) :: cross rows cols a b := by
  obtain ⟨p1, p2, p3⟩ := shift_mod ha
  obtain ⟨q1, q2, q3⟩ := shift_mod hb
  simp only [cross, List.mem_cons, List.not_mem_nil, or_false, Prod.mk.injEq]
  constructor
  · rintro ⟨x, y, h, hx, hy⟩
    have h' : x.natAbs + y.natAbs ≤ 1 := h
    have : (x = 0 ∧ y = 0) ∨ (x = -1 ∧ y = 0) ∨ (x = 0 ∧ y = 1) ∨ (x = 1 ∧ y = 0) ∨ (x = 0 ∧ y = -1) := by omega
    rcases this with ⟨rfl, rfl⟩ | ⟨rfl, rfl⟩ | ⟨rfl, rfl⟩ | ⟨rfl, rfl⟩ | ⟨rfl, rfl⟩ <;>
      simp only [p1, p2, p3, q1, q2, q3] at hx hy <;>
      have := Int.ofNat.inj hx <;> have := Int.ofNat.inj hy <;> subst_vars <;> simp
  · rintro (⟨rfl, rfl⟩ | ⟨rfl, rfl⟩ | ⟨rfl, rfl⟩ | ⟨rfl, rfl⟩ | ⟨rfl, rfl⟩)
    · exact ⟨0, 0, by unfold VonNeumannOffset; decide, p2, q2⟩
    · exact ⟨-1, 0, by unfold VonNeumannOffset; decide, p1, q2⟩
    · exact ⟨0, 1, by unfold VonNeumannOffset; decide, p2, q3⟩
    · exact ⟨1, 0, by unfold VonNeumannOffset; decide, p3, q2⟩
    · exact ⟨0, -1, by unfold VonNeumannOffset; decide, p2, q1⟩

/-- The columns with an entry in a row of a grid matrix. -/
theorem grid_mem {M : List (List Int)} {rows cols : Nat} {P : Int → Int → Prop}
    (hM : GridMatrix rows cols (fun _ => P) M) {a b : Nat} (ha : a < rows) (hb : b < cols) {cells : List (Nat × Nat)}
    (hlt : ∀ p ∈ cells, p.1 < rows ∧ p.2 < cols)
    (hcells : ∀ c d, c < rows → d < cols → (TorusReach rows cols P (a, b) (c, d) ↔ (c, d) ∈ cells)) (y : Nat) :
    (∃ v, v ≠ 0 ∧ entry M (a * cols + b) y = some v) ↔ y ∈ cells.map (fun p => p.1 * cols + p.2) := by
  constructor
  · rintro ⟨v, hv, he⟩
    have hy : y < rows * cols := by
      unfold entry at he
      cases hrow : M[a * cols + b]? with
      | none => rw [hrow] at he; cases he
      | some row =>
        rw [hrow] at he
        have := (List.getElem?_eq_some_iff.1 he).1
        rw [hM.2.1 row (List.mem_of_getElem? hrow)] at this
        exact this
    obtain ⟨h1, h2, h3⟩ := split_label hy
    have g := hM.2.2 a b (y / cols) (y % cols) ha hb h1 h2
    rw [h3] at g
    have ht : TorusReach rows cols P (a, b) (y / cols, y % cols) := by
      apply Classical.byContradiction
      intro hn
      have := g.2 hn
      unfold entry at he
      rw [this] at he
      exact hv (Option.some.inj he).symm
    rw [hcells _ _ h1 h2] at ht
    exact List.mem_map.2 ⟨_, ht, h3⟩
  · intro hy
    obtain ⟨p, hp, rfl⟩ := List.mem_map.1 hy
    obtain ⟨p1, p2⟩ := hlt p hp
    exact ⟨1, by decide, (hM.2.2 a b p.1 p.2 ha hb p1 p2).1 ((hcells p.1 p.2 p1 p2).2 hp)⟩

theorem labels_nodup {rows cols : Nat} {cells : List (Nat × Nat)} (hlt : ∀ p ∈ cells, p.1 < rows ∧ p.2 < cols)
    (hnd : cells.Nodup) : (cells.map (fun p => p.1 * cols + p.2)).Nodup := by
  rw [List.Nodup, List.pairwise_map]
  refine List.Pairwise.imp_of_mem ?_ hnd
  intro p q hp hq hne heq
  obtain ⟨k1, k2⟩ := label_inj (hlt p hp).2 (hlt q hq).2 heq
  exact hne (Prod.ext k1 k2)

/-- Coordinates of a label. -/
theorem label_div {cols a b : Nat} (hb : b < cols) : (a * cols + b) / cols = a ∧ (a * cols + b) % cols = b := by
  constructor
  · rw [Nat.mul_comm, Nat.mul_add_div (by omega), Nat.div_eq_of_lt hb, Nat.add_zero]
  · rw [Nat.mul_comm, Nat.mul_add_mod, Nat.mod_eq_of_lt hb]

/-- The ordered von Neumann network of radius 1: each node is in the middle of its neighbour list, which holds the node
and its four neighbours. -/
theorem von_neumann_network {rows cols : Nat} (hr : 3 ≤ rows) (hc : 3 ≤ cols) :
    ∃ N rs, cellularAutomaton2d rows cols 1 "von Neumann" true = .ok N ∧ N.rotation = some rs ∧
      N.labels.Perm (List.range (rows * cols)) ∧ ∀ x, x < rows * cols → ∃ l, rs.get? x = some l ∧
        l[l.length / 2]? = some x ∧ l.Nodup ∧
        l.Perm (((x / cols, x % cols) :: cross rows cols (x / cols) (x % cols)).map (fun p => p.1 * cols + p.2)) := by
  have h9 : 9 ≤ rows * cols := Nat.mul_le_mul hr hc
  obtain ⟨M, m1, m2⟩ := C41_von_neumann rows cols 1 h9
  have hsym := C42_von_neumann rows cols 1 M m1
  have hd : ∀ x, x < rows * cols → entry M x x = some 1 := by
    intro x hx
    obtain ⟨ha, hb, hab⟩ := split_label hx
    have := (m2.2.2 _ _ _ _ ha hb ha hb).1 ((von_neumann_one ha hb).2 (List.mem_cons_self ..))
    rw [hab] at this
    exact this
  obtain ⟨N, rs, e1, e2, e3, e4⟩ := ordered_symmetric ⟨m2.1, m2.2.1⟩ hd hsym
  refine ⟨N, rs, ?_, e2, e3, ?_⟩
  · unfold cellularAutomaton2d
    rw [m1]
    simpa using e1
  · intro x hx
    obtain ⟨l, l1, l2, l3, l4⟩ := e4 x hx
    obtain ⟨ha, hb, hab⟩ := split_label hx
    refine ⟨l, l1, l3, l2, (List.perm_ext_iff_of_nodup l2 (labels_nodup (cross_lt ha hb) (cross_nodup hr hc ha hb))).2 ?_⟩
    intro y
    rw [l4, ← grid_mem m2 ha hb (cross_lt ha hb) (fun c d _ _ => von_neumann_one ha hb) y, hab]

end Verif
