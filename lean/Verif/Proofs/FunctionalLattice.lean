import Verif.Proofs.Functional
import Verif.Props.Lattice
/-! # Distances in lattices -/

namespace Verif
open Spec MG

theorem coordSum_nil (x : Nat) : coordSum [] x = 0 := rfl

theorem coordSum_append {pre : List Nat} {d x : Nat} (hx : x < gridCells (pre ++ [d])) :
    coordSum (pre ++ [d]) x = coordSum pre (x % gridCells pre) + x / gridCells pre := by
  unfold coordSum
  rw [List.length_append, List.length_singleton, List.range_succ, List.map_append, List.sum_append, List.map_singleton, List.sum_singleton,
    coord_append_top hx]
  congr 2
  apply List.map_congr_left
  intro i hi
  rw [List.mem_range] at hi
  exact coord_append_low hi

theorem gridCells_pre {pre : List Nat} {d x : Nat} (hx : x < gridCells (pre ++ [d])) : 0 < gridCells pre := by
  rcases Nat.eq_zero_or_pos (gridCells pre) with h0 | h0
  · rw [gridCells_append, h0] at hx; simp at hx
  · exact h0

theorem snoc_induction {P : List Nat → Prop} (h0 : P []) (hs : ∀ pre d, P pre → P (pre ++ [d])) (l : List Nat) : P l := by
  have : ∀ l : List Nat, P l.reverse := by
    intro l
    induction l with
    | nil => exact h0
    | cons a l ih => rw [List.reverse_cons]; exact hs _ _ ih
  have k := this l.reverse
  rwa [List.reverse_reverse] at k

/-- A link changes the distance by one. -/
theorem coordSum_link (dim : List Nat) : ∀ {x y : Nat}, GridLink false dim x y → coordSum dim x + 1 = coordSum dim y ∨ coordSum dim y + 1 = coordSum dim x := by
  induction dim using snoc_induction with
  | h0 =>
    rintro x y ⟨_, _, i, hi, _⟩
    simp at hi
  | hs pre d ih =>
    intro x y h
    have hx := h.1
    have hy := h.2.1
    have hp := gridCells_pre hx
    rw [coordSum_append hx, coordSum_append hy]
    obtain ⟨_, _, ⟨h1, h2⟩ | ⟨h1, h2⟩⟩ := (gridLink_append hp).1 h
    · rw [h1]
      rcases h2 with q | q | ⟨q, _⟩
      · omega
      · omega
      · cases q
    · rw [h1]
      rcases ih h2 with q | q <;> omega

/-- A node away from node 0 has a neighbour that is nearer. -/
theorem coordSum_descend (dim : List Nat) : ∀ {x : Nat}, x < gridCells dim → 0 < coordSum dim x →
    ∃ y, GridLink false dim y x ∧ coordSum dim y + 1 = coordSum dim x := by
  induction dim using snoc_induction with
  | h0 => intro x _ h; rw [coordSum_nil] at h; omega
  | hs pre d ih =>
    intro x hx h
    have hp := gridCells_pre hx
    have hxd : x / gridCells pre < d := by
      rw [gridCells_append, gridCells_singleton] at hx
      exact Nat.div_lt_of_lt_mul hx
    rw [coordSum_append hx] at h ⊢
    have hm := Nat.mod_lt x hp
    by_cases c : 0 < coordSum pre (x % gridCells pre)
    · obtain ⟨y, k1, k2⟩ := ih hm c
      obtain ⟨q1, q2⟩ := div_mod_of (u := x / gridCells pre) k1.1
      have hl : GridLink false (pre ++ [d]) (x / gridCells pre * gridCells pre + y) x := by
        rw [gridLink_append hp, q1, q2]
        exact ⟨hxd, hxd, Or.inr ⟨rfl, k1⟩⟩
      refine ⟨_, hl, ?_⟩
      rw [coordSum_append hl.1, q1, q2]
      omega
    · obtain ⟨q1, q2⟩ := div_mod_of (u := x / gridCells pre - 1) hm
      have hl : GridLink false (pre ++ [d]) ((x / gridCells pre - 1) * gridCells pre + x % gridCells pre) x := by
        rw [gridLink_append hp, q1, q2]
        exact ⟨by omega, hxd, Or.inl ⟨rfl, Or.inl (by omega)⟩⟩
      refine ⟨_, hl, ?_⟩
      rw [coordSum_append hl.1, q1, q2]
      omega

theorem coordSum_zero {dim : List Nat} (x : Nat) (hx : x < gridCells dim) (h : coordSum dim x = 0) : x = 0 := by
  apply coord_inj hx (by omega)
  intro j hj
  have h0 : coord dim j 0 = 0 := by unfold coord; simp
  rw [h0]
  have hm : coord dim j x ∈ (List.range dim.length).map (fun i => coord dim i x) := List.mem_map.2 ⟨j, List.mem_range.2 hj, rfl⟩
  have := List.sum_eq_zero_iff_forall_eq_nat.1 h
  exact this _ hm

theorem coordSum_origin (dim : List Nat) : coordSum dim 0 = 0 := by
  unfold coordSum
  rw [List.sum_eq_zero_iff_forall_eq_nat]
  intro v hv
  rw [List.mem_map] at hv
  obtain ⟨i, _, rfl⟩ := hv
  unfold coord
  simp

/-- Every node of a lattice with at least two nodes has a neighbour. -/
theorem gridLink_exists {dim : List Nat} (h2 : 2 ≤ gridCells dim) {x : Nat} (hx : x < gridCells dim) : ∃ y, GridLink false dim x y := by
  by_cases c : 0 < coordSum dim x
  · obtain ⟨y, h, _⟩ := coordSum_descend dim hx c
    exact ⟨y, gridLink_symm h⟩
  · have hx0 := coordSum_zero x hx (by omega)
    subst hx0
    have key : ∀ s z, z < gridCells dim → coordSum dim z = s + 1 → ∃ y, GridLink false dim 0 y := by
      intro s
      induction s with
      | zero =>
        intro z hz hs
        obtain ⟨y, h, hy⟩ := coordSum_descend dim hz (by omega)
        have : y = 0 := coordSum_zero y h.1 (by omega)
        subst this
        exact ⟨z, h⟩
      | succ s ih =>
        intro z hz hs
        obtain ⟨y, h, hy⟩ := coordSum_descend dim hz (by omega)
        exact ih y h.1 (by omega)
    have h1 : coordSum dim 1 ≠ 0 := by
      intro h
      have := coordSum_zero 1 (by omega) h
      omega
    exact key (coordSum dim 1 - 1) 1 (by omega) (by omega)

/-- The nodes that node 0 reaches within `t` steps. -/
theorem within_lattice {A : Type} {dim : List Nat} {N : Net Int A} {S : Int → Prop}
    (hS : ∀ x : Nat, S x ↔ x = 0) (hlink : ∀ x y : Nat, parallel N x y ≠ [] ↔ GridLink false dim x y)
    (hnat : ∀ a b : Int, parallel N a b ≠ [] → 0 ≤ a) :
    ∀ (t x : Nat), x < gridCells dim → (Within N S t x ↔ coordSum dim x ≤ t) := by
  intro t
  induction t with
  | zero =>
    intro x hx
    constructor
    · intro h
      rw [(hS x).1 (within_zero h), coordSum_origin]
      omega
    · intro h
      exact Within.start ((hS x).2 (coordSum_zero x hx (by omega)))
  | succ t ih =>
    intro x hx
    constructor
    · intro h
      rcases within_succ h with k | ⟨a, k1, k2⟩
      · have := (ih x hx).1 k
        omega
      · obtain ⟨y, rfl⟩ := Int.eq_ofNat_of_zero_le (hnat _ _ k2)
        have hl := (hlink y x).1 k2
        have := (ih y hl.1).1 k1
        rcases coordSum_link dim hl with q | q <;> omega
    · intro h
      by_cases c : coordSum dim x ≤ t
      · exact ((ih x hx).2 c).mono (by omega)
      · obtain ⟨y, h1, h2⟩ := coordSum_descend dim hx (by omega)
        exact Within.step ((ih y h1.1).2 (by omega)) ((hlink y x).2 h1)

end Verif
