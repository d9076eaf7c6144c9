import Mathlib.Tactic.Ring
import Mathlib.Tactic.Linarith
import Mathlib.Tactic.NormNum
import Verif.Model.Hexplot
import Verif.Proofs.Langton
import Verif.Props.Topology
/-! # Hexagonal plots: C84 -/

namespace Verif
open Spec

/-- Square of the distance of two points. -/
noncomputable def dist2 (p q : ℝ × ℝ) : ℝ := (p.1 - q.1) ^ 2 + (p.2 - q.2) ^ 2

/-- Two regular hexagons of radius 1, drawn in the same orientation with their centres in the rows of the plot, share an edge when the
centres are `√3` apart (twice the inner radius). -/
def Touch (p q : ℝ × ℝ) : Prop := dist2 p q = 3

/-! ## Distances -/

theorem dist2_even (x y x' y' : Nat) : dist2 (evenrPixel x y) (evenrPixel x' y') =
    3 / 4 * (((2 * ((x : Int) - x') - ((y % 2 : Nat) - (y' % 2 : Nat) : Int)) ^ 2 + 3 * ((y : Int) - y') ^ 2 : Int) : ℝ) := by
  have h3 : √3 ^ 2 = (3 : ℝ) := Real.sq_sqrt (by norm_num)
  unfold dist2 evenrPixel
  have : (1 * √3 * ((x : ℝ) - 0.5 * (y % 2 : Nat)) - 1 * √3 * ((x' : ℝ) - 0.5 * (y' % 2 : Nat))) ^ 2 =
      √3 ^ 2 * (((x : ℝ) - x') - ((y % 2 : Nat) - (y' % 2 : Nat)) / 2) ^ 2 := by ring
  rw [this, h3]
  generalize y % 2 = m
  generalize y' % 2 = m'
  push_cast
  ring

theorem dist2_odd (x y x' y' : Nat) : dist2 (oddrPixel x y) (oddrPixel x' y') =
    3 / 4 * (((2 * ((x : Int) - x') + ((y % 2 : Nat) - (y' % 2 : Nat) : Int)) ^ 2 + 3 * ((y : Int) - y') ^ 2 : Int) : ℝ) := by
  have h3 : √3 ^ 2 = (3 : ℝ) := Real.sq_sqrt (by norm_num)
  unfold dist2 oddrPixel
  have : (1 * √3 * ((x : ℝ) + 0.5 * (y % 2 : Nat)) - 1 * √3 * ((x' : ℝ) + 0.5 * (y' % 2 : Nat))) ^ 2 =
      √3 ^ 2 * (((x : ℝ) - x') + ((y % 2 : Nat) - (y' % 2 : Nat)) / 2) ^ 2 := by ring
  rw [this, h3]
  generalize y % 2 = m
  generalize y' % 2 = m'
  push_cast
  ring

/-- The possible distances on the hexagonal lattice. -/
theorem lattice_dist {u v : Int} (hp : u % 2 = v % 2) :
    u ^ 2 + 3 * v ^ 2 = 0 ∧ u = 0 ∧ v = 0 ∨ u ^ 2 + 3 * v ^ 2 = 4 ∧ ((v = 0 ∧ (u = 2 ∨ u = -2)) ∨ ((v = 1 ∨ v = -1) ∧ (u = 1 ∨ u = -1))) ∨
      12 ≤ u ^ 2 + 3 * v ^ 2 ∧ ¬ (u = 0 ∧ v = 0) ∧ ¬ ((v = 0 ∧ (u = 2 ∨ u = -2)) ∨ ((v = 1 ∨ v = -1) ∧ (u = 1 ∨ u = -1))) := by
  by_cases hv : -1 ≤ v ∧ v ≤ 1
  · by_cases hu : -3 < u ∧ u < 3
    · have hv' : v = -1 ∨ v = 0 ∨ v = 1 := by omega
      have hu' : u = -2 ∨ u = -1 ∨ u = 0 ∨ u = 1 ∨ u = 2 := by omega
      rcases hv' with rfl | rfl | rfl <;> rcases hu' with rfl | rfl | rfl | rfl | rfl <;> simp at hp ⊢
    · right; right
      refine ⟨?_, by omega, by omega⟩
      have h9 : 9 ≤ u ^ 2 := by
        rcases (show u ≤ -3 ∨ 3 ≤ u by omega) with h | h <;> nlinarith
      by_cases h0 : v = 0
      · subst h0
        have h16 : u ≤ -4 ∨ 4 ≤ u := by omega
        have : 16 ≤ u ^ 2 := by rcases h16 with h | h <;> nlinarith
        omega
      · have : v = 1 ∨ v = -1 := by omega
        rcases this with rfl | rfl <;> omega
  · right; right
    refine ⟨?_, by omega, by omega⟩
    have : 4 ≤ v ^ 2 := by rcases (show v ≤ -2 ∨ 2 ≤ v by omega) with h | h <;> nlinarith
    nlinarith [sq_nonneg u]

theorem three_quarters {k : Int} : (3 / 4 * (k : ℝ) = 3 ↔ k = 4) ∧ (k = 0 ∨ k = 4 ∨ 12 ≤ k → 3 / 4 * (k : ℝ) = 0 ∨ 3 / 4 * (k : ℝ) = 3 ∨
    9 ≤ 3 / 4 * (k : ℝ)) := by
  refine ⟨⟨fun h => ?_, fun h => by subst h; norm_num⟩, ?_⟩
  · have : (k : ℝ) = ((4 : Int) : ℝ) := by push_cast; linarith
    exact Int.cast_injective this
  · rintro (rfl | rfl | h)
    · left; norm_num
    · right; left; norm_num
    · right; right
      have : ((12 : Int) : ℝ) ≤ (k : ℝ) := Int.cast_le.2 h
      push_cast at this
      linarith

/-! ## C84 -/

/-- **C84.** `plot_hex_grid(trajectory, shape=(rows, cols), slice=k)` draws `rows * cols` hexagons, one for each cell; that of cell `x` of
row `y` shows the activity with number `y * cols + x` of the state that `k` addresses. -/
theorem C84_drawn {V : Type} (activities : List (List V)) (rows cols : Nat) (k : Int) (t : Nat)
    (hk : pyIndex activities.length k = some t) (hlen : ∀ row ∈ activities, row.length = rows * cols) :
    ∃ ps state, hexPatches activities (some (rows, cols)) k = .ok ps ∧ activities[t]? = some state ∧ ps.length = rows * cols ∧
      ∀ x y, x < cols → y < rows → ∃ v, state[y * cols + x]? = some v ∧
        ps[y * cols + x]? = some (hexCentre rows x y, v) := by
  have ht := pyIndex_lt hk
  have hstate := List.getElem?_eq_getElem ht
  have hl := hlen activities[t] (List.getElem_mem ht)
  generalize activities[t] = state at *
  have hgrid : hexGrid activities (some (rows, cols)) k = .ok (reshapeRow rows cols state) := by
    have hall : activities.all (fun row => decide (row.length = rows * cols)) = true := by
      rw [List.all_eq_true]
      intro row hrow
      exact decide_eq_true (hlen row hrow)
    unfold hexGrid
    simp only [hall, if_true]
    unfold pyGet
    simp only [hk, hstate]
  have hrl : (reshapeRow rows cols state).length = rows := by simp [reshapeRow]
  have hrow : ∀ y, y < rows → (reshapeRow rows cols state)[y]? = some ((state.drop (y * cols)).take cols) := by
    intro y hy
    simp [reshapeRow, hy]
  have hcl : ∀ y, y < rows → ((state.drop (y * cols)).take cols).length = cols := by
    intro y hy
    have : (y + 1) * cols ≤ rows * cols := Nat.mul_le_mul_right _ hy
    rw [Nat.succ_mul] at this
    simp
    omega
  have hsh : Shaped rows cols ((reshapeRow rows cols state).zipIdx.map
      (fun p => p.1.zipIdx.map (fun q => (q.2, p.2, q.1)))) := by
    refine ⟨by simp [hrl], ?_⟩
    intro r hr
    simp only [List.mem_map] at hr
    obtain ⟨p, hp, rfl⟩ := hr
    rw [List.mem_zipIdx_iff_getElem?] at hp
    have hy : p.2 < rows := by
      obtain ⟨h, -⟩ := List.getElem?_eq_some_iff.1 hp
      omega
    rw [hrow _ hy, Option.some.injEq] at hp
    rw [List.length_map, List.length_zipIdx, ← hp, hcl _ hy]
  obtain ⟨f1, f2⟩ := flatten_get hsh
  rw [← List.flatMap_def] at f1 f2
  refine ⟨_, state, by unfold hexPatches; rw [hgrid], hstate, by rw [List.length_map]; exact f1, ?_⟩
  intro x y hx hy
  have hlt : y * cols + x < state.length := by
    have : (y + 1) * cols ≤ rows * cols := Nat.mul_le_mul_right _ hy
    rw [Nat.succ_mul] at this
    omega
  refine ⟨state[y * cols + x], List.getElem?_eq_getElem hlt, ?_⟩
  rw [List.getElem?_map]
  have := f2 y x hy hx
  unfold hexTriples
  rw [this, hrl]
  unfold gridAt
  simp only [List.getElem?_map, List.getElem?_zipIdx, hrow y hy, Option.map_some, Option.bind_some, Nat.zero_add]
  rw [List.getElem?_take, if_pos hx, List.getElem?_drop, List.getElem?_eq_getElem hlt]
  rfl

/-- **C84.** It raises if some state has another number of cells, or if `slice` addresses no state. -/
theorem C84_raises {V : Type} (activities : List (List V)) (rows cols : Nat) (k : Int)
    (h : pyIndex activities.length k = none ∨ ∃ row ∈ activities, row.length ≠ rows * cols) :
    ∃ e, hexPatches activities (some (rows, cols)) k = .error e := by
  unfold hexPatches hexGrid
  by_cases hall : activities.all (fun row => decide (row.length = rows * cols)) = true
  · rcases h with h | ⟨row, hrow, hne⟩
    · refine ⟨.indexError, ?_⟩
      simp only [hall, if_true]
      unfold pyGet
      rw [h]
    · rw [List.all_eq_true] at hall
      exact absurd (of_decide_eq_true (hall row hrow)) hne
  · refine ⟨.valueError, ?_⟩
    simp only [hall]
    rfl

/-- The last of two states of a 2 × 2 grid. -/
example : pyIndex [[(1 : Int), 2, 3, 4], [5, 6, 7, 8]].length (-1) = some 1 ∧
    (∀ row ∈ [[(1 : Int), 2, 3, 4], [5, 6, 7, 8]], row.length = 2 * 2) := by decide
example : hexTriples (reshapeRow 2 2 [(5 : Int), 6, 7, 8]) = [(0, 0, 5), (1, 0, 6), (0, 1, 7), (1, 1, 8)] := by decide

/-- **C84.** No two hexagons overlap: the centres of different cells are at least `√3` apart, and if not `√3` then at least 3. -/
theorem C84_no_overlap (rows x y x' y' : Nat) (h : (x, y) ≠ (x', y')) :
    Touch (hexCentre rows x y) (hexCentre rows x' y') ∨ 9 ≤ dist2 (hexCentre rows x y) (hexCentre rows x' y') := by
  unfold Touch hexCentre
  have hne : ¬ (x = x' ∧ y = y') := fun hh => h (by rw [hh.1, hh.2])
  split
  · rw [dist2_odd]
    generalize hu : 2 * ((x : Int) - x') + ((y % 2 : Nat) - (y' % 2 : Nat) : Int) = u
    have := lattice_dist (u := u) (v := (y : Int) - y') (by omega)
    rcases this with ⟨e, h1, h2⟩ | ⟨e, _⟩ | ⟨e, _⟩
    · exact absurd ⟨by omega, by omega⟩ hne
    · left; exact three_quarters.1.2 e
    · right
      have : ((12 : Int) : ℝ) ≤ ((u ^ 2 + 3 * ((y : Int) - y') ^ 2 : Int) : ℝ) := Int.cast_le.2 e
      push_cast at this ⊢
      linarith
  · rw [dist2_even]
    generalize hu : 2 * ((x : Int) - x') - ((y % 2 : Nat) - (y' % 2 : Nat) : Int) = u
    have := lattice_dist (u := u) (v := (y : Int) - y') (by omega)
    rcases this with ⟨e, h1, h2⟩ | ⟨e, _⟩ | ⟨e, _⟩
    · exact absurd ⟨by omega, by omega⟩ hne
    · left; exact three_quarters.1.2 e
    · right
      have : ((12 : Int) : ℝ) ≤ ((u ^ 2 + 3 * ((y : Int) - y') ^ 2 : Int) : ℝ) := Int.cast_le.2 e
      push_cast at this ⊢
      linarith

/-- **C84** for an even number of rows: two hexagons touch exactly if the cells are neighbours in the Hex neighbourhood of radius 1, by
an offset that does not leave the grid.  Missing for the full claim: odd numbers of rows, for which it is false
(`C84_odd_rows`). -/
theorem C84_touch_partial (rows x y x' y' : Nat) (heven : rows % 2 = 0) :
    Touch (hexCentre rows x y) (hexCentre rows x' y') ↔
      (x, y) ≠ (x', y') ∧ HexOffset y 1 ((y' : Int) - y) ((x' : Int) - x) := by
  unfold Touch hexCentre
  rw [if_neg (by omega), if_neg (by omega), dist2_even, three_quarters.1, C42_hex_ring]
  generalize hu : 2 * ((x : Int) - x') - ((y % 2 : Nat) - (y' % 2 : Nat) : Int) = u
  have key : u ^ 2 + 3 * ((y : Int) - y') ^ 2 = 4 ↔ (((y : Int) - y' = 0 ∧ (u = 2 ∨ u = -2)) ∨
      (((y : Int) - y' = 1 ∨ (y : Int) - y' = -1) ∧ (u = 1 ∨ u = -1))) := by
    rcases lattice_dist (u := u) (v := (y : Int) - y') (by omega) with ⟨e, h⟩ | ⟨e, h⟩ | ⟨e, -, h⟩
    · exact ⟨fun h' => by omega, fun h' => by omega⟩
    · exact ⟨fun _ => h, fun _ => e⟩
    · exact ⟨fun h' => by omega, fun h' => absurd h' h⟩
  rw [key, Ne, Prod.mk.injEq]
  clear key
  unfold hexRing
  by_cases hy : y % 2 = 1
  · rw [if_pos hy]
    simp only [List.cons_append, List.nil_append, List.mem_cons, Prod.mk.injEq, List.not_mem_nil, or_false]
    constructor
    · rintro (⟨h1, h2⟩ | ⟨h1 | h1, h2⟩) <;> refine ⟨by omega, ?_⟩ <;> rcases h2 with h2 | h2 <;> omega
    · rintro ⟨h0, h⟩
      rcases h with h | h | h | h | h | h | h <;> omega
  · rw [if_neg hy]
    simp only [List.cons_append, List.nil_append, List.mem_cons, Prod.mk.injEq, List.not_mem_nil, or_false]
    constructor
    · rintro (⟨h1, h2⟩ | ⟨h1 | h1, h2⟩) <;> refine ⟨by omega, ?_⟩ <;> rcases h2 with h2 | h2 <;> omega
    · rintro ⟨h0, h⟩
      rcases h with h | h | h | h | h | h | h <;> omega

/-- **C84** for an even number of rows: hexagons that touch are linked in the network of `cellular_automaton2d` (radius 1, Hex). -/
theorem C84_linked_partial (rows cols x y x' y' : Nat) (heven : rows % 2 = 0) (hx : x < cols) (hy : y < rows) (hx' : x' < cols)
    (hy' : y' < rows) (M : List (List Int)) (hM : caAdjacency2d rows cols 1 "Hex" "periodic" = .ok M)
    (h : Touch (hexCentre rows x y) (hexCentre rows x' y')) :
    (M[y * cols + x]?).bind (fun row => row[y' * cols + x']?) = some 1 := by
  have h9 : 9 ≤ rows * cols := Nat.le_of_not_lt fun hlt => by
    obtain ⟨e, he⟩ := (C41_raises_iff rows cols 1 "Hex" "periodic").2 (Or.inl hlt)
    rw [he] at hM; cases hM
  obtain ⟨M', h1, h2⟩ := C41_hex rows cols 1 h9
  rw [h1] at hM; cases hM
  refine (h2.2.2 y x y' x' hy hx hy' hx').1 ⟨(y' : Int) - y, (x' : Int) - x, ((C84_touch_partial rows x y x' y' heven).1 h).2, ?_, ?_⟩
  · show ((y : Int) + (y' - y)) % rows = y'
    rw [show (y : Int) + (y' - y) = y' by omega]
    exact Int.emod_eq_of_lt (by omega) (by omega)
  · show ((x : Int) + (x' - x)) % cols = x'
    rw [show (x : Int) + (x' - x) = x' by omega]
    exact Int.emod_eq_of_lt (by omega) (by omega)

/-- **C84** is false for every odd number of rows from 3 on: `plot_hex_grid` then shifts the odd rows to the other side.  The second cell
of row 0 and the first cell of row 1 are drawn touching but are not linked; the first cell of row 0 and the second cell of row 1 are linked
but drawn 3 apart. -/
theorem C84_odd_rows (rows cols : Nat) (hodd : rows % 2 = 1) (hr : 3 ≤ rows) (hc : 3 ≤ cols) :
    ∃ M, caAdjacency2d rows cols 1 "Hex" "periodic" = .ok M ∧
      Touch (hexCentre rows 1 0) (hexCentre rows 0 1) ∧ (M[0 * cols + 1]?).bind (fun row => row[1 * cols + 0]?) = some 0 ∧
      dist2 (hexCentre rows 0 0) (hexCentre rows 1 1) = 9 ∧ (M[0 * cols + 0]?).bind (fun row => row[1 * cols + 1]?) = some 1 := by
  obtain ⟨M, h1, h2⟩ := C41_hex rows cols 1 (by
    have : 3 * 3 ≤ rows * cols := Nat.mul_le_mul hr hc
    omega)
  refine ⟨M, h1, ?_, (h2.2.2 0 1 1 0 (by omega) (by omega) (by omega) (by omega)).2 ?_, ?_,
    (h2.2.2 0 0 1 1 (by omega) (by omega) (by omega) (by omega)).1 ?_⟩
  · unfold Touch hexCentre
    rw [if_pos (by omega), if_pos (by omega), dist2_odd]
    norm_num
  · rintro ⟨dx, dy, ho, e1, e2⟩
    simp only at e1 e2
    unfold HexOffset at ho
    rw [if_neg (by decide)] at ho
    have hx : dx = 1 := by
      rcases (show dx = -1 ∨ dx = 0 ∨ dx = 1 by omega) with rfl | rfl | rfl
      · rw [← Int.add_emod_right, Int.emod_eq_of_lt (by omega) (by omega)] at e1; omega
      · simp at e1
      · rfl
    have hy : dy = -1 := by
      rcases (show dy = -1 ∨ dy = 0 ∨ dy = 1 by omega) with rfl | rfl | rfl
      · rfl
      · rw [Int.emod_eq_of_lt (by omega) (by omega)] at e2; omega
      · rw [Int.emod_eq_of_lt (by omega) (by omega)] at e2; omega
    subst hx hy
    simp at ho
  · unfold hexCentre
    rw [if_pos (by omega), if_pos (by omega), dist2_odd]
    norm_num
  · refine ⟨1, 1, by unfold HexOffset; simp, ?_, ?_⟩
    · show ((0 : Int) + 1) % rows = 1
      exact Int.emod_eq_of_lt (by omega) (by omega)
    · show ((0 : Int) + 1) % cols = 1
      exact Int.emod_eq_of_lt (by omega) (by omega)

/-- Six rows: cell 1 of row 0 touches cells 1 and 2 of row 1; cell 1 of row 1 touches cells 0 and 1 of row 2, but not cell 2. -/
example : Touch (hexCentre 6 1 0) (hexCentre 6 1 1) ∧ Touch (hexCentre 6 1 0) (hexCentre 6 2 1) ∧
    Touch (hexCentre 6 1 1) (hexCentre 6 0 2) ∧ Touch (hexCentre 6 1 1) (hexCentre 6 1 2) ∧
    ¬ Touch (hexCentre 6 1 1) (hexCentre 6 2 2) := by
  simp only [C84_touch_partial 6 _ _ _ _ (by decide), HexOffset]
  decide

end Verif
