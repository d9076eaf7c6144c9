import Verif.Proofs.Rotation
/-! # Lemmas on the networks of the 1D and 2D cellular automata -/

namespace Verif

open Spec MG

theorem circDist_self (n i : Nat) : circDist n i i = 0 := by unfold circDist; omega

theorem circDist_comm (n i j : Nat) : circDist n i j = circDist n j i := by unfold circDist; omega

theorem entry_lt {W : Type} {M : List (List W)} {n a b : Nat} {v : W} (hM : Square M n) (h : entry M a b = some v) :
    a < n ∧ b < n := by
  simp only [entry] at h
  cases hr : M[a]? with
  | none => simp [hr] at h
  | some row =>
    simp only [hr, Option.bind_some] at h
    have h1 := List.getElem?_eq_some_iff.1 hr
    have h2 := List.getElem?_eq_some_iff.1 h
    have h3 := hM.2 row (h1.2 ▸ List.getElem_mem h1.1)
    have h4 := h1.1
    rw [hM.1] at h4
    exact ⟨h4, by rw [← h3]; exact h2.1⟩

theorem entry_none {W : Type} {M : List (List W)} {n a b : Nat} (hM : Square M n) (h : ¬ (a < n ∧ b < n)) :
    entry M a b = none := by
  cases he : entry M a b with
  | none => rfl
  | some v => exact absurd (entry_lt hM he) h

/-- A matrix with a full diagonal: the nodes are all indices. -/
theorem mem_labels_diag {M : List (List Int)} {n : Nat} (hM : Square M n) (hd : ∀ x, x < n → entry M x x = some 1)
    (x : Nat) : x ∈ (adjMG M).labels ↔ x < n := by
  rw [mem_adjMG_labels]
  constructor
  · rintro ⟨y, v, _, h | h⟩
    · exact (entry_lt hM h).1
    · exact (entry_lt hM h).2
  · intro hx; exact ⟨x, 1, by decide, Or.inl (hd x hx)⟩

/-- What ordering gives for a square matrix with a full diagonal. -/
theorem ordered_diag {M : List (List Int)} {n : Nat} (hM : Square M n) (hd : ∀ x, x < n → entry M x x = some 1) :
    orderNetwork (fromAdjacencyMatrix M) = .ok { fromAdjacencyMatrix M with
        rotation := some ((fromAdjacencyMatrix M).labels.map (fun x => (x, rotEntry M x))) } ∧
    ∀ x, x < n → shiftToCenter (sources (adjMG M).edges x) x = .ok (rotEntry M x) := by
  have hl : (fromAdjacencyMatrix M).labels = (adjMG M).labels := by
    rw [(fromAdjacencyMatrix_eq M).1]; exact labels_ofMG _
  obtain ⟨h1, h2⟩ := orderNetwork_ok M (by
    intro x hx
    rw [mem_labels_diag hM hd] at hx
    exact mem_sources_adjMG.2 ⟨1, by decide, hd x hx⟩)
  exact ⟨h1, fun x hx => h2 x (by rw [hl, mem_labels_diag hM hd]; exact hx)⟩

/-- In-neighbours of a cell on the ring, ascending: the explicit list. -/
def arcSorted (n r w : Nat) : List Nat :=
  if w < r then List.range' 0 (w + r + 1) ++ List.range' (n + w - r) (r - w)
  else List.range' 0 (w + r + 1 - n) ++ List.range' (w - r) (2 * r + 1 - (w + r + 1 - n))

theorem arcSorted_asc {n r w : Nat} (hn : 2 * r + 1 ≤ n) (hw : w < n) : (arcSorted n r w).Pairwise (· < ·) := by
  unfold arcSorted
  split
  · rw [List.pairwise_append]
    refine ⟨List.pairwise_lt_range', List.pairwise_lt_range', ?_⟩
    intro a ha b hb
    rw [List.mem_range'_1] at ha hb; omega
  · rw [List.pairwise_append]
    refine ⟨List.pairwise_lt_range', List.pairwise_lt_range', ?_⟩
    intro a ha b hb
    rw [List.mem_range'_1] at ha hb; omega

theorem mem_arcSorted {n r w x : Nat} (hn : 2 * r + 1 ≤ n) (hw : w < n) :
    x ∈ arcSorted n r w ↔ x < n ∧ circDist n x w ≤ r := by
  unfold arcSorted circDist
  split
  · rw [List.mem_append, List.mem_range'_1, List.mem_range'_1]; omega
  · rw [List.mem_append, List.mem_range'_1, List.mem_range'_1]; omega

theorem arcSorted_length {n r w : Nat} (hn : 2 * r + 1 ≤ n) (hw : w < n) : (arcSorted n r w).length = 2 * r + 1 := by
  unfold arcSorted
  split
  · rw [List.length_append, List.length_range', List.length_range']; omega
  · rw [List.length_append, List.length_range', List.length_range']; omega

/-- Position of the cell in its ascending neighbour list. -/
def arcIndex (n r w : Nat) : Nat := if w < r then w else (w + r + 1 - n) + r

theorem getElem?_range'_one {s k i : Nat} (h : i < k) : (List.range' s k)[i]? = some (s + i) := by
  rw [List.getElem?_range' h]; simp

theorem arcSorted_index {n r w : Nat} (hn : 2 * r + 1 ≤ n) (hw : w < n) :
    (arcSorted n r w)[arcIndex n r w]? = some w := by
  unfold arcSorted arcIndex
  split
  · rw [List.getElem?_append_left (by rw [List.length_range']; omega), getElem?_range'_one (by omega)]
    simp
  · rw [List.getElem?_append_right (by rw [List.length_range']; omega), List.length_range', getElem?_range'_one (by omega)]
    congr 1; omega

/-- Centring the ascending neighbour list gives the arc from left to right. -/
theorem rotate_arc {n r w : Nat} (hn : 2 * r + 1 ≤ n) (hw : w < n) :
    rotateRight (arcSorted n r w) ((((arcSorted n r w).length / 2 : Nat) : Int) - (arcIndex n r w : Int)) =
      (List.range (2 * r + 1)).map (fun (k : Nat) => ringCell n w ((k : Int) - (r : Int))) := by
  have hlen := arcSorted_length hn hw
  apply List.ext_getElem?
  intro p
  by_cases hp : p < 2 * r + 1
  · rw [rotateRight_getElem? _ _ (by omega), hlen, List.getElem?_map, List.getElem?_range hp]
    simp only [Option.map_some]
    have hhalf : (2 * r + 1) / 2 = r := by omega
    rw [hhalf]
    unfold arcSorted arcIndex ringCell
    by_cases hwr : w < r
    · rw [if_pos hwr, if_pos hwr]
      by_cases hlo : r ≤ p + w
      · have e1 : ((p : Int) - ((r : Int) - (w : Int))) % ((2 * r + 1 : Nat) : Int) = (p : Int) - r + w := by
          rw [Int.emod_eq_of_lt (by omega) (by omega)]; omega
        have e2 : ((w : Int) + ((p : Int) - (r : Int))) % (n : Int) = (p : Int) - r + w := by
          rw [Int.emod_eq_of_lt (by omega) (by omega)]; omega
        rw [e1, e2, List.getElem?_append_left (by rw [List.length_range']; omega), getElem?_range'_one (by omega)]
        simp
      · have e1 : ((p : Int) - ((r : Int) - (w : Int))) % ((2 * r + 1 : Nat) : Int) = (p : Int) - r + w + (2 * r + 1) := by
          rw [← Int.add_emod_right, Int.emod_eq_of_lt (by omega) (by omega)]; omega
        have e2 : ((w : Int) + ((p : Int) - (r : Int))) % (n : Int) = (p : Int) - r + w + n := by
          rw [← Int.add_emod_right, Int.emod_eq_of_lt (by omega) (by omega)]; omega
        rw [e1, e2, List.getElem?_append_right (by rw [List.length_range']; omega), List.length_range',
          getElem?_range'_one (by omega)]
        congr 1; omega
    · rw [if_neg hwr, if_neg hwr]
      by_cases hlo : p + (w + r + 1 - n) < 2 * r + 1
      · have e1 : ((p : Int) - ((r : Int) - ((w + r + 1 - n + r : Nat) : Int))) % ((2 * r + 1 : Nat) : Int) =
            (p : Int) + ((w + r + 1 - n : Nat) : Int) := by
          rw [Int.emod_eq_of_lt (by omega) (by omega)]; omega
        have e2 : ((w : Int) + ((p : Int) - (r : Int))) % (n : Int) = (p : Int) - r + w := by
          rw [Int.emod_eq_of_lt (by omega) (by omega)]; omega
        rw [e1, e2, List.getElem?_append_right (by rw [List.length_range']; omega), List.length_range',
          getElem?_range'_one (by omega)]
        congr 1; omega
      · have e1 : ((p : Int) - ((r : Int) - ((w + r + 1 - n + r : Nat) : Int))) % ((2 * r + 1 : Nat) : Int) =
            (p : Int) + ((w + r + 1 - n : Nat) : Int) - (2 * r + 1) := by
          rw [emod_eq_sub (by omega) (by omega)]; omega
        have e2 : ((w : Int) + ((p : Int) - (r : Int))) % (n : Int) = (p : Int) - r + w - n := by
          rw [emod_eq_sub (by omega) (by omega)]; omega
        rw [e1, e2, List.getElem?_append_left (by rw [List.length_range']; omega), getElem?_range'_one (by omega)]
        congr 1; omega
  · rw [List.getElem?_eq_none (by rw [rotateRight_length]; omega), List.getElem?_eq_none (by simp; omega)]

/-- The rotation entry of a cell of the ring. -/
theorem rotEntry_ring {M : List (List Int)} {n r w : Nat} (hM : Square M n)
    (he : ∀ a b, a < n → b < n → entry M a b = some (if circDist n a b ≤ r then 1 else 0))
    (hn : 2 * r + 1 ≤ n) (hw : w < n) :
    rotEntry M w = (List.range (2 * r + 1)).map (fun (k : Nat) => ringCell n w ((k : Int) - (r : Int))) := by
  have hsrc : sources (adjMG M).edges w = arcSorted n r w := by
    apply ascending_ext (sources_adjMG_sorted M w) (arcSorted_asc hn hw)
    intro x
    rw [mem_sources_adjMG, mem_arcSorted hn hw]
    constructor
    · rintro ⟨v, hv, h⟩
      have hx := (entry_lt hM h).1
      rw [he x w hx hw] at h
      refine ⟨hx, ?_⟩
      by_cases hc : circDist n x w ≤ r
      · exact hc
      · rw [if_neg hc] at h; simp only [Option.some.injEq] at h; exact absurd h.symm hv
    · rintro ⟨hx, hc⟩
      exact ⟨1, by decide, by rw [he x w hx hw, if_pos hc]⟩
  have h1 := shiftToCenter_ok (arcSorted_asc hn hw) (arcSorted_index hn hw)
  unfold rotEntry
  rw [hsrc, h1]
  exact rotate_arc hn hw

/-! ## Symmetry -/

theorem symmetric_of {M : List (List Int)} {n : Nat} (hM : Square M n)
    (h : ∀ i j, i < n → j < n → entry M i j = entry M j i) : Symmetric M := by
  intro i j
  by_cases hij : i < n ∧ j < n
  · exact h i j hij.1 hij.2
  · have h1 := entry_none (W := Int) hM hij
    have h2 := entry_none (W := Int) hM (a := j) (b := i) (by omega)
    unfold entry at h1 h2
    rw [h1, h2]

/-- When the radius covers the ring, every cell is a neighbour. -/
theorem rotEntry_whole {M : List (List Int)} {n r w : Nat} (hM : Square M n)
    (he : ∀ a b, a < n → b < n → entry M a b = some (if circDist n a b ≤ r then 1 else 0))
    (hn : n < 2 * r + 1) (hw : w < n) :
    rotEntry M w = (List.range n).map (fun (k : Nat) => ringCell n w ((k : Int) - ((n / 2 : Nat) : Int))) := by
  have hsrc : sources (adjMG M).edges w = List.range n := by
    apply ascending_ext (sources_adjMG_sorted M w) List.pairwise_lt_range
    intro x
    rw [mem_sources_adjMG, List.mem_range]
    constructor
    · rintro ⟨v, hv, h⟩
      exact (entry_lt hM h).1
    · intro hx
      refine ⟨1, by decide, ?_⟩
      rw [he x w hx hw, if_pos]
      unfold circDist
      omega
  have h1 := shiftToCenter_ok (l := List.range n) List.pairwise_lt_range (i := w) (x := w) (List.getElem?_range hw)
  unfold rotEntry
  rw [hsrc, h1]
  simp only [List.length_range]
  apply List.ext_getElem?
  intro k
  by_cases hk : k < n
  · rw [rotateRight_getElem? _ _ (by simpa using hk)]
    simp only [List.length_range, List.getElem?_map, List.getElem?_range hk, Option.map_some]
    have hpos : (0 : Int) < (n : Int) := by omega
    have hlt := Int.emod_lt_of_pos ((k : Int) - (((n / 2 : Nat) : Int) - (w : Int))) hpos
    have hge := Int.emod_nonneg ((k : Int) - (((n / 2 : Nat) : Int) - (w : Int))) (by omega : (n : Int) ≠ 0)
    rw [List.getElem?_range (by omega)]
    unfold ringCell
    congr 3
    omega
  · rw [List.getElem?_eq_none (by rw [rotateRight_length]; simpa using hk), List.getElem?_eq_none (by simpa using hk)]

/-- Reversing a step on a ring. -/
theorem emod_back {n a c : Nat} {d : Int} (ha : a < n) (h : ((a : Int) + d) % (n : Int) = (c : Int)) :
    ((c : Int) + -d) % (n : Int) = (a : Int) := by
  have h1 : ((c : Int) + -d) % (n : Int) = (((a : Int) + d) % (n : Int) + -d) % (n : Int) := by rw [h]
  rw [h1, Int.emod_add_emod]
  have : (a : Int) + d + -d = a := by omega
  rw [this]
  exact Int.emod_eq_of_lt (by omega) (by omega)

theorem split_label {rows cols i : Nat} (h : i < rows * cols) : i / cols < rows ∧ i % cols < cols ∧ i / cols * cols + i % cols = i := by
  have hc : 0 < cols := by apply Nat.pos_of_ne_zero; rintro rfl; simp at h
  refine ⟨(Nat.div_lt_iff_lt_mul hc).2 h, Nat.mod_lt _ hc, ?_⟩
  exact Nat.div_add_mod' i cols

/-- The matrix of a grid is symmetric when the acceptance of offsets is. -/
theorem grid_symmetric {M : List (List Int)} {rows cols : Nat} {P : Nat × Nat → Int → Int → Prop}
    (hM : Square M (rows * cols))
    (he : ∀ a b c d, a < rows → b < cols → c < rows → d < cols →
        (TorusReach rows cols (P (a, b)) (a, b) (c, d) → entry M (a * cols + b) (c * cols + d) = some 1) ∧
        (¬ TorusReach rows cols (P (a, b)) (a, b) (c, d) → entry M (a * cols + b) (c * cols + d) = some 0))
    (hP : ∀ (p q : Nat × Nat) dx dy, p.1 < rows → q.1 < rows → P p dx dy →
      ((p.1 : Int) + dx) % (rows : Int) = (q.1 : Int) → P q (-dx) (-dy)) : Symmetric M := by
  apply symmetric_of hM
  intro i j hi hj
  obtain ⟨ha, hb, hab⟩ := split_label hi
  obtain ⟨hc, hd, hcd⟩ := split_label hj
  have hsym : ∀ a b c d, a < rows → b < cols → c < rows → d < cols →
      TorusReach rows cols (P (a, b)) (a, b) (c, d) → TorusReach rows cols (P (c, d)) (c, d) (a, b) := by
    rintro a b c d ha hb hc hd ⟨dx, dy, hp, h1, h2⟩
    exact ⟨-dx, -dy, hP _ (c, d) _ _ ha hc hp h1, emod_back ha h1, emod_back hb h2⟩
  obtain ⟨h1, h2⟩ := he _ _ _ _ ha hb hc hd
  obtain ⟨h3, h4⟩ := he _ _ _ _ hc hd ha hb
  rw [hab, hcd] at h1 h2 h3 h4
  haveI : Decidable (TorusReach rows cols (P (i / cols, i % cols)) (i / cols, i % cols) (j / cols, j % cols)) :=
    Classical.propDecidable _
  by_cases hT : TorusReach rows cols (P (i / cols, i % cols)) (i / cols, i % cols) (j / cols, j % cols)
  · rw [h1 hT, h3 (hsym _ _ _ _ ha hb hc hd hT)]
  · rw [h2 hT, h4 (fun hT' => hT (hsym _ _ _ _ hc hd ha hb hT'))]

end Verif
