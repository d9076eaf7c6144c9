import Verif.Proofs.Grid
/-! # Properties C40-C45: regular topologies -/

namespace Verif

open Spec

/-! ## C40 -/

/-- C40: for `n ≥ 3` and `0 ≤ r ≤ n` the 1D adjacency matrix is `n × n`, with 1 where the circular distance is at most
`r` and 0 elsewhere. -/
theorem C40_ring (n r : Nat) (hn : 3 ≤ n) (hr : r ≤ n) :
    ∃ M, caAdjacency n r "periodic" = .ok M ∧ M.length = n ∧ (∀ row ∈ M, row.length = n) ∧
      ∀ i j : Nat, i < n → j < n →
        (M[i]?).bind (fun row => row[j]?) = some (if circDist n i j ≤ r then 1 else 0) := by
  obtain ⟨M, h1, h2, h3⟩ := caAdjacency_ok hn hr
  exact ⟨M, h1, h2.1, h2.2, h3⟩

/-- C40: fewer than 3 cells, or another boundary, raise. -/
theorem C40_raises (n r : Nat) (boundary : String) (h : n < 3 ∨ boundary ≠ "periodic") :
    ∃ msg, caAdjacency n r boundary = .error (.exception msg) := by
  unfold caAdjacency
  by_cases hn : n < 3
  · exact ⟨_, by rw [if_pos hn]⟩
  · rcases h with h | h
    · exact absurd h hn
    · exact ⟨_, by rw [if_neg hn, if_neg h]⟩

/-- C40, beyond the range of the claim: a radius larger than the number of cells raises `IndexError`. -/
theorem C40_radius_too_large (n r : Nat) (hn : 3 ≤ n) (hr : n < r) :
    caAdjacency n r "periodic" = .error .indexError := caAdjacency_big hn hr

example : caAdjacency 5 1 "periodic" =
    .ok [[1, 1, 0, 0, 1], [1, 1, 1, 0, 0], [0, 1, 1, 1, 0], [0, 0, 1, 1, 1], [1, 0, 0, 1, 1]] := by decide +kernel
example : circDist 5 0 4 = 1 ∧ circDist 5 1 3 = 2 ∧ circDist 5 4 1 = 2 := by decide
example : ∃ msg, caAdjacency 2 1 "periodic" = .error (.exception msg) := C40_raises 2 1 _ (by decide)

/-! ## C41 -/

/-- The statement shared by the neighbourhood types: a `rows·cols` square matrix of 0 and 1, with 1 exactly where an
allowed offset leads from the cell of the row to the cell of the column. -/
def GridMatrix (rows cols : Nat) (P : Nat → Int → Int → Prop) (M : List (List Int)) : Prop :=
  M.length = rows * cols ∧ (∀ row ∈ M, row.length = rows * cols) ∧
  ∀ a b c d : Nat, a < rows → b < cols → c < rows → d < cols →
    (TorusReach rows cols (P a) (a, b) (c, d) →
      (M[a * cols + b]?).bind (fun row => row[c * cols + d]?) = some 1) ∧
    (¬ TorusReach rows cols (P a) (a, b) (c, d) →
      (M[a * cols + b]?).bind (fun row => row[c * cols + d]?) = some 0)

/-- C41, Moore: every size with at least 9 cells and every radius. -/
theorem C41_moore (rows cols r : Nat) (h : 9 ≤ rows * cols) :
    ∃ M, caAdjacency2d rows cols r "Moore" "periodic" = .ok M ∧ GridMatrix rows cols (fun _ => MooreOffset r) M := by
  obtain ⟨M, h1, h2, h3⟩ := grid_ok (crit := mooreCrit) (r := r) h
  refine ⟨M, ?_, h2.1, h2.2, ?_⟩
  · unfold caAdjacency2d criterion
    rw [if_neg (by omega), if_pos rfl, if_neg (by decide), if_pos rfl]; exact h1
  · intro a b c d ha hb hc hd
    have := h3 a b c d ha hb hc hd
    rw [accepts_moore] at this
    exact this

/-- C41, von Neumann. -/
theorem C41_von_neumann (rows cols r : Nat) (h : 9 ≤ rows * cols) :
    ∃ M, caAdjacency2d rows cols r "von Neumann" "periodic" = .ok M ∧
      GridMatrix rows cols (fun _ => VonNeumannOffset r) M := by
  obtain ⟨M, h1, h2, h3⟩ := grid_ok (crit := vonNeumannCrit) (r := r) h
  refine ⟨M, ?_, h2.1, h2.2, ?_⟩
  · unfold caAdjacency2d criterion
    rw [if_neg (by omega), if_pos rfl, if_pos rfl]; exact h1
  · intro a b c d ha hb hc hd
    have := h3 a b c d ha hb hc hd
    rw [accepts_vonNeumann] at this
    exact this

/-- C41, Hex: the offsets are those of `HexOffset`. -/
theorem C41_hex (rows cols r : Nat) (h : 9 ≤ rows * cols) :
    ∃ M, caAdjacency2d rows cols r "Hex" "periodic" = .ok M ∧
      GridMatrix rows cols (fun a => HexOffset a r) M := by
  obtain ⟨M, h1, h2, h3⟩ := grid_ok (crit := hexCrit) (r := r) h
  refine ⟨M, ?_, h2.1, h2.2, ?_⟩
  · unfold caAdjacency2d criterion
    rw [if_neg (by omega), if_pos rfl, if_neg (by decide), if_neg (by decide), if_pos rfl]; exact h1
  · intro a b c d ha hb hc hd
    have := h3 a b c d ha hb hc hd
    rw [accepts_hex] at this
    exact this

/-- C41: the call raises iff there are fewer than 9 cells or the type is unknown (or, beyond the claim, the boundary is
not periodic). -/
theorem C41_raises_iff (rows cols r : Nat) (nb boundary : String) :
    (∃ e, caAdjacency2d rows cols r nb boundary = .error e) ↔
      rows * cols < 9 ∨ boundary ≠ "periodic" ∨ nb ∉ ["Moore", "von Neumann", "Hex"] := by
  constructor
  · rintro ⟨e, he⟩
    refine Classical.byContradiction fun hno => ?_
    rw [not_or, not_or] at hno
    obtain ⟨h9, hb, hnb⟩ := hno
    have hb := Classical.not_not.1 hb
    have hnb := Classical.not_not.1 hnb
    simp only [List.mem_cons, List.not_mem_nil, or_false] at hnb
    subst hb
    have h9' : 9 ≤ rows * cols := by omega
    rcases hnb with rfl | rfl | rfl
    · obtain ⟨M, h, _⟩ := C41_moore rows cols r h9'; rw [h] at he; cases he
    · obtain ⟨M, h, _⟩ := C41_von_neumann rows cols r h9'; rw [h] at he; cases he
    · obtain ⟨M, h, _⟩ := C41_hex rows cols r h9'; rw [h] at he; cases he
  · intro h
    unfold caAdjacency2d
    by_cases h9 : rows * cols < 9
    · exact ⟨_, by rw [if_pos h9]⟩
    · by_cases hb : boundary = "periodic"
      · rcases h with h | h | h
        · exact absurd h h9
        · exact absurd hb h
        · simp only [List.mem_cons, List.not_mem_nil, or_false, not_or] at h
          refine ⟨.exception "neighbourhood type not supported", ?_⟩
          rw [if_neg h9, if_pos hb]
          unfold criterion
          rw [if_neg h.2.1, if_neg h.1, if_neg h.2.2]
      · exact ⟨_, by rw [if_neg h9, if_neg hb]⟩

example : (caAdjacency2d 3 4 1 "Moore" "periodic").map (fun M => M.map (fun r => r.sum)) =
    .ok (List.replicate 12 9) := by decide +kernel
example : TorusReach 3 4 (VonNeumannOffset 1) (0, 0) (2, 0) ∧ ¬ TorusReach 3 4 (VonNeumannOffset 1) (0, 0) (2, 3) := by
  constructor
  · exact ⟨-1, 0, by unfold VonNeumannOffset; decide, by decide, by decide⟩
  · rintro ⟨dx, dy, h, h1, h2⟩
    unfold VonNeumannOffset at h
    simp only at h1 h2
    omega
example : ∃ e, caAdjacency2d 3 3 1 "Triangle" "periodic" = .error e :=
  (C41_raises_iff 3 3 1 "Triangle" "periodic").2 (by decide)

/-! ## C42 -/

/-- C42, 1D: every size and every radius the construction accepts. -/
theorem C42_ring (n r : Nat) (M : List (List Int)) (h : caAdjacency n r "periodic" = .ok M) : Symmetric M := by
  by_cases hn : n < 3
  · obtain ⟨_, h'⟩ := C40_raises n r "periodic" (Or.inl hn); rw [h'] at h; cases h
  by_cases hr : n < r
  · rw [C40_radius_too_large n r (by omega) hr] at h; cases h
  obtain ⟨M', h1, h2, h3⟩ := caAdjacency_ok (n := n) (r := r) (by omega) (by omega)
  rw [h1] at h; cases h
  apply symmetric_of h2
  intro i j hi hj
  rw [h3 i j hi hj, h3 j i hj hi, circDist_comm]

/-- C42, Moore. -/
theorem C42_moore (rows cols r : Nat) (M : List (List Int))
    (h : caAdjacency2d rows cols r "Moore" "periodic" = .ok M) : Symmetric M := by
  by_cases h9 : rows * cols < 9
  · obtain ⟨_, h'⟩ := (C41_raises_iff rows cols r "Moore" "periodic").2 (Or.inl h9); rw [h'] at h; cases h
  obtain ⟨M', h1, h2, h2', h3⟩ := C41_moore rows cols r (by omega)
  rw [h1] at h; cases h
  refine grid_symmetric (P := fun _ => MooreOffset r) ⟨h2, h2'⟩ h3 ?_
  rintro p q dx dy _ _ ⟨hx, hy⟩ _
  exact ⟨by omega, by omega⟩

/-- C42, von Neumann. -/
theorem C42_von_neumann (rows cols r : Nat) (M : List (List Int))
    (h : caAdjacency2d rows cols r "von Neumann" "periodic" = .ok M) : Symmetric M := by
  by_cases h9 : rows * cols < 9
  · obtain ⟨_, h'⟩ := (C41_raises_iff rows cols r "von Neumann" "periodic").2 (Or.inl h9); rw [h'] at h; cases h
  obtain ⟨M', h1, h2, h2', h3⟩ := C41_von_neumann rows cols r (by omega)
  rw [h1] at h; cases h
  refine grid_symmetric (P := fun _ => VonNeumannOffset r) ⟨h2, h2'⟩ h3 ?_
  intro p q dx dy _ _ h _
  unfold VonNeumannOffset at h ⊢; omega

/-- C42, Hex, partial.  Full claim: "the Hex matrix is symmetric for every size and radius".  It holds for an even
number of rows and radius 0 or 1; it fails for an odd number of rows (`C42_hex_odd_rows`) and for larger radii
(`C42_hex_radius_two`). -/
theorem C42_hex_partial (rows cols r : Nat) (M : List (List Int)) (heven : rows % 2 = 0) (hr : r ≤ 1)
    (h : caAdjacency2d rows cols r "Hex" "periodic" = .ok M) : Symmetric M := by
  by_cases h9 : rows * cols < 9
  · obtain ⟨_, h'⟩ := (C41_raises_iff rows cols r "Hex" "periodic").2 (Or.inl h9); rw [h'] at h; cases h
  obtain ⟨M', h1, h2, h2', h3⟩ := C41_hex rows cols r (by omega)
  rw [h1] at h; cases h
  refine grid_symmetric (P := fun p => HexOffset p.1 r) ⟨h2, h2'⟩ h3 ?_
  rintro ⟨a, b⟩ ⟨c, d⟩ dx dy ha hc ⟨h1, h2, h3⟩ hq
  simp only at hq ha hc ⊢
  simp only at h3
  refine ⟨by omega, by omega, ?_⟩
  have hpar : (c : Int) % 2 = ((a : Int) + dx) % 2 := by
    obtain ⟨k, hk⟩ : ∃ k : Int, (rows : Int) = 2 * k := ⟨(rows : Int) / 2, by omega⟩
    rw [← hq, hk, Int.emod_emod_of_dvd _ ⟨k, rfl⟩]
  by_cases hsum : dx.natAbs + dy.natAbs ≤ r
  · left; omega
  · right
    have hr1 : r = 1 := by omega
    subst hr1
    rcases h3 with h3 | h3
    · exact absurd h3 hsum
    · by_cases ha1 : a % 2 = 1
      · rw [if_pos ha1] at h3
        rw [if_neg (by omega)]
        omega
      · rw [if_neg ha1] at h3
        rw [if_pos (by omega)]
        omega

/-- C42, Hex of radius 1: the accepted offsets are the cell and its six neighbours in offset coordinates. -/
theorem C42_hex_ring (a : Nat) (dx dy : Int) : HexOffset a 1 dx dy ↔ (dx, dy) ∈ hexRing a := by
  unfold HexOffset hexRing
  by_cases h : a % 2 = 1
  · rw [if_pos h, if_pos h]
    simp only [List.cons_append, List.nil_append, List.mem_cons, Prod.mk.injEq, List.not_mem_nil, or_false]
    omega
  · rw [if_neg h, if_neg h]
    simp only [List.cons_append, List.nil_append, List.mem_cons, Prod.mk.injEq, List.not_mem_nil, or_false]
    omega

/-- C42, negation for an odd number of rows: 3 × 5, radius 1. -/
theorem C42_hex_odd_rows :
    ∃ M, caAdjacency2d 3 5 1 "Hex" "periodic" = .ok M ∧ ¬ Symmetric M := by
  have hM : (caAdjacency2d 3 5 1 "Hex" "periodic").map (fun M => decide ((M[0]?).bind (fun r => r[11]?) ≠
    (M[11]?).bind (fun r => r[0]?))) = .ok true := by decide +kernel
  cases h : caAdjacency2d 3 5 1 "Hex" "periodic" with
  | error e => rw [h] at hM; cases hM
  | ok M =>
    rw [h] at hM
    simp only [Except.map, Except.ok.injEq, decide_eq_true_eq] at hM
    exact ⟨M, rfl, fun hs => hM (hs 0 11)⟩

/-- C42, negation for radius 2 with an even number of rows: 4 × 5. -/
theorem C42_hex_radius_two :
    ∃ M, caAdjacency2d 4 5 2 "Hex" "periodic" = .ok M ∧ ¬ Symmetric M := by
  have hM : (caAdjacency2d 4 5 2 "Hex" "periodic").map (fun M => decide ((M[0]?).bind (fun r => r[12]?) ≠
    (M[12]?).bind (fun r => r[0]?))) = .ok true := by decide +kernel
  cases h : caAdjacency2d 4 5 2 "Hex" "periodic" with
  | error e => rw [h] at hM; cases hM
  | ok M =>
    rw [h] at hM
    simp only [Except.map, Except.ok.injEq, decide_eq_true_eq] at hM
    exact ⟨M, rfl, fun hs => hM (hs 0 12)⟩

/-- C42, consequence: in the network of a symmetric matrix the in-neighbours of `i` are the `j` with a non-zero entry
in row `i`. -/
theorem C42_in_neighbours (M : List (List Int)) (hs : Symmetric M) (i j : Nat) :
    (fromAdjacencyMatrix M).hasEdge j i = true ↔ ∃ v, v ≠ 0 ∧ (M[i]?).bind (fun r => r[j]?) = some v := by
  obtain ⟨h, hv⟩ := fromAdjacencyMatrix_eq M
  rw [h, hasEdge_ofMG hv, decide_eq_true_eq, mem_sources_adjMG, hs i j]
  rfl

example : ∃ M, caAdjacency2d 4 5 1 "Hex" "periodic" = .ok M ∧ Symmetric M := by
  obtain ⟨M, h, _⟩ := C41_hex 4 5 1 (by omega)
  exact ⟨M, h, C42_hex_partial 4 5 1 M (by decide) (by decide) h⟩
example : ∃ M, caAdjacency 4 2 "periodic" = .ok M ∧ Symmetric M := by
  obtain ⟨M, h, _⟩ := C40_ring 4 2 (by omega) (by omega)
  exact ⟨M, h, C42_ring 4 2 M h⟩

/-! ## C43 -/

/-- C43: for `2r+1 ≤ n` the rotation system lists for node `w` the cells `w-r, ..., w, ..., w+r` (mod n) in this order.
The nodes are exactly `0, ..., n-1`. -/
theorem C43_left_to_right (n r : Nat) (hn : 3 ≤ n) (hr : 2 * r + 1 ≤ n) :
    ∃ N rs, cellularAutomaton n r true = .ok N ∧ N.rotation = some rs ∧ N.labels.Perm (List.range n) ∧
      ∀ w, w < n → rs.get? w =
        some ((List.range (2 * r + 1)).map (fun (k : Nat) => ringCell n w ((k : Int) - (r : Int)))) := by
  obtain ⟨M, h1, h2, h3⟩ := caAdjacency_ok hn (by omega : r ≤ n)
  have hd : ∀ x, x < n → entry M x x = some 1 := by
    intro x hx; rw [h3 x x hx hx, circDist_self, if_pos (by omega)]
  obtain ⟨ho, _⟩ := ordered_diag h2 hd
  obtain ⟨hof, hv⟩ := fromAdjacencyMatrix_eq M
  have hl : (fromAdjacencyMatrix M).labels = (MG.labels (adjMG M)) := by rw [hof]; exact labels_ofMG _
  refine ⟨{ fromAdjacencyMatrix M with
    rotation := some ((fromAdjacencyMatrix M).labels.map (fun x => (x, rotEntry M x))) }, _, ?_, rfl, ?_, ?_⟩
  · unfold cellularAutomaton
    rw [h1]; exact ho
  · show (fromAdjacencyMatrix M).labels.Perm _
    rw [hl]
    exact perm_range_of_mem hv.nodup (mem_labels_diag h2 hd)
  · intro w hw
    rw [get?_mapSelf _ _ (by rw [hl, mem_labels_diag h2 hd]; exact hw), rotEntry_ring h2 h3 hr hw]

/-- C43, larger radii: for `n < 2r+1`, `r ≤ n`, every cell is listed, in ring order, with the node itself at position
`n//2`. -/
theorem C43_whole_ring (n r : Nat) (hn : 3 ≤ n) (hr : n < 2 * r + 1) (hrn : r ≤ n) :
    ∃ N rs, cellularAutomaton n r true = .ok N ∧ N.rotation = some rs ∧ N.labels.Perm (List.range n) ∧
      ∀ w, w < n → rs.get? w =
        some ((List.range n).map (fun (k : Nat) => ringCell n w ((k : Int) - ((n / 2 : Nat) : Int)))) := by
  obtain ⟨M, h1, h2, h3⟩ := caAdjacency_ok hn hrn
  have hd : ∀ x, x < n → entry M x x = some 1 := by
    intro x hx; rw [h3 x x hx hx, circDist_self, if_pos (by omega)]
  obtain ⟨ho, _⟩ := ordered_diag h2 hd
  obtain ⟨hof, hv⟩ := fromAdjacencyMatrix_eq M
  have hl : (fromAdjacencyMatrix M).labels = (MG.labels (adjMG M)) := by rw [hof]; exact labels_ofMG _
  refine ⟨{ fromAdjacencyMatrix M with
    rotation := some ((fromAdjacencyMatrix M).labels.map (fun x => (x, rotEntry M x))) }, _, ?_, rfl, ?_, ?_⟩
  · unfold cellularAutomaton
    rw [h1]; exact ho
  · show (fromAdjacencyMatrix M).labels.Perm _
    rw [hl]
    exact perm_range_of_mem hv.nodup (mem_labels_diag h2 hd)
  · intro w hw
    rw [get?_mapSelf _ _ (by rw [hl, mem_labels_diag h2 hd]; exact hw), rotEntry_whole h2 h3 hr hw]

example : (cellularAutomaton 4 3 true).map (fun N => (N.rotation.getD []).get? 0) = .ok (some [2, 3, 0, 1]) := by
  decide +kernel
example : (cellularAutomaton 6 2 true).map (fun N => (N.rotation.getD []).get? 0) = .ok (some [4, 5, 0, 1, 2]) := by
  decide +kernel
example : (List.range 5).map (fun (k : Nat) => ringCell 6 5 ((k : Int) - 2)) = [3, 4, 5, 0, 1] := by decide

/-! ## C44 -/

/-- The rotation system of `N` has an entry for every node; it lists the in-neighbours once each, with the node itself
at position `len//2`. -/
def Centred (N : Net Nat Int) : Prop :=
  ∃ rs, N.rotation = some rs ∧ rs.keys = N.labels ∧
    ∀ x ∈ N.labels, ∃ l d, rs.get? x = some l ∧ N.inEdges x = .ok d ∧ l.Perm d.keys ∧ l.Nodup ∧
      l[l.length / 2]? = some x

theorem centred_of_diag {M : List (List Int)} {n : Nat} (h2 : Square M n)
    (hd : ∀ x, x < n → entry M x x = some 1) :
    ∃ N, orderNetwork (fromAdjacencyMatrix M) = .ok N ∧ N.labels.Perm (List.range n) ∧ Centred N := by
  obtain ⟨ho, _⟩ := ordered_diag h2 hd
  obtain ⟨hof, hv⟩ := fromAdjacencyMatrix_eq M
  have hl : (fromAdjacencyMatrix M).labels = (MG.labels (adjMG M)) := by rw [hof]; exact labels_ofMG _
  refine ⟨_, ho, ?_, _, rfl, ?_, ?_⟩
  · show (fromAdjacencyMatrix M).labels.Perm _
    rw [hl]; exact perm_range_of_mem hv.nodup (mem_labels_diag h2 hd)
  · show List.map Prod.fst _ = (fromAdjacencyMatrix M).labels
    rw [List.map_map]
    exact List.map_id _
  · intro x hx
    have hx' : x ∈ (fromAdjacencyMatrix M).labels := hx
    have hxl : x ∈ MG.labels (adjMG M) := by rwa [hl] at hx'
    have hxn : x < n := (mem_labels_diag h2 hd x).1 hxl
    obtain ⟨l, s1, s2, s3⟩ := shiftToCenter_spec (sources_adjMG_sorted M x)
      (mem_sources_adjMG.2 ⟨1, by decide, hd x hxn⟩)
    have hrot : rotEntry M x = l := by unfold rotEntry; rw [s1]
    refine ⟨l, incomingOf (adjMG M).edges x, ?_, ?_, ?_, ?_, ?_⟩
    · rw [get?_mapSelf _ _ hx', hrot]
    · show (fromAdjacencyMatrix M).inEdges x = _
      rw [hof]; exact inEdges_ofMG hxl
    · rw [keys_incomingOf]; exact s2
    · exact s2.nodup_iff.2 (nodup_sources _ _)
    · rw [s2.length_eq]; exact s3

/-- C44, partial.  Full claim: "in 1D and 2D ordered automata the rotation entry of a node contains exactly its
in-neighbours, once each, with the node at position `len//2`; for 2D all cells list their neighbours in the same
geometric order".  Proved here: everything but the last part, for 1D and for all three 2D types, every size and
radius the construction accepts.  The last part is false (`C44_orders_differ`) and holds for the interior cells of the
Moore type (`C44_interior`). -/
theorem C44_centre_partial :
    (∀ n r, 3 ≤ n → r ≤ n → ∃ N, cellularAutomaton n r true = .ok N ∧ N.labels.Perm (List.range n) ∧ Centred N) ∧
    (∀ rows cols r nb, 9 ≤ rows * cols → nb ∈ ["Moore", "von Neumann", "Hex"] →
      ∃ N, cellularAutomaton2d rows cols r nb true = .ok N ∧ N.labels.Perm (List.range (rows * cols)) ∧ Centred N) := by
  constructor
  · intro n r hn hr
    obtain ⟨M, h1, h2, h3⟩ := caAdjacency_ok hn hr
    obtain ⟨N, ho, hN⟩ := centred_of_diag h2 (by
      intro x hx; rw [h3 x x hx hx, circDist_self, if_pos (by omega)])
    refine ⟨N, ?_, hN⟩
    unfold cellularAutomaton
    rw [h1]; exact ho
  · intro rows cols r nb h9 hnb
    have key : ∀ (P : Nat → Int → Int → Prop) M, (∀ a, P a 0 0) → GridMatrix rows cols P M →
        ∃ N, orderNetwork (fromAdjacencyMatrix M) = .ok N ∧ N.labels.Perm (List.range (rows * cols)) ∧ Centred N := by
      rintro P M h0 ⟨g1, g2, g3⟩
      refine centred_of_diag ⟨g1, g2⟩ ?_
      intro x hx
      obtain ⟨ha, hb, hab⟩ := split_label hx
      have := (g3 _ _ _ _ ha hb ha hb).1 ⟨0, 0, h0 _, by
        simp only [Int.add_zero]; exact Int.emod_eq_of_lt (Int.natCast_nonneg _) (Int.ofNat_lt.2 (by assumption)), by
        simp only [Int.add_zero]; exact Int.emod_eq_of_lt (Int.natCast_nonneg _) (Int.ofNat_lt.2 (by assumption))⟩
      rw [hab] at this
      exact this
    simp only [List.mem_cons, List.not_mem_nil, or_false] at hnb
    rcases hnb with rfl | rfl | rfl
    · obtain ⟨M, h1, hg⟩ := C41_moore rows cols r h9
      obtain ⟨N, ho, hN⟩ := key _ M (fun _ => by unfold MooreOffset; simp) hg
      exact ⟨N, by unfold cellularAutomaton2d; rw [h1]; exact ho, hN⟩
    · obtain ⟨M, h1, hg⟩ := C41_von_neumann rows cols r h9
      obtain ⟨N, ho, hN⟩ := key _ M (fun _ => by unfold VonNeumannOffset; simp) hg
      exact ⟨N, by unfold cellularAutomaton2d; rw [h1]; exact ho, hN⟩
    · obtain ⟨M, h1, hg⟩ := C41_hex rows cols r h9
      obtain ⟨N, ho, hN⟩ := key _ M (fun _ => by unfold HexOffset; simp) hg
      exact ⟨N, by unfold cellularAutomaton2d; rw [h1]; exact ho, hN⟩

/-- C44, interior cells of the Moore type: neighbours are listed row by row, from the top left to the bottom right. -/
theorem C44_interior (rows cols r a b : Nat) (h9 : 9 ≤ rows * cols) (ha : r ≤ a) (ha' : a + r < rows) (hb : r ≤ b)
    (hb' : b + r < cols) :
    ∃ N rs, cellularAutomaton2d rows cols r "Moore" true = .ok N ∧ N.rotation = some rs ∧
      rs.get? (a * cols + b) = some ((List.range (2 * r + 1)).flatMap (fun i =>
        (List.range (2 * r + 1)).map (fun j => (a - r + i) * cols + (b - r + j)))) := by
  obtain ⟨M, h1, g1, g2, g3⟩ := C41_moore rows cols r h9
  have hd : ∀ x, x < rows * cols → entry M x x = some 1 := by
    intro x hx
    obtain ⟨ha, hb, hab⟩ := split_label hx
    have := (g3 _ _ _ _ ha hb ha hb).1 ⟨0, 0, by unfold MooreOffset; simp, by
      simp only [Int.add_zero]; exact Int.emod_eq_of_lt (Int.natCast_nonneg _) (Int.ofNat_lt.2 (by assumption)), by
      simp only [Int.add_zero]; exact Int.emod_eq_of_lt (Int.natCast_nonneg _) (Int.ofNat_lt.2 (by assumption))⟩
    rw [hab] at this
    exact this
  obtain ⟨ho, _⟩ := ordered_diag ⟨g1, g2⟩ hd
  obtain ⟨hof, hv⟩ := fromAdjacencyMatrix_eq M
  have hl : (fromAdjacencyMatrix M).labels = (MG.labels (adjMG M)) := by rw [hof]; exact labels_ofMG _
  refine ⟨{ fromAdjacencyMatrix M with
    rotation := some ((fromAdjacencyMatrix M).labels.map (fun x => (x, rotEntry M x))) }, _, ?_, rfl, ?_⟩
  · unfold cellularAutomaton2d
    rw [h1]; exact ho
  · rw [get?_mapSelf _ _ (by
      rw [hl, mem_labels_diag ⟨g1, g2⟩ hd]; exact label_lt (by omega) (by omega)),
      rotEntry_interior ⟨g1, g2⟩ g3 ha ha' hb hb']
    rfl

/-- The offset from cell `x` to cell `y` on a `rows × cols` torus, reduced modulo the dimensions. -/
def torusOffset (rows cols x y : Nat) : Int × Int :=
  ((((y / cols : Nat) : Int) - ((x / cols : Nat) : Int)) % (rows : Int), (((y % cols : Nat) : Int) - ((x % cols : Nat) : Int)) % (cols : Int))

/-- C44, negation of the last part: on the 4 × 4 Moore torus the first neighbour listed for cell 5 is the one above to
the left, the first listed for cell 0 is the one below to the left. -/
theorem C44_orders_differ :
    ∃ N rs l l', cellularAutomaton2d 4 4 1 "Moore" true = .ok N ∧ N.rotation = some rs ∧
      rs.get? 0 = some l ∧ rs.get? 5 = some l' ∧
      (l.map (torusOffset 4 4 0)).head? = some (1, 3) ∧ (l'.map (torusOffset 4 4 5)).head? = some (3, 3) ∧
      l.map (torusOffset 4 4 0) ≠ l'.map (torusOffset 4 4 5) := by
  have hM : (cellularAutomaton2d 4 4 1 "Moore" true).map (fun N => N.rotation.map (fun rs => (rs.get? 0, rs.get? 5))) =
      .ok (some (some [7, 12, 13, 15, 0, 1, 3, 4, 5], some [0, 1, 2, 4, 5, 6, 8, 9, 10])) := by decide +kernel
  cases h : cellularAutomaton2d 4 4 1 "Moore" true with
  | error e => rw [h] at hM; cases hM
  | ok N =>
    rw [h] at hM
    cases hr : N.rotation with
    | none => simp [Except.map, hr] at hM
    | some rs =>
      simp only [Except.map, hr, Option.map_some, Except.ok.injEq, Option.some.injEq, Prod.mk.injEq] at hM
      exact ⟨N, rs, _, _, rfl, hr, hM.1, hM.2, by decide, by decide, by decide⟩

example : ∃ N rs, cellularAutomaton2d 4 5 1 "Moore" true = .ok N ∧ N.rotation = some rs ∧
    rs.get? 7 = some [1, 2, 3, 6, 7, 8, 11, 12, 13] := C44_interior 4 5 1 1 2 (by decide) (by decide) (by decide) (by decide) (by decide)

/-! ## C45 -/

section
variable {L A : Type} [DecidableEq L]

/-- C45, bipartite: for disjoint lists of labels without repetition, and attributes given for every pair (or no
attributes), there is exactly one edge in each direction between `u` and `v`, with these attributes, and no other
edge. -/
theorem C45_bipartite (us vs : List L) (hu : us.Nodup) (hv : vs.Nodup) (hdis : ∀ x ∈ us, x ∉ vs)
    (ea : Option (EdgeAttrs L A)) (f : L → L → Attr A)
    (hf : (ea = none ∧ ∀ u v, f u v = []) ∨
      ∃ d, ea = some d ∧ ∀ u ∈ us, ∀ v ∈ vs, ∃ du, d.get? u = some du ∧ du.get? v = some (f u v)) :
    ∃ N, bipartite us vs ea = .ok N ∧
      (∀ u ∈ us, ∀ v ∈ vs, N.edge u v = .ok [f u v] ∧ N.edge v u = .ok [f u v]) ∧
      (∀ i j, N.hasEdge i j = true → (i ∈ us ∧ j ∈ vs) ∨ (i ∈ vs ∧ j ∈ us)) ∧
      (∀ x, x ∈ N.labels ↔ (x ∈ us ∧ vs ≠ []) ∨ (x ∈ vs ∧ us ≠ [])) := by
  have hpa : ∀ p ∈ us.flatMap (fun u => vs.map (fun v => (u, v))), pairAttrs ea p.1 p.2 = .ok (f p.1 p.2) := by
    rintro ⟨u, v⟩ hp
    rw [mem_pairs] at hp
    rcases hf with ⟨rfl, h0⟩ | ⟨d, rfl, h⟩
    · simp [pairAttrs, h0]
    · obtain ⟨du, h1, h2⟩ := h u hp.1 v hp.2
      simp [pairAttrs, Dict.get, h1, h2]
  obtain ⟨g, h1, h2, h3, -, h5⟩ := bipartite_fold (g := MG.empty) _ hpa (valid_empty (L := L) (A := A))
  simp only [MG.empty, List.nil_append] at h3
  refine ⟨ofMG g, h1, ?_, ?_, ?_⟩
  · intro u hu' v hv'
    have hno : (v, u) ∉ us.flatMap (fun u => vs.map (fun v => (u, v))) := by
      rw [mem_pairs]; exact fun h => hdis v h.1 hv'
    obtain ⟨b1, b2⟩ := between_bidir (f := f) (nodup_pairs hu hv) (mem_pairs.2 ⟨hu', hv'⟩) hno
    rw [edge_ofMG h2, edge_ofMG h2, h3, b1, b2]
    simp
  · intro i j h
    rw [hasEdge_ofMG h2, decide_eq_true_eq, h3, sources_bidir, mem_pairs, mem_pairs] at h
    rcases h with h | h
    · exact Or.inl h
    · exact Or.inr ⟨h.2, h.1⟩
  · intro x
    rw [labels_ofMG, h5]
    simp only [MG.empty, MG.labels, List.map_nil, List.not_mem_nil, false_or]
    constructor
    · rintro ⟨⟨u, v⟩, hp, h⟩
      rw [mem_pairs] at hp
      rcases h with rfl | rfl
      · exact Or.inl ⟨hp.1, List.ne_nil_of_mem hp.2⟩
      · exact Or.inr ⟨hp.2, List.ne_nil_of_mem hp.1⟩
    · rintro (⟨h, hne⟩ | ⟨h, hne⟩)
      · obtain ⟨v, hv'⟩ := List.exists_mem_of_ne_nil _ hne
        exact ⟨(x, v), mem_pairs.2 ⟨h, hv'⟩, Or.inl rfl⟩
      · obtain ⟨u, hu'⟩ := List.exists_mem_of_ne_nil _ hne
        exact ⟨(u, x), mem_pairs.2 ⟨hu', h⟩, Or.inr rfl⟩

/-- C45, disconnected: `disconnected(n)` has the nodes `0, ..., n-1` and no edge; for a list of labels, each label once
and no edge. -/
theorem C45_disconnected :
    (∀ n, (disconnectedN A n).labels = List.range n ∧ (disconnectedN A n).edges = []) ∧
    (∀ xs : List L, (disconnectedList (A := A) xs).labels.Nodup ∧
      (∀ x, x ∈ (disconnectedList (A := A) xs).labels ↔ x ∈ xs) ∧ (disconnectedList (A := A) xs).edges = []) := by
  constructor
  · intro n
    constructor
    · simp only [disconnectedN, Net.ofSize, Net.labels, Dict.keys, List.map_map]
      exact List.map_id _
    · simp [disconnectedN, Net.ofSize, Net.edges, Net.newNode]
  · intro xs
    obtain ⟨h, hv⟩ := run_empty (L := L) (A := A) (xs.map (fun x => Net.Op.addNode x []))
    have key : ∀ (xs : List L) (g : MG L A), (MG.run g (xs.map (fun x => Net.Op.addNode x []))).edges = g.edges ∧
        ∀ x, x ∈ (MG.run g (xs.map (fun x => Net.Op.addNode x []))).labels ↔ x ∈ xs ∨ x ∈ g.labels := by
      intro xs
      induction xs with
      | nil => intro g; simp [MG.run]
      | cons a xs ih =>
        intro g
        obtain ⟨h1, h2⟩ := ih (MG.addNode g a [])
        have hstep : MG.run g ((a :: xs).map (fun x => Net.Op.addNode x [])) =
            MG.run (MG.addNode g a []) (xs.map (fun x => Net.Op.addNode x [])) := rfl
        rw [hstep]
        refine ⟨by rw [h1]; exact ensure_edges g a, ?_⟩
        intro x
        rw [h2]
        have hl : (MG.addNode g a ([] : Attr A)).labels = (MG.ensure g a).labels := by
          simp only [MG.addNode, MG.labels, List.map_map]
          apply List.map_congr_left
          intro p _
          simp only [Function.comp]; split <;> rfl
        rw [hl, mem_labels_ensure, List.mem_cons]
        constructor
        · rintro (h | h | h) <;> simp [h]
        · rintro ((h | h) | h) <;> simp [h]
    obtain ⟨k1, k2⟩ := key xs MG.empty
    unfold disconnectedList
    rw [h, labels_ofMG]
    refine ⟨hv.nodup, ?_, ?_⟩
    · intro x; rw [k2]; simp [MG.empty, MG.labels]
    · rw [edges_ofMG, k1]; simp [MG.empty, MG.sources, MG.dedup]

end

/-- C45, complete, partial.  Full claim: "`complete(n)` connects every two different nodes in both directions, with `n`
nodes".  Proved for `n ≥ 2`; `complete(1)` has no node (`C45_complete_one`) and `complete(0)` raises. -/
theorem C45_complete_partial (n : Nat) (hn : 2 ≤ n) :
    ∃ N, completeNetwork n = .ok N ∧ N.labels.Perm (List.range n) ∧
      ∀ i j : Nat, N.edge i j = if i < n ∧ j < n ∧ i ≠ j then .ok [[("weight", 1)]] else .error .keyError := by
  let M := (List.range n).map (fun i => (List.range n).map (fun j => if i = j then (0 : Int) else 1))
  have hM : Square M n := completeMatrix_square n
  obtain ⟨hof, hv⟩ := fromAdjacencyMatrix_eq M
  refine ⟨fromAdjacencyMatrix M, ?_, ?_, ?_⟩
  · unfold completeNetwork completeMatrix
    rw [if_neg (by omega)]
  · rw [hof, labels_ofMG]
    apply perm_range_of_mem hv.nodup
    intro x
    rw [mem_adjMG_labels]
    constructor
    · rintro ⟨y, v, _, h | h⟩
      · exact (entry_lt hM h).1
      · exact (entry_lt hM h).2
    · intro hx
      by_cases h0 : x = 0
      · subst h0
        exact ⟨1, 1, by decide, Or.inl (completeMatrix_entry (by omega) (by omega))⟩
      · refine ⟨0, 1, by decide, Or.inl ?_⟩
        have := completeMatrix_entry (n := n) (i := x) (j := 0) hx (by omega)
        rw [if_neg h0] at this; exact this
  · intro i j
    rw [hof, edge_ofMG hv, between_adjMG]
    by_cases hij : i < n ∧ j < n
    · rw [show entry M i j = _ from completeMatrix_entry hij.1 hij.2]
      by_cases he : i = j
      · simp [he]
      · simp [he, hij]
    · rw [entry_none hM hij]
      rw [if_neg (c := i < n ∧ j < n ∧ i ≠ j) (fun h => hij ⟨h.1, h.2.1⟩)]; simp

/-- C45, negation for one node: the network has no node at all. -/
theorem C45_complete_one : ∃ N, completeNetwork 1 = .ok N ∧ N.labels = [] := ⟨_, rfl, by decide⟩

/-- C45: `complete(0)` raises (in networkx). -/
theorem C45_complete_zero : ∃ e, completeNetwork 0 = .error e := ⟨_, rfl⟩

example : (completeNetwork 3).map (fun N => N.edges.map (fun e => (e.1, e.2.1))) =
    .ok [(1, 0), (2, 0), (0, 1), (2, 1), (0, 2), (1, 2)] := by decide
example : (bipartite (A := Int) ["a", "b"] ["x"] (some [("a", [("x", [("weight", 3)])]), ("b", [("x", [("weight", 4)])])])).map
    (fun N => N.edges) = .ok [("x", "a", [("weight", 3)]), ("a", "x", [("weight", 3)]), ("b", "x", [("weight", 4)]),
      ("x", "b", [("weight", 4)])] := by decide
example : ∃ N, bipartite (A := Int) ["a", "b"] ["x"] none = .ok N ∧ N.edge "x" "b" = .ok [[]] := by
  obtain ⟨N, h1, h2, _⟩ := C45_bipartite (A := Int) ["a", "b"] ["x"] (by decide) (by decide) (by decide) none
    (fun _ _ => []) (Or.inl ⟨rfl, fun _ _ => rfl⟩)
  exact ⟨N, h1, (h2 "b" (by decide) "x" (by decide)).2⟩

end Verif
