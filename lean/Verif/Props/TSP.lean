import Verif.Proofs.TSP
import Verif.Props.Hopfield
import Verif.Props.Utils
/-! # Properties C62, C63, C64: the Hopfield–Tank net -/

namespace Verif
open Spec MG Lean.Grind

/-! ## C62 -/

theorem grid_iff {n p c x : Nat} (hn : x < n * n) : (x / n, x % n) = (p, c) ↔ p < n ∧ c < n ∧ x = p * n + c := by
  have hpos : 0 < n := by
    rcases Nat.eq_zero_or_pos n with h | h
    · subst h; omega
    · exact h
  rw [Prod.mk.injEq]
  constructor
  · rintro ⟨rfl, rfl⟩
    refine ⟨Nat.div_lt_of_lt_mul hn, Nat.mod_lt _ hpos, ?_⟩
    rw [Nat.mul_comm]; exact (Nat.div_add_mod x n).symm
  · rintro ⟨h1, h2, rfl⟩
    constructor
    · rw [Nat.mul_comm, Nat.mul_add_div hpos, Nat.div_eq_of_lt h2]; rfl
    · rw [Nat.mul_comm, Nat.mul_add_mod, Nat.mod_eq_of_lt h2]

theorem grid_lt {n p c : Nat} (hp : p < n) (hc : c < n) : p * n + c < n * n := by
  have : (p + 1) * n ≤ n * n := Nat.mul_le_mul_right n hp
  rw [Nat.succ_mul] at this
  omega

/-- C62.  For every number `n` of points the labels are `0 .. n²-1`; the label map sends the label `x` to `(p, c)` iff
`x = p*n + c` with `p, c < n`, and the coordinate map is its inverse. -/
theorem C62_coordinates (n : Nat) :
    (nodeLabelMap n).keys = List.range (n * n) ∧
    (∀ x p c, (nodeLabelMap n).get? x = some (p, c) ↔ p < n ∧ c < n ∧ x = p * n + c) ∧
    (∀ x p c, (coordinateMap (nodeLabelMap n)).get? (p, c) = some x ↔ p < n ∧ c < n ∧ x = p * n + c) := by
  refine ⟨?_, ?_, ?_⟩
  · rw [nodeLabelMap_eq]; simp [Dict.keys, Function.comp_def]
  · intro x p c
    rw [nodeLabelMap_eq, Dict.get?_eq_some_iff]
    · simp only [List.mem_map, List.mem_range]
      constructor
      · rintro ⟨y, hy, h⟩
        rw [Prod.mk.injEq] at h
        obtain ⟨rfl, h⟩ := h
        exact (grid_iff hy).1 h
      · rintro ⟨h1, h2, rfl⟩
        have := grid_lt h1 h2
        exact ⟨_, this, by rw [(grid_iff this).2 ⟨h1, h2, rfl⟩]⟩
    · simp only [Dict.keys, List.map_map]
      rw [show (Prod.fst ∘ fun x : Nat => (x, x / n, x % n)) = id from rfl, List.map_id]
      exact List.nodup_range
  · intro x p c
    rw [coordinateMap_eq, Dict.get?_eq_some_iff]
    · simp only [List.mem_map, List.mem_range]
      constructor
      · rintro ⟨y, hy, h⟩
        rw [Prod.mk.injEq] at h
        obtain ⟨h, rfl⟩ := h
        exact (grid_iff hy).1 h
      · rintro ⟨h1, h2, rfl⟩
        have := grid_lt h1 h2
        exact ⟨_, this, by rw [(grid_iff this).2 ⟨h1, h2, rfl⟩]⟩
    · simp only [Dict.keys, List.map_map]
      refine List.pairwise_map.2 (List.nodup_range.imp ?_)
      intro a b hab h
      simp only [Function.comp, Prod.mk.injEq] at h
      apply hab
      rw [← Nat.div_add_mod a n, ← Nat.div_add_mod b n, h.1, h.2]

example : (nodeLabelMap 3).get? 5 = some (1, 2) ∧ (coordinateMap (nodeLabelMap 3)).get? (2, 1) = some 7 ∧
    (nodeLabelMap 3).get? 9 = none := by decide

/-! ## C63 -/

/-- Different numbers below `n`, `n` of them: every number below `n` occurs. -/
theorem perm_range_of_nodup {l : List Nat} {n : Nat} (hnd : l.Nodup) (hlen : l.length = n) (hlt : ∀ x ∈ l, x < n) :
    l.Perm (List.range n) := by
  refine perm_range_of_mem hnd (fun x => ⟨hlt x, fun hx => ?_⟩)
  by_cases h : x ∈ l
  · exact h
  · have hsub : ∀ y ∈ x :: l, y ∈ List.range n := by
      intro y hy
      rcases List.mem_cons.1 hy with rfl | hy
      · exact List.mem_range.2 hx
      · exact List.mem_range.2 (hlt y hy)
    have := List.Nodup.length_le_of_subset (List.nodup_cons.2 ⟨h, hnd⟩) hsub
    rw [List.length_cons, List.length_range] at this
    omega

theorem mapM_ok {α β : Type} (F : α → Except Err β) (g : α → β) (l : List α) (h : ∀ x ∈ l, F x = .ok (g x)) :
    l.mapM F = .ok (l.map g) := by
  induction l with
  | nil => rfl
  | cons a l ih =>
    rw [List.mapM_cons, h a (by simp), ih (fun x hx => h x (by simp [hx]))]
    rfl

theorem FirstMax_lt {E : Type} {le : E → E → Bool} {row : List E} {k : Nat} (h : FirstMax le row k) : k < row.length := by
  obtain ⟨v, hv, _⟩ := h
  by_cases hk : k < row.length
  · exact hk
  · rw [List.getElem?_eq_none (by omega)] at hv; cases hv

section
variable {R E : Type} [CommRing R]

/-- C63.  For every list of `n ≥ 1` points and every `n × n` matrix with entries in a total order, let `pos i` be the
column of the first maximum of row `i`.  If two rows have the same column, `get_tour_graph` raises.  Otherwise `pos` is a
permutation; with `tour` its inverse, the list of the points in the order of their columns, the graph has the nodes
`0 .. n-1`, its edges are exactly those from `tour[k]` to `tour[(k+1) mod n]`, one for each `k`, and the length is the
sum of the distances of these consecutive points.  So the edges form one closed tour through all points. -/
theorem C63_tour (sqrt : R → R) (le : E → E → Bool) (hle : TotalOrder le) (n : Nat) (hn : 1 ≤ n) (points : List (Pt R))
    (hp : points.length = n) (matrix : List (List E)) (hm : matrix.length = n) (hr : ∀ row ∈ matrix, row.length = n) :
    ∃ pos : Nat → Nat, (∀ i row, matrix[i]? = some row → FirstMax le row (pos i)) ∧
      ((∃ i j, i < n ∧ j < n ∧ i ≠ j ∧ pos i = pos j) →
        tourGraph sqrt le points matrix = .error (.exception "a point has already claimed a position in the tour")) ∧
      ((∀ i j, i < n → j < n → pos i = pos j → i = j) →
        ∃ (tour : Nat → Nat) (G : TourGraph R), tourGraph sqrt le points matrix = .ok G ∧
          (∀ k, k < n → tour k < n ∧ pos (tour k) = k) ∧ (∀ i, i < n → pos i < n ∧ tour (pos i) = i) ∧
          G.nodes = List.range n ∧
          G.edges.Perm ((List.range n).map (fun k => (tour k, tour ((k + 1) % n)))) ∧
          G.length = rsum n (fun k => ptDist sqrt (points.getD (tour k) (0, 0)) (points.getD (tour ((k + 1) % n)) (0, 0)))) := by
  -- the columns
  have harg : ∀ row ∈ matrix, ∃ k, argmax le row = .ok k ∧ FirstMax le row k := by
    intro row hrow
    refine argmax_spec hle.trans hle.total ?_
    intro h
    have := hr row hrow
    rw [h] at this
    simp at this; omega
  let posOf : List E → Nat := fun row => match argmax le row with
    | .ok k => k
    | .error _ => 0
  have hpos : ∀ row ∈ matrix, argmax le row = .ok (posOf row) ∧ FirstMax le row (posOf row) := by
    intro row hrow
    obtain ⟨k, h1, h2⟩ := harg row hrow
    have : posOf row = k := by simp only [posOf, h1]
    rw [this]; exact ⟨h1, h2⟩
  let ks : List Nat := matrix.map posOf
  have hks : matrix.map (argmax le) = ks.map .ok := by
    simp only [ks, List.map_map]
    exact List.map_congr_left (fun row hrow => (hpos row hrow).1)
  have hlen : ks.length = n := by simp [ks, hm]
  have hlt : ∀ k ∈ ks, k < n := by
    intro k hk
    obtain ⟨row, h1, rfl⟩ := List.mem_map.1 hk
    have := FirstMax_lt (hpos row h1).2
    rw [hr row h1] at this
    exact this
  have hget : ∀ i, i < n → ks[i]? = some (ks.getD i 0) := by
    intro i hi
    rw [List.getD_eq_getElem?_getD, List.getElem?_eq_getElem (by omega)]
    rfl
  have hgraph : tourGraph sqrt le points matrix = match tourPositions le matrix with
      | .error e => .error e
      | .ok d => match d.mapM (tourEdge sqrt points d) with
        | .error e => .error e
        | .ok es => .ok ⟨List.range points.length, es.map Prod.fst, (es.map Prod.snd).foldl (· + ·) 0⟩ := by
    unfold tourGraph
    rw [if_neg (by rw [hp, hm]; exact fun h => h rfl)]
    cases hmx : matrix with
    | nil => rw [hmx] at hm; simp at hm; omega
    | cons row0 rows =>
      simp only
      rw [if_neg (by rw [hp, hr row0 (by rw [hmx]; simp)]; exact fun h => h rfl)]
      rfl
  refine ⟨fun i => ks.getD i 0, ?_, ?_, ?_⟩
  · intro i row hrow
    have hmem := List.mem_of_getElem? hrow
    have hi : i < n := by
      by_cases h : i < matrix.length
      · omega
      · rw [List.getElem?_eq_none (by omega)] at hrow; cases hrow
    have : ks[i]? = some (posOf row) := by simp only [ks, List.getElem?_map, hrow, Option.map_some]
    rw [hget i hi] at this
    simp only
    rw [Option.some.inj this]
    exact (hpos row hmem).2
  · rintro ⟨i, j, hi, hj, hne, heq⟩
    rw [hgraph]
    unfold tourPositions
    rw [tourPositions_error matrix ks 0 [] hks (by simp [Dict.keys])]
    simp only [Dict.keys, List.map_nil, List.nil_append]
    intro hnd
    have e1 := hget i hi
    have e2 := hget j hj
    simp only at heq
    rw [heq] at e1
    exact hne ((List.getElem?_inj (by omega) hnd).1 (e1.trans e2.symm))
  · intro hinj
    have hnd : ks.Nodup := by
      rw [List.Nodup, List.pairwise_iff_getElem]
      intro i j hi hj hij h
      have := hinj i j (by omega) (by omega) (by
        simp only [List.getD_eq_getElem?_getD, List.getElem?_eq_getElem hi, List.getElem?_eq_getElem hj, h])
      omega
    have hperm : ks.Perm (List.range n) := perm_range_of_nodup hnd hlen hlt
    have hd : tourPositions le matrix = .ok (ks.zipIdx) := by
      unfold tourPositions
      rw [tourPositions_ok matrix ks 0 [] hks (by simpa [Dict.keys] using hnd)]
      rfl
    have hkeys : (Dict.keys (ks.zipIdx : Dict Nat Nat)) = ks := by
      simp only [Dict.keys]
      exact List.zipIdx_map_fst 0 ks
    have hdnd : (Dict.keys (ks.zipIdx : Dict Nat Nat)).Nodup := by rw [hkeys]; exact hnd
    -- the inverse
    have hsome : ∀ k, k < n → ∃ i, i < n ∧ Dict.get? (ks.zipIdx : Dict Nat Nat) k = some i ∧ ks.getD i 0 = k := by
      intro k hk
      have hmem : k ∈ ks := hperm.mem_iff.2 (List.mem_range.2 hk)
      obtain ⟨i, hi⟩ := List.mem_iff_getElem?.1 hmem
      have hil : i < n := by
        by_cases h : i < ks.length
        · omega
        · rw [List.getElem?_eq_none (by omega)] at hi; cases hi
      refine ⟨i, hil, Dict.get?_of_mem hdnd (List.mem_zipIdx_iff_getElem?.2 hi), ?_⟩
      rw [hget i hil] at hi
      exact Option.some.inj hi
    let tour : Nat → Nat := fun k => (Dict.get? (ks.zipIdx : Dict Nat Nat) k).getD 0
    have htour : ∀ k, k < n → Dict.get? (ks.zipIdx : Dict Nat Nat) k = some (tour k) ∧ tour k < n ∧ ks.getD (tour k) 0 = k := by
      intro k hk
      obtain ⟨i, h1, h2, h3⟩ := hsome k hk
      have : tour k = i := by simp only [tour, h2, Option.getD_some]
      rw [this]; exact ⟨h2, h1, h3⟩
    have hpt : ∀ i, i < n → points[i]? = some (points.getD i (0, 0)) := by
      intro i hi
      rw [List.getD_eq_getElem?_getD, List.getElem?_eq_getElem (by omega)]
      rfl
    have hedge : ∀ kp ∈ ks.zipIdx, tourEdge sqrt points ks.zipIdx kp = .ok ((tour kp.1, tour ((kp.1 + 1) % n)),
        ptDist sqrt (points.getD (tour kp.1) (0, 0)) (points.getD (tour ((kp.1 + 1) % n)) (0, 0))) := by
      rintro ⟨k, i⟩ hki
      have hk : k < n := hlt k (List.mem_of_getElem? (List.mem_zipIdx_iff_getElem?.1 hki))
      have hi : i = tour k := by
        have := Dict.get?_of_mem hdnd hki
        rw [(htour k hk).1] at this
        exact (Option.some.inj this).symm
      subst hi
      have hk' : (k + 1) % n < n := Nat.mod_lt _ (by omega)
      unfold tourEdge
      simp only [hp, Dict.get_eq_ok_iff.2 (htour _ hk').1, hpt _ (htour k hk).2.1, hpt _ (htour _ hk').2.1]
    refine ⟨tour, _, by rw [hgraph, hd]; simp only; rw [mapM_ok _ _ _ hedge], fun k hk => (htour k hk).2, ?_, ?_, ?_, ?_⟩
    · intro i hi
      have hk : ks.getD i 0 < n := hlt _ (List.mem_of_getElem? (hget i hi))
      exact ⟨hk, hinj _ _ (htour _ hk).2.1 hi (htour _ hk).2.2⟩
    · simp only [hp]
    · simp only [List.map_map, Function.comp_def]
      have : ks.zipIdx.map (fun kp => (tour kp.1, tour ((kp.1 + 1) % n))) = ks.map (fun k => (tour k, tour ((k + 1) % n))) := by
        conv => rhs; rw [← List.zipIdx_map_fst 0 ks, List.map_map]
        rfl
      rw [this]
      exact hperm.map _
    · simp only [List.map_map, Function.comp_def]
      have : ks.zipIdx.map (fun kp => ptDist sqrt (points.getD (tour kp.1) (0, 0)) (points.getD (tour ((kp.1 + 1) % n)) (0, 0))) =
          ks.map (fun k => ptDist sqrt (points.getD (tour k) (0, 0)) (points.getD (tour ((k + 1) % n)) (0, 0))) := by
        conv => rhs; rw [← List.zipIdx_map_fst 0 ks, List.map_map]
        rfl
      rw [this, foldl_add, lsum_perm (hperm.map _), lsum_range]
      grind

/-- The assertions: with another number of rows, or columns in the first row, than points, `get_tour_graph` raises
`AssertionError`; without points and rows, `IndexError`. -/
theorem C63_shape (sqrt : R → R) (le : E → E → Bool) (points : List (Pt R)) (matrix : List (List E)) :
    (points.length ≠ matrix.length → tourGraph sqrt le points matrix = .error .assertion) ∧
    (∀ row rows, matrix = row :: rows → points.length ≠ row.length → tourGraph sqrt le points matrix = .error .assertion) ∧
    (points = [] → matrix = [] → tourGraph sqrt le points matrix = .error .indexError) := by
  refine ⟨?_, ?_, ?_⟩
  · intro h; unfold tourGraph; rw [if_pos h]
  · rintro row rows rfl h
    unfold tourGraph
    by_cases h' : points.length ≠ (row :: rows).length
    · rw [if_pos h']
    · rw [if_neg h']
      simp only
      rw [if_pos h]
  · rintro rfl rfl; rfl

end

theorem totalOrder_int : TotalOrder (fun a b : Int => decide (a ≤ b)) :=
  ⟨by intro a b c h1 h2; simp only [decide_eq_true_eq] at *; omega,
   by intro a b; simp only [Bool.or_eq_true, decide_eq_true_eq]; omega,
   by intro a b h1 h2; simp only [decide_eq_true_eq] at *; omega⟩

/-- Three points, visited in the order 1, 2, 0; the "square root" is taken to be the identity. -/
example : tourGraph (R := Int) (fun x => x) (fun (a b : Int) => decide (a ≤ b)) [(0, 0), (3, 0), (0, 4)]
    [[0, 1, 9], [9, 0, 0], [2, 8, 8]] = .ok ⟨[0, 1, 2], [(0, 1), (1, 2), (2, 0)], 9 + 25 + 16⟩ := by decide
example : tourGraph (R := Int) (fun x => x) (fun (a b : Int) => decide (a ≤ b)) [(0, 0), (3, 0)] [[0, 1], [0, 2]] =
    .error (.exception "a point has already claimed a position in the tour") := by decide

/-! ## C64 -/

section
variable {R : Type} [CommRing R]

theorem ptDist_symm (sqrt : R → R) (a b : Pt R) : ptDist sqrt a b = ptDist sqrt b a := by
  unfold ptDist
  congr 1
  grind

/-- The distance of two of the points, 0 for a point and itself. -/
def distOf (sqrt : R → R) (points : List (Pt R)) (i j : Nat) : R :=
  if i = j then 0 else ptDist sqrt (points.getD i (0, 0)) (points.getD j (0, 0))

theorem distOf_symm (sqrt : R → R) (points : List (Pt R)) (i j : Nat) : distOf sqrt points i j = distOf sqrt points j i := by
  unfold distOf
  by_cases h : i = j
  · subst h; rfl
  · rw [if_neg h, if_neg (fun e => h e.symm), ptDist_symm]

theorem mem_tspDistances (sqrt : R → R) (points : List (Pt R)) (t : Nat × Nat × R) :
    t ∈ tspDistances sqrt points ↔ t.1 < t.2.1 ∧ t.2.1 < points.length ∧ t.2.2 = distOf sqrt points t.1 t.2.1 := by
  unfold tspDistances
  simp only [List.mem_flatMap, List.mem_range, List.mem_map, List.mem_range'_1]
  constructor
  · rintro ⟨i, hi, j, hj, rfl⟩
    refine ⟨by simp only; omega, by simp only; omega, ?_⟩
    simp only [distOf]
    rw [if_neg (by omega)]
  · obtain ⟨i, j, d⟩ := t
    rintro ⟨h1, h2, h3⟩
    simp only at h1 h2 h3
    refine ⟨i, by omega, j, by omega, ?_⟩
    rw [h3]
    simp only [distOf]
    rw [if_neg (by omega)]

/-- C64, distances.  For `n ≥ 2` points the distance map has exactly the keys `(i, j)` with `i, j < n`; the value is
`sqrt((x_j-x_i)² + (y_j-y_i)²)` for `i ≠ j` and 0 for `i = j`, so it is symmetric.  (With a single point the map is
empty.) -/
theorem C64_distances (sqrt : R → R) (points : List (Pt R)) :
    (2 ≤ points.length → ∀ i j, (distancesMap (tspDistances sqrt points)).get? (i, j) =
      if i < points.length ∧ j < points.length then
        some (if i = j then 0 else
          sqrt (((points.getD j (0, 0)).1 - (points.getD i (0, 0)).1) ^ 2 + ((points.getD j (0, 0)).2 - (points.getD i (0, 0)).2) ^ 2))
      else none) ∧
    (2 ≤ points.length → ∀ i j, (distancesMap (tspDistances sqrt points)).get? (i, j) =
      (distancesMap (tspDistances sqrt points)).get? (j, i)) ∧
    (points.length < 2 → distancesMap (tspDistances sqrt points) = []) := by
  have key : 2 ≤ points.length → ∀ i j, (distancesMap (tspDistances sqrt points)).get? (i, j) =
      if i < points.length ∧ j < points.length then some (distOf sqrt points i j) else none := by
    intro hn i j
    obtain ⟨h1, h2⟩ := distances_fold (distOf sqrt points) (distOf_symm sqrt points) (fun i => by simp [distOf])
      (tspDistances sqrt points) (fun t ht => ((mem_tspDistances sqrt points t).1 ht).2.2) [] (by intro k v h; cases h) i j
    unfold distancesMap
    simp only [Dict.get?, ne_eq, _root_.not_true, false_or] at h2
    split
    · rename_i hij
      have hne : ((tspDistances sqrt points).foldl distStep []).get? (i, j) ≠ none := by
        refine h2.2 ?_
        by_cases h : i = j
        · subst h
          by_cases h0 : i = 0
          · subst h0
            exact ⟨(0, 1, distOf sqrt points 0 1), (mem_tspDistances _ _ _).2 ⟨by simp, by simp only; omega, rfl⟩, by simp⟩
          · exact ⟨(0, i, distOf sqrt points 0 i), (mem_tspDistances _ _ _).2 ⟨by simp only; omega, by simp only; omega, rfl⟩, by simp⟩
        · by_cases hlt : i < j
          · exact ⟨(i, j, distOf sqrt points i j), (mem_tspDistances _ _ _).2 ⟨hlt, hij.2, rfl⟩, by simp⟩
          · exact ⟨(j, i, distOf sqrt points j i), (mem_tspDistances _ _ _).2 ⟨by simp only; omega, hij.1, rfl⟩, by simp⟩
      cases hv : ((tspDistances sqrt points).foldl distStep []).get? (i, j) with
      | none => exact absurd hv hne
      | some v => rw [h1 v hv]
    · rename_i hij
      cases hv : ((tspDistances sqrt points).foldl distStep []).get? (i, j) with
      | none => rfl
      | some v =>
        exfalso
        obtain ⟨t, ht, h⟩ := h2.1 (by rw [hv]; exact fun h => by cases h)
        obtain ⟨t1, t2, _⟩ := (mem_tspDistances sqrt points t).1 ht
        simp only [Prod.mk.injEq] at h
        rcases h with ⟨rfl, rfl⟩ | ⟨rfl, rfl⟩ | ⟨rfl, rfl⟩ | ⟨rfl, rfl⟩ <;> omega
  refine ⟨?_, ?_, ?_⟩
  · intro hn i j; rw [key hn]; rfl
  · intro hn i j
    rw [key hn, key hn, distOf_symm]
    simp only [And.comm]
  · intro h
    have : tspDistances sqrt points = [] := by
      unfold tspDistances
      rw [show points.length - 1 = 0 by omega]; rfl
    rw [this]; rfl

/-- The distance map holds `distOf`. -/
theorem distancesMap_get {sqrt : R → R} {points : List (Pt R)} (hn : 2 ≤ points.length) {i j : Nat} (hi : i < points.length)
    (hj : j < points.length) : (distancesMap (tspDistances sqrt points)).get (i, j) = .ok (distOf sqrt points i j) := by
  rw [Dict.get_eq_ok_iff, (C64_distances sqrt points).1 hn, if_pos ⟨hi, hj⟩]
  rfl

omit [CommRing R] in
theorem opposite_eq {nbrs : List Nat} (s : Nat → R) {y : Nat} (hy : y ∈ nbrs) :
    oppositeActivity (nbrs.map s) nbrs y = .ok (s y) := by
  unfold oppositeActivity
  cases hi : nbrs.idxOf? y with
  | none =>
    rw [List.idxOf?_eq_none_iff] at hi
    exact absurd hy hi
  | some i =>
    simp only
    rw [List.idxOf?_eq_some_iff] at hi
    obtain ⟨h, e, _⟩ := hi
    simp [List.getElem?_eq_getElem h, e]

/-- The part of a neighbour in the four sums. -/
def tspPart (V : R → R) (n : Nat) (dist : Nat → Nat → R) (s : Nat → R) (row col y : Nat) : TSPSums R :=
  ⟨if y / n = row ∧ y % n ≠ col then V (s y) else 0, if y % n = col ∧ y / n ≠ row then V (s y) else 0, V (s y),
    if y % n = (col + (n - 1)) % n then dist row (y / n) * (V (s y) + V (s ((y / n) * n + (col + 1) % n))) else 0⟩

theorem pred_mod {n c y : Nat} (hn : 1 ≤ n) :
    ((y : Int) = ((c : Int) - 1) % (n : Int)) ↔ y = (c + (n - 1)) % n := by
  have e : ((c : Int) - 1) % (n : Int) = (((c + (n - 1)) % n : Nat) : Int) := by
    rw [Int.natCast_emod, ← Int.add_emod_right]
    congr 1
    omega
  rw [e]
  omega

theorem tspStep_eq {I : Type} {V : R → R} {sqrt : R → R} {points : List (Pt R)} {n : Nat} (hp : points.length = n) (hn : 2 ≤ n)
    (dt A B C D h : R) {ctx : NodeCtx Nat Int R I} {s : Nat → R} (hacts : ctx.neighbourActs = ctx.neighbours.map s)
    (hall : ∀ y, y < n * n → y ∈ ctx.neighbours) {row col : Nat} (hrow : row < n) {i y : Nat} (hy : y < n * n)
    (hi : ctx.neighbours[i]? = some y) (t : TSPSums R) :
    tspStep V (tspNet sqrt points dt A B C D h) ctx row col t (s y, i) =
      .ok ⟨t.a + (tspPart V n (distOf sqrt points) s row col y).a, t.b + (tspPart V n (distOf sqrt points) s row col y).b,
        t.c + (tspPart V n (distOf sqrt points) s row col y).c, t.d + (tspPart V n (distOf sqrt points) s row col y).d⟩ := by
  have hyr : y / n < n := Nat.div_lt_of_lt_mul hy
  have hyc : y % n < n := Nat.mod_lt _ (by omega)
  have hlab : (nodeLabelMap n).get y = .ok (y / n, y % n) := by
    rw [Dict.get_eq_ok_iff, (C62_coordinates n).2.1]
    refine ⟨hyr, hyc, ?_⟩
    rw [Nat.mul_comm]; exact (Nat.div_add_mod y n).symm
  have hc1 : (col + 1) % n < n := Nat.mod_lt _ (by omega)
  have hcoord : (coordinateMap (nodeLabelMap n)).get (y / n, (col + 1) % n) = .ok ((y / n) * n + (col + 1) % n) := by
    rw [Dict.get_eq_ok_iff, (C62_coordinates n).2.2]
    exact ⟨hyr, hc1, rfl⟩
  have hopp := opposite_eq s (hall _ (grid_lt hyr hc1))
  have hdist : (distancesMap (tspDistances sqrt points)).get (y / n, row) = .ok (distOf sqrt points row (y / n)) := by
    rw [distancesMap_get (by omega) (by omega) (by omega), distOf_symm]
  unfold tspStep tspNet
  simp only [hi, hp, hlab, hcoord, hacts, hopp, hdist, pred_mod (n := n) (c := col) (y := y % n) (by omega), tspPart]
  have z : ∀ a : R, a + 0 = a := fun a => by grind
  by_cases h3 : y % n = (col + (n - 1)) % n
  · simp only [if_pos h3]
    congr 1
    congr 1
    · split <;> simp only [z]
    · split <;> simp only [z]
  · simp only [if_neg h3]
    congr 1
    congr 1
    · split <;> simp only [z]
    · split <;> simp only [z]
    · simp only [z]

theorem tspSums_eq {I : Type} {V : R → R} {sqrt : R → R} {points : List (Pt R)} {n : Nat} (hp : points.length = n) (hn : 2 ≤ n)
    (dt A B C D h : R) {ctx : NodeCtx Nat Int R I} {s : Nat → R} (hacts : ctx.neighbourActs = ctx.neighbours.map s)
    (hnb : ctx.neighbours.Perm (List.range (n * n))) {row col : Nat} (hrow : row < n) :
    ctx.neighbourActs.zipIdx.foldlM (tspStep V (tspNet sqrt points dt A B C D h) ctx row col) ⟨0, 0, 0, 0⟩ =
      .ok ⟨rsum (n * n) (fun y => (tspPart V n (distOf sqrt points) s row col y).a),
        rsum (n * n) (fun y => (tspPart V n (distOf sqrt points) s row col y).b),
        rsum (n * n) (fun y => (tspPart V n (distOf sqrt points) s row col y).c),
        rsum (n * n) (fun y => (tspPart V n (distOf sqrt points) s row col y).d)⟩ := by
  have hall : ∀ y, y < n * n → y ∈ ctx.neighbours := fun y hy => hnb.mem_iff.2 (List.mem_range.2 hy)
  have step : ∀ (l : List Nat) (i0 : Nat) (t : TSPSums R), (∀ (j : Nat) y, l[j]? = some y → ctx.neighbours[i0 + j]? = some y) →
      ((l.map s).zipIdx i0).foldlM (tspStep V (tspNet sqrt points dt A B C D h) ctx row col) t =
      .ok ⟨t.a + lsum (l.map (fun y => (tspPart V n (distOf sqrt points) s row col y).a)),
        t.b + lsum (l.map (fun y => (tspPart V n (distOf sqrt points) s row col y).b)),
        t.c + lsum (l.map (fun y => (tspPart V n (distOf sqrt points) s row col y).c)),
        t.d + lsum (l.map (fun y => (tspPart V n (distOf sqrt points) s row col y).d))⟩ := by
    intro l
    induction l with
    | nil =>
      intro i0 t _
      have z : ∀ a : R, a + 0 = a := fun a => by grind
      simp [lsum, pure, Except.pure, z]
    | cons y l ih =>
      intro i0 t hl
      have hy := hl 0 y rfl
      rw [Nat.add_zero] at hy
      have hyn : y < n * n := List.mem_range.1 (hnb.mem_iff.1 (List.mem_of_getElem? hy))
      rw [List.map_cons, List.zipIdx_cons, List.foldlM_cons, tspStep_eq hp hn dt A B C D h hacts hall hrow hyn hy t]
      simp only [bind, Except.bind]
      rw [ih (i0 + 1) _ (fun j z hz => by
        have := hl (j + 1) z hz
        rw [show i0 + 1 + j = i0 + (j + 1) by omega]; exact this)]
      have z : ∀ a b c : R, a + b + c = a + (b + c) := fun a b c => by grind
      simp only [lsum, List.map_cons, List.foldr_cons, z]
  rw [hacts, step ctx.neighbours 0 _ (fun j y h => by rw [Nat.zero_add]; exact h)]
  have z : ∀ a : R, 0 + a = a := fun a => by grind
  simp only [z, lsum_perm (hnb.map _), lsum_range]

/-- C64, one update.  For `n ≥ 2` points and a context in which all `n²` units are neighbours, in any order, and `u p c` is
the activity of the unit of point `p` and position `c`: `activity_rule` returns the value of the equation. -/
theorem C64_rule {I : Type} (V : R → R) (sqrt : R → R) (points : List (Pt R)) (n : Nat) (hp : points.length = n) (hn : 2 ≤ n)
    (dt A B C D h : R) (ctx : NodeCtx Nat Int R I) (u : Nat → Nat → R)
    (hnb : ctx.neighbours.Perm (List.range (n * n))) (hacts : ctx.neighbourActs = ctx.neighbours.map (fun y => u (y / n) (y % n)))
    (x c : Nat) (hx : x < n) (hc : c < n) (hnode : ctx.node = x * n + c) (hcur : ctx.current = u x c) :
    tspRule V (tspNet sqrt points dt A B C D h) ctx =
      .ok (tspUpdate n dt A B C D h (fun i j => if i = j then 0 else ptDist sqrt (points.getD i (0, 0)) (points.getD j (0, 0))) V u x c) := by
  unfold tspRule
  have hlab : (tspNet sqrt points dt A B C D h).labels.get ctx.node = .ok (x, c) := by
    show (nodeLabelMap points.length).get _ = _
    rw [hp, Dict.get_eq_ok_iff, (C62_coordinates n).2.1]
    exact ⟨hx, hc, hnode⟩
  rw [hlab]
  simp only
  rw [tspSums_eq hp hn dt A B C D h hacts hnb hx]
  simp only [rsum_grid]
  have hdiv : ∀ p j, j < n → (p * n + j) / n = p := fun p j hj => by
    rw [Nat.mul_comm, Nat.mul_add_div (by omega), Nat.div_eq_of_lt hj]; rfl
  have hmod : ∀ p j, j < n → (p * n + j) % n = j := fun p j hj => by
    rw [Nat.mul_comm, Nat.mul_add_mod, Nat.mod_eq_of_lt hj]
  have hpart : ∀ p j, j < n → tspPart V n (distOf sqrt points) (fun y => u (y / n) (y % n)) x c (p * n + j) =
      ⟨if p = x ∧ j ≠ c then V (u p j) else 0, if j = c ∧ p ≠ x then V (u p j) else 0, V (u p j),
        if j = (c + (n - 1)) % n then distOf sqrt points x p * (V (u p j) + V (u p ((c + 1) % n))) else 0⟩ := by
    intro p j hj
    unfold tspPart
    simp only [hdiv p j hj, hmod p j hj, hdiv p _ (Nat.mod_lt (c + 1) (show n > 0 by omega)),
      hmod p _ (Nat.mod_lt (c + 1) (show n > 0 by omega))]
  have ha : rsum n (fun p => rsum n (fun j => (tspPart V n (distOf sqrt points) (fun y => u (y / n) (y % n)) x c (p * n + j)).a)) =
      rsum n (fun j => if j = c then 0 else V (u x j)) := by
    rw [rsum_congr (g := fun p => if p = x then rsum n (fun j => if j = c then 0 else V (u p j)) else 0), rsum_single hx]
    intro p _
    by_cases h : p = x
    · rw [if_pos h]
      refine rsum_congr (fun j hj => ?_)
      rw [hpart p j hj]
      by_cases h' : j = c <;> simp [h, h']
    · rw [if_neg h, ← rsum_zero n]
      refine rsum_congr (fun j hj => ?_)
      rw [hpart p j hj]
      simp [h]
  have hb : rsum n (fun p => rsum n (fun j => (tspPart V n (distOf sqrt points) (fun y => u (y / n) (y % n)) x c (p * n + j)).b)) =
      rsum n (fun p => if p = x then 0 else V (u p c)) := by
    refine rsum_congr (fun p _ => ?_)
    rw [rsum_congr (g := fun j => if j = c then (if p = x then 0 else V (u p j)) else 0), rsum_single hc]
    intro j hj
    rw [hpart p j hj]
    by_cases h : j = c <;> by_cases h' : p = x <;> simp [h, h']
  have hcs : rsum n (fun p => rsum n (fun j => (tspPart V n (distOf sqrt points) (fun y => u (y / n) (y % n)) x c (p * n + j)).c)) =
      rsum n (fun p => rsum n (fun j => V (u p j))) := by
    refine rsum_congr (fun p _ => rsum_congr (fun j hj => ?_))
    rw [hpart p j hj]
  have hd : rsum n (fun p => rsum n (fun j => (tspPart V n (distOf sqrt points) (fun y => u (y / n) (y % n)) x c (p * n + j)).d)) =
      rsum n (fun y => distOf sqrt points x y * (V (u y ((c + 1) % n)) + V (u y ((c + (n - 1)) % n)))) := by
    refine rsum_congr (fun p _ => ?_)
    rw [rsum_congr (g := fun j => if j = (c + (n - 1)) % n then distOf sqrt points x p * (V (u p j) + V (u p ((c + 1) % n))) else 0),
      rsum_single (Nat.mod_lt _ (by omega))]
    · grind
    · intro j hj
      rw [hpart p j hj]
  rw [ha, hb, hcs, hd, hcur]
  rfl

/-- The matrix of the activities after `t` steps of the equation. -/
def tspRun (n : Nat) (dt A B C D h : R) (dist : Nat → Nat → R) (V : R → R) (u : Nat → Nat → R) : Nat → Nat → Nat → R
  | 0 => u
  | t + 1 => tspUpdate n dt A B C D h dist V (tspRun n dt A B C D h dist V u t)

variable [DecidableEq R] {I σ κ : Type} [DecidableEq κ]

/-- C64, runs.  On the network made from the adjacency matrix of the net, `evolve` with `activity_rule` for `T` timesteps
shows the successive values of the equation, for every number `n ≥ 2` of points and all initial activities; without
memoization (the rule depends on the node, so memoization would be wrong). -/
theorem C64_run (V : R → R) (sqrt : R → R) (points : List (Pt R)) (n : Nat) (hp : points.length = n) (hn : 2 ≤ n)
    (dt A B C D h : R) (cfg : Config Nat Int R I σ κ) (T : Nat) (hT : 1 ≤ T)
    (ho : cfg.Ordinary (tspRule V (tspNet sqrt points dt A B C D h)) T) (hm : cfg.memoize = false) (r : Nat)
    (w : World Nat Int σ) (hr : w.heap[r]? = some (fromAdjacencyMatrix (tspMatrix n))) (init : Option (Conds Nat R))
    (u : Nat → Nat → R) (hlen : (initDict cfg init).length = n * n)
    (h0 : ∀ p c, p < n → c < n → (initDict cfg init).get? (p * n + c) = some (u p c)) (fuel : Nat) (hf : T ≤ fuel) :
    ∃ res, evolve fuel cfg init r w = .ok res ∧ ShowsRun cfg res T (n * n) (fun t x =>
      tspRun n dt A B C D h (fun i j => if i = j then 0 else ptDist sqrt (points.getD i (0, 0)) (points.getD j (0, 0))) V u t
        (x / n) (x % n)) := by
  have hmat : tspMatrix n = matOf (n * n) (fun _ _ => 1) := rfl
  rw [hmat] at hr
  have hnn : 1 ≤ n * n := Nat.mul_pos (by omega) (by omega)
  have hlab : (fromAdjacencyMatrix (matOf (n * n) (fun _ _ => 1))).labels.Perm (List.range (n * n)) := by
    refine perm_range_of_mem (nodup_matOf_labels _ _) (fun x => ?_)
    rw [labels_matOf]
    exact ⟨fun h => h.1, fun h => ⟨h, x, h, Or.inl (by decide)⟩⟩
  have hnb : ∀ x, x < n * n → specNbrs (fromAdjacencyMatrix (matOf (n * n) (fun _ _ => 1))) x =
      some (sources (adjMG (matOf (n * n) (fun _ _ => 1))).edges x) ∧
      (sources (adjMG (matOf (n * n) (fun _ _ => 1))).edges x).Perm (List.range (n * n)) := by
    intro x hx
    obtain ⟨c1, _, c3, _⟩ := adj_context (W := fun _ _ => 1) rfl (hlab.mem_iff.2 (List.mem_range.2 hx))
    refine ⟨c1, ?_⟩
    have : (List.range (n * n)).filter (fun y => decide (x < n * n ∧ (1 : Int) ≠ 0)) = List.range (n * n) := by
      rw [List.filter_eq_self]
      intro y _
      simp [hx]
    rw [this] at c3
    exact c3
  refine ca_run ho hT hnn hlab (nb := fun x => sources (adjMG (matOf (n * n) (fun _ _ => 1))).edges x) ?_ hlen ?_ ?_
    (by intro hh; rw [hm] at hh; cases hh) hr hf
  · intro x hx
    exact ⟨(hnb x hx).1, fun y hy => List.mem_range.1 ((hnb x hx).2.mem_iff.1 hy)⟩
  · intro x hx
    obtain ⟨h1, h2, h3⟩ := (grid_iff hx).1 rfl
    have := h0 _ _ h1 h2
    rw [← h3] at this
    exact this
  · intro t ht x hx
    obtain ⟨h1, h2, h3⟩ := (grid_iff hx).1 rfl
    exact C64_rule V sqrt points n hp hn dt A B C D h _
      (tspRun n dt A B C D h (fun i j => if i = j then 0 else ptDist sqrt (points.getD i (0, 0)) (points.getD j (0, 0))) V u t)
      (hnb x hx).2 rfl (x / n) (x % n) h1 h2 h3 rfl

end

/-- With a single point the distance map is empty and the only unit is its own neighbour: the rule raises `KeyError`. -/
theorem C64_one_point {R : Type} [CommRing R] {I : Type} (V : R → R) (sqrt : R → R) (p : Pt R) (dt A B C D h : R)
    (ctx : NodeCtx Nat Int R I) (hnode : ctx.node = 0) (hnb : ctx.neighbours = [0]) (v : R) (hacts : ctx.neighbourActs = [v]) :
    tspRule V (tspNet sqrt [p] dt A B C D h) ctx = .error .keyError := by
  have h1 : (nodeLabelMap 1).get 0 = .ok (0, 0) := by decide
  have h2 : (coordinateMap (nodeLabelMap 1)).get (0, 0) = .ok 0 := by decide
  have h5 : Dict.get ([] : Dict (Nat × Nat) R) (0, 0) = .error .keyError := rfl
  have h4 : distancesMap (tspDistances sqrt [p]) = [] := rfl
  unfold tspRule
  simp only [tspNet, hnode, h4, List.length_cons, List.length_nil, Nat.zero_add, h1, hacts]
  simp [tspStep, hnb, hacts, h1, h2, h5, oppositeActivity, bind, Except.bind]

/-- One update of a net of two points over the integers, with `V = id`, `sqrt = id`, `dt = 1`, `A = 2`, `B = 3`, `C = 1`,
`D = 1`, `n = 2`; the hypotheses of `C64_rule` hold of this context. -/
example : tspRule (I := Unit) (fun v : Int => v) (tspNet (fun v => v) [(0, 0), (3, 4)] 1 2 3 1 1 2)
      ⟨1, 1, [], [0, 1, 2, 3], [10, 20, 30, 40], [], 20, none, none⟩ =
    .ok (20 + (-20 - 2 * 10 - 3 * 40 - 1 * (100 - 2) - 1 * (25 * (30 + 30)))) := by decide

example : (distancesMap (tspDistances (fun v : Int => v) [(0, 0), (3, 4), (1, 0)])).get? (2, 1) = some 20 := by decide

end Verif
