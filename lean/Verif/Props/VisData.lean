import Verif.Proofs.VisData
import Verif.Proofs.Langton
import Verif.Props.Lattice
/-! # C87 - C89: the data of animations and of the `vis` module -/

namespace Verif
open Verif.Spec Verif.MG

/-! ## `_reshape_for_animation` -/

section
variable {V : Type}

/-- C87, one-dimensional shape: one frame per state; frame `i` shows the states up to `i` in their rows and zeros in the rows
below. -/
theorem C87_one_dim (zero : V) (activities : List (List V)) (w : Nat) (hne : activities ≠ [])
    (hlen : ∀ row ∈ activities, row.length = w) :
    ∃ frames, reshapeForAnimation zero activities [w] = .ok frames ∧ frames.length = activities.length ∧
      ∀ i, i < activities.length → ∃ frame, frames[i]? = some frame ∧ frame.length = activities.length ∧
        ∀ j, j < activities.length → frame[j]? = if j ≤ i then activities[j]? else some (List.replicate w zero) := by
  obtain ⟨a, l, rfl⟩ := List.exists_cons_of_ne_nil hne
  have ha := hlen a (by simp)
  refine ⟨(List.range (a :: l).length).map (animationFrame zero (a :: l) a.length), ?_, by simp, ?_⟩
  · simp only [reshapeForAnimation]; rw [if_pos ha.symm]
  · generalize a :: l = acts at *
    intro i hi
    refine ⟨animationFrame zero acts a.length i, by rw [List.getElem?_map, List.getElem?_range hi]; rfl, ?_, ?_⟩
    · simp only [animationFrame, List.length_append, List.length_replicate, List.length_take]; omega
    · intro j hj
      simp only [animationFrame, List.getElem?_append, List.length_take, ha, List.getElem?_replicate, List.getElem?_take]
      by_cases h : j ≤ i
      · rw [if_pos (by omega), if_pos (by omega), if_pos h]
      · rw [if_neg (by omega), if_pos (by omega), if_neg h]

/-- C87, two-dimensional shape: frame `t` shows state `t` row by row. -/
theorem C87_two_dim (zero : V) (activities : List (List V)) (rows cols : Nat)
    (hlen : ∀ row ∈ activities, row.length = rows * cols) :
    ∃ frames, reshapeForAnimation zero activities [rows, cols] = .ok frames ∧ frames.length = activities.length ∧
      ∀ (t : Nat) (state : List V), activities[t]? = some state → ∃ frame, frames[t]? = some frame ∧ frame.length = rows ∧
        ∀ y, y < rows → ∃ row, frame[y]? = some row ∧ row.length = cols ∧
          ∀ x, x < cols → row[x]? = state[y * cols + x]? := by
  refine ⟨activities.map (animationGrid rows cols), ?_, by simp, ?_⟩
  · simp only [reshapeForAnimation]
    rw [if_pos]
    rw [List.all_eq_true]; intro row hr; exact decide_eq_true (hlen row hr)
  · intro t state ht
    have hl := hlen state (List.mem_of_getElem? ht)
    refine ⟨animationGrid rows cols state, by rw [List.getElem?_map, ht]; rfl, by simp [animationGrid], ?_⟩
    intro y hy
    refine ⟨(state.drop (y * cols)).take cols, by simp [animationGrid, hy], ?_, ?_⟩
    · rw [List.length_take, List.length_drop, hl]
      have : (y + 1) * cols ≤ rows * cols := Nat.mul_le_mul_right cols hy
      rw [Nat.add_mul, Nat.one_mul] at this
      omega
    · intro x hx
      rw [List.getElem?_take, if_pos hx, List.getElem?_drop]

/-- C87: when it raises. -/
theorem C87_raises (zero : V) (activities : List (List V)) (shape : List Nat) :
    (activities = [] → ∀ w, shape = [w] → reshapeForAnimation zero activities shape = .error .indexError) ∧
    (∀ a l w, activities = a :: l → shape = [w] → w ≠ a.length → reshapeForAnimation zero activities shape = .error .assertion) ∧
    (∀ r c, shape = [r, c] → (∃ row ∈ activities, row.length ≠ r * c) →
      reshapeForAnimation zero activities shape = .error .valueError) ∧
    (shape.length ≠ 1 → shape.length ≠ 2 →
      reshapeForAnimation zero activities shape = .error (.exception "shape must be a tuple of length 1 or 2")) := by
  refine ⟨?_, ?_, ?_, ?_⟩
  · rintro rfl w rfl; rfl
  · rintro a l w rfl rfl h; simp only [reshapeForAnimation]; rw [if_neg h]
  · rintro r c rfl ⟨row, hr, hne⟩
    simp only [reshapeForAnimation]
    rw [if_neg]
    intro h
    rw [List.all_eq_true] at h
    exact hne (of_decide_eq_true (h row hr))
  · intro h1 h2
    match shape, h1, h2 with
    | [], _, _ => rfl
    | [_], h1, _ => exact absurd rfl h1
    | [_, _], _, h2 => exact absurd rfl h2
    | _ :: _ :: _ :: _, _, _ => rfl

example : reshapeForAnimation 0 [[1, 2], [3, 4], [5, 6]] [2] =
    .ok [[[1, 2], [0, 0], [0, 0]], [[1, 2], [3, 4], [0, 0]], [[1, 2], [3, 4], [5, 6]]] := by decide
example : reshapeForAnimation 0 [[1, 2, 3, 4, 5, 6]] [2, 3] = .ok [[[1, 2, 3], [4, 5, 6]]] := by decide

end

/-! ## `lattice_pos` -/

/-- C88: node `k` is at column `k / n_y`, row `k % n_y`; there are `n_x * n_y` nodes. -/
theorem C88_positions (nx ny k : Nat) :
    (latticePos nx ny).get? k = if k < nx * ny then some (k / ny, k % ny) else none := by
  unfold latticePos
  rw [get?_zipIdx_swap, if_pos (Nat.zero_le _), Nat.sub_zero]
  have hs : Shaped nx ny ((List.range nx).map (fun i => (List.range ny).map (fun j => (i, j)))) := by
    constructor
    · simp
    · intro r hr
      obtain ⟨i, _, rfl⟩ := List.mem_map.1 hr
      simp
  obtain ⟨h1, h2⟩ := flatten_get hs
  rw [List.flatMap_def]
  by_cases hk : k < nx * ny
  · have hpos : 0 < ny := Nat.pos_of_ne_zero (by rintro rfl; simp at hk)
    have hd : k / ny < nx := Nat.div_lt_of_lt_mul (by rwa [Nat.mul_comm] at hk)
    have hm : k % ny < ny := Nat.mod_lt _ hpos
    rw [if_pos hk]
    conv => lhs; rw [← Nat.div_add_mod k ny, Nat.mul_comm]
    rw [h2 _ _ hd hm]
    simp [gridAt, hd, hm]
  · rw [if_neg hk]
    exact List.getElem?_eq_none (by omega)

/-- Positions one step apart, horizontally or vertically. -/
def OneStep (p q : Nat × Nat) : Prop :=
  (p.1 = q.1 ∧ (p.2 + 1 = q.2 ∨ q.2 + 1 = p.2)) ∨ (p.2 = q.2 ∧ (p.1 + 1 = q.1 ∨ q.1 + 1 = p.1))

/-- Both nodes have positions, one step apart. -/
def PosStep (pos : Dict Nat (Nat × Nat)) (x y : Nat) : Prop := ∃ p q, pos.get? x = some p ∧ pos.get? y = some q ∧ OneStep p q

theorem posStep_iff (nx ny x y : Nat) : PosStep (latticePos nx ny) x y ↔
    x < nx * ny ∧ y < nx * ny ∧ OneStep (x / ny, x % ny) (y / ny, y % ny) := by
  unfold PosStep
  simp only [C88_positions]
  constructor
  · rintro ⟨p, q, hp, hq, h⟩
    split at hp
    · split at hq
      · cases hp; cases hq; exact ⟨by assumption, by assumption, h⟩
      · cases hq
    · cases hp
  · rintro ⟨h1, h2, h⟩
    exact ⟨_, _, if_pos h1, if_pos h2, h⟩

theorem gridLink_layers (nx ny x y : Nat) : GridLink false [1, ny, nx] x y ↔ PosStep (latticePos nx ny) x y := by
  rw [posStep_iff]
  have hc : gridCells [1, ny, nx] = nx * ny := by simp [gridCells, Nat.mul_comm]
  have c0 : ∀ z, coord [1, ny, nx] 0 z = 0 := fun z => by simp [coord, Nat.mod_one]
  have c1 : ∀ z, coord [1, ny, nx] 1 z = z % ny := fun z => by simp [coord, gridCells]
  have c2 : ∀ z, z < nx * ny → coord [1, ny, nx] 2 z = z / ny := fun z hz => by
    simp only [coord, gridCells, List.take_succ_cons, List.take_zero, Nat.mul_one, Nat.one_mul]
    exact Nat.mod_eq_of_lt (Nat.div_lt_of_lt_mul (by rwa [Nat.mul_comm] at hz))
  unfold GridLink
  rw [hc]
  refine and_congr_right fun hx => and_congr_right fun hy => ?_
  have e2x := c2 x hx
  have e2y := c2 y hy
  unfold OneStep Near
  constructor
  · rintro ⟨i, hi, hj, hn⟩
    simp only [List.length_cons, List.length_nil] at hi hj
    rcases (by omega : i = 0 ∨ i = 1 ∨ i = 2) with rfl | rfl | rfl
    · simp [c0] at hn
    · have := hj 2 (by omega) (by omega)
      rw [e2x, e2y] at this
      rw [c1, c1] at hn
      left; exact ⟨this, by simpa using hn⟩
    · have := hj 1 (by omega) (by omega)
      rw [c1, c1] at this
      rw [e2x, e2y] at hn
      right; exact ⟨this, by simpa using hn⟩
  · rintro (⟨h1, h2⟩ | ⟨h1, h2⟩)
    · refine ⟨1, by simp, ?_, ?_⟩
      · intro j hj hne
        simp only [List.length_cons, List.length_nil] at hj
        rcases (by omega : j = 0 ∨ j = 2) with rfl | rfl
        · rw [c0, c0]
        · rw [e2x, e2y]; exact h1
      · rw [c1, c1]; rcases h2 with h | h
        · exact Or.inl h
        · exact Or.inr (Or.inl h)
    · refine ⟨2, by simp, ?_, ?_⟩
      · intro j hj hne
        simp only [List.length_cons, List.length_nil] at hj
        rcases (by omega : j = 0 ∨ j = 1) with rfl | rfl
        · rw [c0, c0]
        · rw [c1, c1]; exact h1
      · rw [e2x, e2y]; rcases h2 with h | h
        · exact Or.inl h
        · exact Or.inr (Or.inl h)

/-- C88, full claim: `lattice_pos(n_x, n_y)` places the nodes of the lattice of size `n_x` by `n_y` such that linked nodes are one step
apart and no others.  False for `lattice((n_x, n_y))` (`C88_transposed`); this is the call of the demos,
`lattice((1, n_y, n_x))`. -/
theorem C88_demo_partial {A : Type} (enum : List (Nat × Nat) → List (Nat × Nat)) (nx ny : Nat) (sl : Bool)
    (hen : ∀ G, gridGraph false [1, ny, nx] = .ok G → SameEdges G.edges (enum G.edges)) :
    ∃ g : MG Int A, lattice enum [1, ny, nx] false sl 0 = .ok (ofMG g) ∧
      ∀ x y : Nat, x ≠ y → (between g.edges (x : Int) y ≠ [] ↔ PosStep (latticePos nx ny) x y) := by
  obtain ⟨g, h1, -, -, -, h5, h6, -⟩ := C78_lattice (A := A) enum [1, ny, nx] false sl 0 (by simp) hen
  refine ⟨g, h1, ?_⟩
  intro x y hxy
  rw [← gridLink_layers]
  constructor
  · intro hb
    refine Classical.byContradiction fun hn => hb ?_
    have := h6 x y hn
    simpa only [Int.zero_add] using this
  · intro hg
    have := h5 x y hxy hg
    simp only [Int.zero_add] at this
    rw [this]; simp

/-- C88, negation for `lattice((n_x, n_y))`, for all different sizes from 2 on: a step between nodes that are not linked, or a link
between nodes that are not one step apart. -/
theorem C88_transposed {A : Type} (enum : List (Nat × Nat) → List (Nat × Nat)) (nx ny : Nat) (hx : 2 ≤ nx) (hy : 2 ≤ ny)
    (hne : nx ≠ ny) (sl : Bool) (hen : ∀ G, gridGraph false [nx, ny] = .ok G → SameEdges G.edges (enum G.edges)) :
    ∃ (g : MG Int A) (x y : Nat), lattice enum [nx, ny] false sl 0 = .ok (ofMG g) ∧ x ≠ y ∧
      ¬ (between g.edges (x : Int) y ≠ [] ↔ PosStep (latticePos nx ny) x y) := by
  obtain ⟨g, h1, -, -, -, h5, h6, -⟩ := C78_lattice (A := A) enum [nx, ny] false sl 0 (by simp) hen
  simp only [Int.zero_add] at h5 h6
  have hc : gridCells [nx, ny] = nx * ny := by simp [gridCells]
  have c0 : ∀ z, coord [nx, ny] 0 z = z % nx := fun z => by simp [coord, gridCells]
  have c1 : ∀ z, coord [nx, ny] 1 z = z / nx % ny := fun z => by simp [coord, gridCells]
  have hbig : nx * 2 ≤ nx * ny := Nat.mul_le_mul_left nx hy
  have hbig' : 2 * ny ≤ nx * ny := Nat.mul_le_mul_right ny hx
  rcases Nat.lt_or_gt_of_ne hne with hlt | hgt
  · refine ⟨g, nx - 1, nx, h1, by omega, ?_⟩
    intro hiff
    have hp : PosStep (latticePos nx ny) (nx - 1) nx := by
      rw [posStep_iff]
      refine ⟨by omega, by omega, ?_⟩
      rw [Nat.div_eq_of_lt (by omega), Nat.div_eq_of_lt hlt, Nat.mod_eq_of_lt (by omega), Nat.mod_eq_of_lt hlt]
      exact Or.inl ⟨rfl, Or.inl (by simp only; omega)⟩
    refine hiff.2 hp (h6 _ _ ?_)
    rintro ⟨-, -, i, hi, hj, hn⟩
    simp only [List.length_cons, List.length_nil] at hi hj
    have d1 : (nx - 1) / nx = 0 := Nat.div_eq_of_lt (by omega)
    have d2 : nx / nx = 1 := Nat.div_self (by omega)
    have m1 : (nx - 1) % nx = nx - 1 := Nat.mod_eq_of_lt (by omega)
    have m2 : nx % nx = 0 := Nat.mod_self nx
    rcases (by omega : i = 0 ∨ i = 1) with rfl | rfl
    · have := hj 1 (by omega) (by omega)
      rw [c1, c1, d1, d2, Nat.zero_mod, Nat.mod_eq_of_lt (by omega)] at this
      omega
    · have := hj 0 (by omega) (by omega)
      rw [c0, c0, m1, m2] at this
      omega
  · refine ⟨g, ny - 1, ny, h1, by omega, ?_⟩
    intro hiff
    have hl : GridLink false [nx, ny] (ny - 1) ny := by
      refine ⟨by omega, by omega, 0, by simp, ?_, ?_⟩
      · intro j hj hne
        simp only [List.length_cons, List.length_nil] at hj
        obtain rfl : j = 1 := by omega
        rw [c1, c1, Nat.div_eq_of_lt (by omega), Nat.div_eq_of_lt hgt]
      · rw [c0, c0, Nat.mod_eq_of_lt (by omega), Nat.mod_eq_of_lt hgt]
        exact Or.inl (by omega)
    have hb : between g.edges ((ny - 1 : Nat) : Int) (ny : Int) ≠ [] := by
      rw [h5 _ _ (by omega) hl]; simp
    have := hiff.1 hb
    rw [posStep_iff] at this
    obtain ⟨-, -, h⟩ := this
    rw [Nat.div_eq_of_lt (by omega), Nat.div_self (by omega), Nat.mod_eq_of_lt (by omega), Nat.mod_self] at h
    unfold OneStep at h
    simp only at h
    omega

example : latticePos 2 3 = [(0, (0, 0)), (1, (0, 1)), (2, (0, 2)), (3, (1, 0)), (4, (1, 1)), (5, (1, 2))] := by decide

/-- The edges in the order of the graph meet the hypothesis of `C88_demo_partial`. -/
example : ∀ G, gridGraph false [1, 2, 3] = .ok G → SameEdges G.edges (id G.edges) := by
  intro G hG
  have : G = ⟨6, _⟩ := (Except.ok.inj hG).symm
  subst this
  apply sameEdges_id
  unfold SameLink
  decide +kernel

/-- ... and that of `C88_transposed`. -/
example : ∀ G, gridGraph false [2, 3] = .ok G → SameEdges G.edges (id G.edges) := by
  intro G hG
  have : G = ⟨6, _⟩ := (Except.ok.inj hG).symm
  subst this
  apply sameEdges_id
  unfold SameLink
  decide +kernel

/-! ## `configuration_to_nx` -/

section
variable {L A : Type} [DecidableEq L]

/-- C89: the nodes are the labels of the relations, each once, by first occurrence; from `i` to `j` there are as many edges as `j`
directly follows `i` in a relation, without attributes. -/
theorem C89_configuration (config : List (List L)) :
    let G : NX L A := configurationToNx config
    (∀ x, x ∈ G.nodes.keys ↔ ∃ r ∈ config, x ∈ r) ∧
    G.nodes.keys.Pairwise (fun a b => config.flatten.idxOf a < config.flatten.idxOf b) ∧
    ∀ i j, (G.edgesData.filter (fun e => decide (e.1 = i ∧ e.2.1 = j))).map (fun e => e.2.2) =
      List.replicate ((config.flatMap (fun r => r.zip r.tail)).countP (fun p => decide (p.1 = i ∧ p.2 = j))) [] := by
  intro G
  obtain ⟨h1, h2, h3⟩ := configurationToNx_spec (A := A) config NX.empty ⟨rfl, List.nodup_nil, fun u d hd => by cases hd⟩
  have hk : G.nodes.keys = config.flatten.foldl addNew [] := h2
  refine ⟨?_, ?_, ?_⟩
  · intro x
    rw [hk, mem_foldl_addNew, List.mem_flatten]
    simp
  · rw [hk]; exact pairwise_foldl_addNew _
  · intro i j
    have e := between_edgesData h1 i j
    rw [between_toEdges] at e
    rw [show (fun e : L × L × Attr A => decide (e.1 = i ∧ e.2.1 = j)) =
      fun e => (decide (e.1 = i) && decide (e.2.1 = j)) from funext fun e => Bool.decide_and _ _]
    rw [List.filter_filter] at e
    have e' := h3 i j
    rw [← e] at e'
    simp [NX.parallel, NX.empty, Bool.and_comm] at e' ⊢
    exact e'

/-! ## `get_html` -/

/-- C89: one entry per edge, in order, with its source and target; an edge from a node to itself also has a size, 15 plus 5 for
each such edge at this node up to it, so that no two loops of a node are drawn on each other. -/
theorem C89_html (edges : List (L × L)) :
    (htmlEdges edges).length = edges.length ∧
    ∀ (k : Nat) (e : L × L), edges[k]? = some e → (htmlEdges edges)[k]? = some (e.1, e.2,
      if e.1 = e.2 then some (15 + 5 * (edges.take (k + 1)).countP (fun p => decide (p.1 = e.1 ∧ p.2 = e.2))) else none) := by
  suffices h : ∀ (done rest : List (L × L)) (s : Dict (L × L) Nat × List (L × L × Option Nat)),
      (∀ u, (s.1.get? (u, u)).getD 0 = done.countP (fun p => decide (p.1 = u ∧ p.2 = u))) →
      ∃ out, (rest.foldl htmlEdge s).2 = s.2 ++ out ∧ out.length = rest.length ∧
        ∀ (k : Nat) (e : L × L), rest[k]? = some e → out[k]? = some (e.1, e.2,
          if e.1 = e.2 then some (15 + 5 * (done ++ rest.take (k + 1)).countP (fun p => decide (p.1 = e.1 ∧ p.2 = e.2)))
          else none) by
    obtain ⟨out, h1, h2, h3⟩ := h [] edges ([], []) (fun u => rfl)
    unfold htmlEdges
    rw [h1]
    exact ⟨h2, h3⟩
  intro done rest
  induction rest generalizing done with
  | nil => intro s _; exact ⟨[], by simp, rfl, by simp⟩
  | cons e rest ih =>
    intro s hs
    obtain ⟨u, v⟩ := e
    by_cases huv : u = v
    · subst huv
      have hget := fun k' => get?_count s.1 (u, u) k'
      obtain ⟨out, h1, h2, h3⟩ := ih (done ++ [(u, u)]) (htmlEdge s (u, u)) (by
        intro w
        unfold htmlEdge
        rw [if_pos rfl]
        simp only
        rw [hget, List.countP_append]
        by_cases hw : u = w
        · subst hw; rw [if_pos rfl, hs]; simp
        · rw [if_neg (by simpa using hw), hs]; simp [hw])
      refine ⟨(u, u, some (15 + 5 * (done ++ [(u, u)]).countP (fun p => decide (p.1 = u ∧ p.2 = u)))) :: out, ?_, by simp [h2], ?_⟩
      · rw [List.foldl_cons, h1]
        unfold htmlEdge
        rw [if_pos rfl]
        simp only
        rw [hget, if_pos rfl, List.append_assoc, hs]
        simp [Nat.mul_comm]
      · intro k e he
        cases k with
        | zero => cases he; simp
        | succ k =>
          have := h3 k e he
          rw [List.append_assoc] at this
          exact this
    · obtain ⟨out, h1, h2, h3⟩ := ih (done ++ [(u, v)]) (htmlEdge s (u, v)) (by
        intro w
        unfold htmlEdge
        rw [if_neg huv]
        simp only
        rw [hs, List.countP_append]
        have : ¬ (u = w ∧ v = w) := fun h => huv (h.1.trans h.2.symm)
        simp [this])
      refine ⟨(u, v, none) :: out, ?_, by simp [h2], ?_⟩
      · rw [List.foldl_cons, h1]
        unfold htmlEdge
        rw [if_neg huv]
        simp
      · intro k e he
        cases k with
        | zero => cases he; simp [huv]
        | succ k =>
          have := h3 k e he
          rw [List.append_assoc] at this
          exact this

end

example : (configurationToNx [[1, 2, 1], [1, 2], [3]] : NX Nat Nat).edgesData = [(1, 2, []), (1, 2, []), (2, 1, [])] ∧
    (configurationToNx [[1, 2, 1], [1, 2], [3]] : NX Nat Nat).nodes.keys = [1, 2, 3] := by decide
example : htmlEdges [(1, 1), (1, 2), (2, 2), (1, 1)] = [(1, 1, some 20), (1, 2, none), (2, 2, some 20), (1, 1, some 25)] := by
  decide

end Verif
