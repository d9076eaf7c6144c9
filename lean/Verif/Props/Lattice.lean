import Verif.Proofs.Lattice
/-! # Lattices: C78, C79 -/

namespace Verif
open Spec MG

/-- **C78.** For all dimensions (if the lattice is periodic: other than 0) and every order in which the grid graph reports
its edges, `lattice` returns a network without rotation system in which two different nodes are joined by exactly one edge
each way, without attributes, if their coordinates differ by one step in exactly one dimension (around the dimension if
the lattice is periodic), and by no edge otherwise; the nodes are the ones with such a neighbour (or, with
`self_loops`, a loop), labelled from `first_label`. -/
theorem C78_lattice {A : Type} (enum : List (Nat × Nat) → List (Nat × Nat)) (dim : List Nat) (per sl : Bool) (first : Int)
    (hd : per = true → 0 ∉ dim) (hen : ∀ G, gridGraph per dim = .ok G → SameEdges G.edges (enum G.edges)) :
    ∃ g : MG Int A, lattice enum dim per sl first = .ok (ofMG g) ∧ g.Valid ∧ g.rot = none ∧
      (∀ a : Int, a ∈ g.labels ↔ ∃ x y : Nat, a = first + x ∧ GridLink per dim x y ∧ (x ≠ y ∨ sl = true)) ∧
      (∀ x y : Nat, x ≠ y → GridLink per dim x y → between g.edges (first + x) (first + y) = [[]]) ∧
      (∀ x y : Nat, ¬ GridLink per dim x y → between g.edges (first + x) (first + y) = []) ∧
      (∀ e ∈ g.edges, ∃ x y : Nat, e.src = first + x ∧ e.dst = first + y ∧ GridLink per dim x y) := by
  obtain ⟨g, h1, h2, h3, h4, h5, h6, h7⟩ := lattice_ok (A := A) (sl := sl) (first := first)
    (fun d hd1 h => hd h.1 (h.2 ▸ hd1)) hen
  refine ⟨g, h1, h2, h3, h4, ?_, h7, ?_⟩
  · intro x y hne h
    rw [h6 x y h, if_neg hne]
  · intro e he
    obtain ⟨x, y, hx, hy⟩ := h5 e he
    refine ⟨x, y, hx, hy, ?_⟩
    apply Classical.byContradiction
    intro hn
    have := h7 x y hn
    rw [between_eq_nil_iff] at this
    exact this (mem_sources.2 ⟨e, he, hx, hy⟩)

/-- **C78.** A periodic lattice with a dimension of size 0 is rejected with an `IndexError`. -/
theorem C78_periodic_zero {A : Type} (enum : List (Nat × Nat) → List (Nat × Nat)) (dim : List Nat) (sl : Bool) (first : Int)
    (h : 0 ∈ dim) : (lattice enum dim true sl first : Except Err (Net Int A)) = .error .indexError :=
  lattice_error h

/-- **C78.** Links go both ways. -/
theorem C78_symmetric {per : Bool} {dim : List Nat} {x y : Nat} (h : GridLink per dim x y) : GridLink per dim y x :=
  gridLink_symm h

/-- **C78.** In a periodic lattice whose dimensions are at least 3 every node has exactly two neighbours per dimension. -/
theorem C78_degree {dim : List Nat} (hd : ∀ d ∈ dim, 3 ≤ d) {x : Nat} (hx : x < gridCells dim) :
    ∃ l : List Nat, l.Nodup ∧ (∀ y, y ∈ l ↔ GridLink true dim x y) ∧ l.length = 2 * dim.length :=
  gridLink_count hd hx

/-- **C79** (documented behaviour, false): with `self_loops` each node has a connection to itself.  What holds: if the
lattice is periodic and some dimension has size 1, each node has a connection to itself, namely two parallel edges;
without `self_loops` there are none.  Missing: all other lattices, see `C79_no_loops`. -/
theorem C79_self_loops_partial {A : Type} (enum : List (Nat × Nat) → List (Nat × Nat)) (dim : List Nat) (sl : Bool)
    (first : Int) (hd : 0 ∉ dim) (h1 : 1 ∈ dim)
    (hen : ∀ G, gridGraph true dim = .ok G → SameEdges G.edges (enum G.edges)) :
    ∃ g : MG Int A, lattice enum dim true sl first = .ok (ofMG g) ∧
      ∀ x : Nat, x < gridCells dim → between g.edges (first + x) (first + x) = if sl then [[], []] else [] := by
  obtain ⟨g, a1, -, -, -, -, a6, -⟩ := lattice_ok (A := A) (sl := sl) (first := first)
    (fun d hd1 h => hd (h.2 ▸ hd1)) hen
  refine ⟨g, a1, ?_⟩
  intro x hx
  rw [a6 x x (gridLink_self.2 ⟨hx, rfl, h1⟩), if_pos rfl]

/-- **C79.** Unless the lattice is periodic and has a dimension of size 1, no node has a connection to itself, with or
without `self_loops`. -/
theorem C79_no_loops {A : Type} (enum : List (Nat × Nat) → List (Nat × Nat)) (dim : List Nat) (per sl : Bool)
    (first : Int) (hd : per = true → 0 ∉ dim) (h1 : ¬ (per = true ∧ 1 ∈ dim))
    (hen : ∀ G, gridGraph per dim = .ok G → SameEdges G.edges (enum G.edges)) :
    ∃ g : MG Int A, lattice enum dim per sl first = .ok (ofMG g) ∧ ∀ e ∈ g.edges, e.src ≠ e.dst := by
  obtain ⟨g, a1, -, -, -, -, -, a7⟩ := C78_lattice (A := A) enum dim per sl first hd hen
  refine ⟨g, a1, ?_⟩
  intro e he h
  obtain ⟨x, y, hx, hy, hl⟩ := a7 e he
  have : x = y := by omega
  subst this
  exact h1 (gridLink_self.1 hl).2

/-- **C79 is false**: a line of three nodes with `self_loops=True` has no loops. -/
theorem C79_false : ∃ n : Net Int Nat, lattice id [3] false true 0 = .ok n ∧ n.nodes.keys = [1, 0, 2] ∧
    ∀ x ∈ n.nodes.keys, n.hasEdge x x = false := by
  have h : (lattice id [3] false true 0 : Except Err (Net Int Nat)).map (fun n =>
      (n.nodes.keys, n.nodes.keys.all (fun x => !n.hasEdge x x))) = .ok ([1, 0, 2], true) := by decide +kernel
  cases hl : (lattice id [3] false true 0 : Except Err (Net Int Nat)) with
  | error e => rw [hl] at h; cases h
  | ok n =>
    rw [hl] at h
    have h' := Prod.mk.inj (Except.ok.inj h)
    refine ⟨n, rfl, h'.1, ?_⟩
    intro x hx
    have := List.all_eq_true.1 h'.2 x hx
    simpa using this

/-! ## Examples -/

/-- The hypothesis on the order holds for the order of the model when no edge is repeated. -/
theorem sameEdges_id {es : List (Nat × Nat)} (h : es.Pairwise (fun p q => ¬ SameLink p q)) : SameEdges es (id es) :=
  ⟨fun _ _ => Iff.rfl, h⟩

/-- A 3 × 4 torus meets the hypotheses of `C78_lattice`. -/
example : (true = true → 0 ∉ [3, 4]) ∧ ∀ G, gridGraph true [3, 4] = .ok G → SameEdges G.edges (id G.edges) := by
  refine ⟨by decide, ?_⟩
  intro G hG
  have : G = ⟨12, _⟩ := (Except.ok.inj hG).symm
  subst this
  apply sameEdges_id
  unfold SameLink
  decide +kernel

/-- A ring of two nodes: the grid graph lists the edge twice, so NetworkX reports it once. -/
example : gridGraph true [2] = .ok ⟨2, [(0, 1), (1, 0)]⟩ ∧ SameEdges [(0, 1), (1, 0)] [(0, 1)] := by
  refine ⟨rfl, ?_, by simp⟩
  intro x y
  simp only [List.mem_cons, List.not_mem_nil, or_false, Prod.mk.injEq]
  omega

/-- A 2 × 1 torus meets the hypotheses of `C79_self_loops_partial`. -/
example : 0 ∉ [2, 1] ∧ 1 ∈ [2, 1] ∧
    ∀ G, gridGraph true [2, 1] = .ok G → SameEdges G.edges ((fun _ => [(0, 1), (0, 0), (1, 1)]) G.edges) := by
  refine ⟨by decide, by decide, ?_⟩
  intro G hG
  have : G = ⟨2, [(0, 0), (1, 1), (0, 1), (1, 0)]⟩ := (Except.ok.inj hG).symm
  subst this
  refine ⟨?_, by unfold SameLink; decide⟩
  intro x y
  simp only [List.mem_cons, List.not_mem_nil, or_false, Prod.mk.injEq]
  omega

/-- A single node without loops is lost: the network is empty. -/
example : (lattice id [1] false true 0 : Except Err (Net Int Nat)) = .ok Net.empty := by decide +kernel

/-- Opposite corners of the 3 × 4 torus are linked to their four neighbours. -/
example : (List.range 12).filter (fun y => decide (∃ i : Fin 2, (∀ j : Fin 2, j ≠ i →
    coord [3, 4] j 0 = coord [3, 4] j y) ∧ (coord [3, 4] i y = 1 ∨ coord [3, 4] i y + 1 = [3, 4][i]))) = [1, 2, 3, 9] := by
  decide +kernel

example : ∀ d ∈ [3, 4, 5], 3 ≤ d := by decide

end Verif
