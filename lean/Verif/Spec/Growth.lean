import Verif.Spec.Requests
import Verif.Spec.Fungal
/-! # Specification of randomly growing networks

A network of undirected links is described by the list of its links, oldest first. -/

namespace Verif.Spec
variable {A σ : Type}

/-- Two different elements of a list are drawn, if it has two. -/
structure DrawsTwo (draw2 : List Nat → σ → Except Err ((Nat × Nat) × σ)) : Prop where
  two : ∀ l u, l.Nodup → 2 ≤ l.length → ∃ a b u', draw2 l u = .ok ((a, b), u') ∧ a ∈ l ∧ b ∈ l ∧ a ≠ b
  few : ∀ l u, l.length < 2 → draw2 l u = .error .valueError

/-- One of the numbers `0 .. k-1` is drawn, if there is any. -/
structure DrawsOne (draw1 : Nat → σ → Except Err (Nat × σ)) : Prop where
  one : ∀ k u, 0 < k → ∃ c u', draw1 k u = .ok (c, u') ∧ c < k
  none : ∀ u, draw1 0 u = .error .valueError

/-- The network has the nodes `0 .. n-1`, and its edges are those of `base` and, younger than these, one edge in each direction,
without attributes, for every link. -/
structure Linked (N : Net Nat A) (n : Nat) (base : Nat → Nat → List (Attr A)) (ls : List (Nat × Nat)) : Prop where
  labels : N.labels = List.range n
  edges : ∀ i j, parallel N i j = base i j ++ (ls.filter (fun p => decide (p = (i, j) ∨ p = (j, i)))).map (fun _ => [])

/-- The links after `t` timesteps of random attachment between `n` nodes: a pair is drawn, and linked unless it is linked. -/
def attachLinks (draw2 : List Nat → σ → Except Err ((Nat × Nat) × σ)) (n : Nat) (u : σ) : Nat → Except Err (List (Nat × Nat) × σ)
  | 0 => .ok ([], u)
  | t + 1 => match attachLinks draw2 n u t with
    | .error e => .error e
    | .ok (ls, u1) => match draw2 (List.range n) u1 with
      | .error e => .error e
      | .ok ((a, b), u2) => .ok (if (a, b) ∈ ls ∨ (b, a) ∈ ls then ls else ls ++ [(a, b)], u2)

/-- The links after `t` timesteps of growth by nodes that are linked to an older node. -/
def growLinks1 (draw1 : Nat → σ → Except Err (Nat × σ)) (n : Nat) (u : σ) : Nat → Except Err (List (Nat × Nat) × σ)
  | 0 => .ok ([], u)
  | t + 1 => match growLinks1 draw1 n u t with
    | .error e => .error e
    | .ok (ls, u1) => match draw1 (n + t) u1 with
      | .error e => .error e
      | .ok (c, u2) => .ok (ls ++ [(c, n + t)], u2)

/-- The links after `t` timesteps of growth by a node and, if the coin says so, by a link between any two nodes. -/
def growLinks2 (coin : σ → Bool × σ) (draw2 : List Nat → σ → Except Err ((Nat × Nat) × σ)) (n : Nat) (u : σ) :
    Nat → Except Err (List (Nat × Nat) × σ)
  | 0 => .ok ([], u)
  | t + 1 => match growLinks2 coin draw2 n u t with
    | .error e => .error e
    | .ok (ls, u1) =>
      if (coin u1).1 then
        match draw2 (List.range (n + t + 1)) (coin u1).2 with
        | .error e => .error e
        | .ok ((a, b), u2) => .ok (ls ++ [(a, b)], u2)
      else .ok (ls, (coin u1).2)

/-- The nodes that are connected to `x` by links. -/
inductive Reaches (ls : List (Nat × Nat)) (x : Nat) : Nat → Prop
  | refl : Reaches ls x x
  | step {y z : Nat} : Reaches ls x y → (y, z) ∈ ls ∨ (z, y) ∈ ls → Reaches ls x z

end Verif.Spec

namespace Verif.Spec
variable {A : Type}

/-- Number of edges into `x`. -/
def inDeg (N : Net Nat A) (x : Nat) : Nat := (N.labels.map (fun k => (parallel N k x).length)).sum

/-- One timestep of the restricted network automaton with the underlying network `U`: between two different nodes of `U`, an edge that does not exist
is born if `U` has it and the numbers of edges into its ends sum to 2; the edges that exist survive if these numbers sum to 3, and die otherwise. -/
structure RestrictedNext (U N N' : Net Nat A) : Prop where
  labels : N'.labels = N.labels
  attrs : ∀ x, attrsOf N' x = attrsOf N x
  edges : ∀ i j, parallel N' j i =
    if i = j ∨ i ∉ U.labels ∨ j ∉ U.labels then parallel N j i
    else if inDeg N i + inDeg N j = 2 ∧ parallel N j i = [] ∧ parallel U j i ≠ [] then [[]]
    else if inDeg N i + inDeg N j = 3 then parallel N j i
    else []

end Verif.Spec

namespace Verif.Spec
variable {A : Type}

/-- There is an edge from `x` to `y`. -/
def Adj (N : Net String A) (x y : String) : Prop := parallel N x y ≠ []

/-- A simple undirected graph without attributes in which every node has exactly three neighbours. -/
structure Cubic (N : Net String A) : Prop where
  nodup : N.labels.Nodup
  plain : ∀ x ∈ N.labels, attrsOf N x = some []
  closed : ∀ x y, Adj N x y → x ∈ N.labels ∧ y ∈ N.labels
  loopless : ∀ x, ¬ Adj N x x
  simple : ∀ x y, parallel N x y = [] ∨ parallel N x y = [[]]
  symm : ∀ x y, Adj N x y → Adj N y x
  degree : ∀ x ∈ N.labels, ∃ a b c, [a, b, c].Nodup ∧ ∀ y, Adj N y x ↔ y = a ∨ y = b ∨ y = c

/-- `N'` arises from `N` by replacing every node `x` by a triangle of the nodes `xa`, `xb`, `xc`, where each corner of the triangle gets one of the
edges of `x`: the edge between `x` and `y` is at the corner `corner x y` of `x`. -/
structure Truncated (N N' : Net String A) (corner : String → String → String) : Prop where
  labels : N'.labels = N.labels.flatMap (fun x => [x ++ "a", x ++ "b", x ++ "c"])
  corners : ∀ x y, Adj N x y → corner x y = "a" ∨ corner x y = "b" ∨ corner x y = "c"
  single : ∀ x y z, Adj N x y → Adj N x z → corner x y = corner x z → y = z
  edges : ∀ i j, Adj N' i j ↔
    (∃ x ∈ N.labels, ∃ s ∈ ["a", "b", "c"], ∃ s' ∈ ["a", "b", "c"], s ≠ s' ∧ i = x ++ s ∧ j = x ++ s') ∨
    (∃ x y, Adj N x y ∧ i = x ++ corner x y ∧ j = y ++ corner y x)

/-- No label is another label extended by one of the letters `a`, `b`, `c`. -/
def FreshLabels (ls : List String) : Prop := ∀ x ∈ ls, ∀ s ∈ ["a", "b", "c"], x ++ s ∉ ls

/-- There is a path from `x` to `y`. -/
inductive Path (N : Net String A) (x : String) : String → Prop
  | refl : Path N x x
  | step {y z : String} : Path N x y → Adj N y z → Path N x z

end Verif.Spec
