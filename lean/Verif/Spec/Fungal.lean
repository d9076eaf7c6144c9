import Verif.Spec.Multigraph
/-! # Specification of fungal growth

Edges are looked at as pairs (source, target).  `E i j` says that the lattice has the link `{i, j}`. -/

namespace Verif.Spec

/-- The pairs lie on the same link. -/
def SameLink (p q : Nat × Nat) : Prop := p = q ∨ p = (q.2, q.1)

/-- The links of a lattice on the nodes `0 .. n-1`, where no node has more than four links. -/
structure Lattice (n : Nat) (E : Nat → Nat → Prop) : Prop where
  symm : ∀ i j, E i j → E j i
  irrefl : ∀ i, ¬ E i i
  range : ∀ i j, E i j → i < n
  four : ∀ x (ys : List Nat), ys.Nodup → (∀ y ∈ ys, E x y) → ys.length ≤ 4

/-- `ls` visits every link once, in some order, with its two ends in some order. -/
structure Visits (E : Nat → Nat → Prop) (ls : List (Nat × Nat)) : Prop where
  link : ∀ l ∈ ls, E l.1 l.2
  all : ∀ i j, E i j → (i, j) ∈ ls ∨ (j, i) ∈ ls
  once : ls.Pairwise (fun l m => ¬ SameLink l m)

/-- The directed edges of a multigraph. -/
def arcs {A : Type} (g : MG Nat A) : List (Nat × Nat) := g.edges.map (fun e => (e.src, e.dst))

/-- Each link carries at most one directed edge, and there are no other edges. -/
structure Exclusive (E : Nat → Nat → Prop) (as : List (Nat × Nat)) : Prop where
  link : ∀ p ∈ as, E p.1 p.2
  once : as.Pairwise (fun p q => ¬ SameLink p q)

/-- Number of edges at a node. -/
def degree (as : List (Nat × Nat)) (x : Nat) : Nat :=
  (as.filter (fun p => decide (p.1 = x) || decide (p.2 = x))).length

/-- Number of edges from a node. -/
def outDegree (as : List (Nat × Nat)) (x : Nat) : Nat := (as.filter (fun p => decide (p.1 = x))).length

/-- The link `l` carries no edge. -/
def Free (as : List (Nat × Nat)) (l : Nat × Nat) : Prop := l ∉ as ∧ (l.2, l.1) ∉ as

/-- Growth of the edges from `as` to `as'` when node `x` has the resource `s x`.  A free link is decided by the random number
`rnd (draw l)`; different links use different numbers, and the numbers used are among `rnd a .. rnd (b - 1)`. -/
structure Growth (ls : List (Nat × Nat)) (s : Nat → Rat) (rnd : Nat → Rat) (a b : Nat) (as as' : List (Nat × Nat))
    (draw : Nat × Nat → Nat) : Prop where
  kept : ∀ p ∈ as, p ∈ as'
  occupied : ∀ p ∈ as', p ∉ as → Free as p
  dead : ∀ l ∈ ls, Free as l → s l.1 ≤ 0 → s l.2 ≤ 0 → Free as' l
  forward : ∀ l ∈ ls, Free as l → 0 < s l.1 → s l.2 ≤ 0 →
    (l.2, l.1) ∉ as' ∧ (l ∈ as' ↔ rnd (draw l) < 1 / (4 - (degree as l.1 : Rat)))
  backward : ∀ l ∈ ls, Free as l → s l.1 ≤ 0 → 0 < s l.2 →
    l ∉ as' ∧ ((l.2, l.1) ∈ as' ↔ rnd (draw l) < 1 / (4 - (degree as l.2 : Rat)))
  both : ∀ l ∈ ls, Free as l → 0 < s l.1 → 0 < s l.2 →
    (l ∈ as' ↔ rnd (draw l) < 1 / 2) ∧ ((l.2, l.1) ∈ as' ↔ ¬ rnd (draw l) < 1 / 2)
  draws : ∀ l ∈ ls, ∀ m ∈ ls, Free as l → Free as m → (0 < s l.1 ∨ 0 < s l.2) → (0 < s m.1 ∨ 0 < s m.2) →
    draw l = draw m → l = m
  fresh : ∀ l ∈ ls, Free as l → (0 < s l.1 ∨ 0 < s l.2) → a ≤ draw l ∧ draw l < b

/-- The only attribute of every edge is the weight `1 / out-degree of its source`. -/
def Weighted (g : MG Nat Rat) : Prop :=
  ∀ e ∈ g.edges, e.attr = [("weight", 1 / (outDegree (arcs g) e.src : Rat))]

/-- A network of the model: the nodes `0 .. n-1` without attributes, and weighted edges on the links. -/
structure Fungal (n : Nat) (E : Nat → Nat → Prop) (g : MG Nat Rat) : Prop where
  valid : g.Valid
  nodes : g.nodes = (List.range n).map (fun x => (x, []))
  rot : g.rot = none
  exclusive : Exclusive E (arcs g)
  weighted : Weighted g

/-- The resource of node `x` after a timestep: what it receives, or its own resource if it has no incoming edges, and what it
picks up. -/
def next (RE : Rat) (layer : Nat → Rat) (as : List (Nat × Nat)) (s : Nat → Rat) (x : Nat) : Rat :=
  (if as.filter (fun p => decide (p.2 = x)) = [] then s x
    else ((as.filter (fun p => decide (p.2 = x))).map (fun p => s p.1 / (outDegree as p.1 : Rat))).sum)
  + (if 0 < s x then RE * layer x else 0)

/-- The oldest edge of each pair of source and target. -/
def firsts {A : Type} : List (Edge Nat A) → List (Edge Nat A)
  | [] => []
  | e :: es => e :: (firsts es).filter (fun f => decide (¬ (f.src = e.src ∧ f.dst = e.dst)))

/-- The weight of an edge. -/
def weight (e : Edge Nat Rat) : Rat := (e.attr.get? "weight").getD 0

/-- What is sent along an edge. -/
def sent (s : Nat → Rat) (e : Edge Nat Rat) : Rat := weight e * s e.src

/-- The resource of node `x` after a timestep in any network; of parallel edges only the oldest one counts. -/
def nextIn (RE : Rat) (layer : Nat → Rat) (g : MG Nat Rat) (s : Nat → Rat) (x : Nat) : Rat :=
  (if MG.inCount g.edges x = 0 then s x else (((firsts g.edges).filter (fun e => decide (e.dst = x))).map (sent s)).sum)
  + (if 0 < s x then RE * layer x else 0)

/-- Sum over the nodes `0 .. n-1`. -/
def total (n : Nat) (f : Nat → Rat) : Rat := ((List.range n).map f).sum

end Verif.Spec
