import Verif.Model.Network
/-! # Hypergraphs and networks that hang together -/

namespace Verif.Spec

/-- The nodes occur together in a relation. -/
def Related {α : Type} (c : List (List α)) (x y : α) : Prop := ∃ r ∈ c, x ∈ r ∧ y ∈ r

/-- Between any two nodes there is a chain of links. -/
def HangsTogether {α : Type} (c : List (List α)) : Prop :=
  ∀ x ∈ c.flatten, ∀ y ∈ c.flatten, Relation.TransGen (Related c) x y

/-- The relation has three nodes, and the first two are equal. -/
def isLoop (r : List Int) : Bool :=
  match r with
  | [x, y, _] => decide (x = y)
  | _ => false

/-- The hypergraph has `k` nodes. -/
def HasNodes (c : List (List Int)) (k : Nat) : Prop := ∃ l : List Int, l.Nodup ∧ l.length = k ∧ ∀ x, x ∈ l ↔ x ∈ c.flatten

/-- The nodes are equal, or neighbours when directions are ignored. -/
def AdjacentIn {L A : Type} [DecidableEq L] (n : Net L A) (x y : L) : Prop :=
  x = y ∨ ∃ a, (x, y, a) ∈ n.edges ∨ (y, x, a) ∈ n.edges

/-- Between any two nodes of the network there is a path, if directions are ignored. -/
def NetHangs {L A : Type} [DecidableEq L] (n : Net L A) : Prop :=
  ∀ x ∈ n.labels, ∀ y ∈ n.labels, Relation.TransGen (AdjacentIn n) x y

end Verif.Spec
