import Verif.Py.Dict
import Verif.Py.Repr
/-! # Hypergraph rewriting -/

namespace Verif.Spec

/-- The non-empty relations with their positions, counted from 1 and written in decimal. -/
def numbered (config : List (List Int)) : List (List Char × List Int) :=
  (config.zipIdx.filter (fun p => decide (p.1 ≠ []))).map (fun p => (strInt ((p.2 : Int) + 1), p.1))

section
variable {S : Type} [DecidableEq S]

/-- The assignment `f` agrees with the bindings. -/
def Agrees (f : S → Int) (b : Dict S Int) : Prop := ∀ s x, b.get? s = some x → f s = x

/-- The bindings `b'` keep everything that `b` says. -/
def Extends (b' b : Dict S Int) : Prop := ∀ s x, b.get? s = some x → b'.get? s = some x

/-- The relations are the patterns with every symbol replaced by its node. -/
def Instances (patterns : List (List S)) (b : Dict S Int) (rels : List (List Int)) : Prop :=
  patterns.map (fun p => p.map b.get?) = rels.map (fun r => r.map some)

/-- One application of a rule: the relations matched by the left-hand side, the bindings of the match, the bindings with the
new nodes, and the relations created. -/
structure Application (S : Type) where
  removed : List (List Int)
  bindings : Dict S Int
  extended : Dict S Int
  created : List (List Int)

/-- The symbols of the right-hand side that the match leaves open, in order of appearance, without repetition. -/
def openSymbols (out : List (List S)) (b : Dict S Int) : List S :=
  out.flatten.foldl (fun acc s => if s ∈ b.keys ∨ s ∈ acc then acc else acc ++ [s]) []

/-- The application is correct. -/
structure Application.Correct (lhs out : List (List S)) (a : Application S) : Prop where
  left : Instances lhs a.bindings a.removed
  symbols : ∀ s, s ∈ a.bindings.keys ↔ s ∈ lhs.flatten
  right : Instances out a.extended a.created
  extends_ : Extends a.extended a.bindings

/-- The nodes given to the open symbols of an application. -/
def Application.fresh (out : List (List S)) (a : Application S) : List (Option Int) :=
  (openSymbols out a.bindings).map a.extended.get?

/-- `new` is the configuration `config` after some applications of the rule to disjoint groups of relations; the new nodes are
different, and are not nodes of `config`. -/
structure Rewriting (lhs out : List (List S)) (config new rest : List (List Int)) (apps : List (Application S)) (fresh : List Int) : Prop where
  before : config.Perm (rest ++ apps.flatMap Application.removed)
  after : new.Perm (rest ++ apps.flatMap Application.created)
  correct : ∀ a ∈ apps, a.Correct lhs out
  nodes : apps.flatMap (Application.fresh out) = fresh.map some
  nodup : fresh.Nodup
  unused : ∀ x ∈ fresh, ∀ r ∈ config, x ∉ r

end
end Verif.Spec
