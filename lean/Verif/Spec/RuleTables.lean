import Verif.Model.RuleTables
/-! # Independent notions for the rule tables -/

namespace Verif

/-- `s` is the string of a neighbourhood of `n` cells with states in `0..k-1`, one character per cell. -/
def IsNbhd (k n : Nat) (s : List Char) : Prop := s.length = n ∧ ∀ c ∈ s, ∃ d, d < k ∧ c = digitChar d

/-- The neighbourhood of `n` cells that are all in state `d`. -/
def uniformNbhd (n d : Nat) : List Char := List.replicate n (digitChar d)

/-- The fraction of the entries that are not the quiescent state `q`: Langton's lambda. -/
def langtonLambda (q : Int) (t : Table) : Rat :=
  ((t.filter (fun p => decide (p.2 ≠ q))).length : Rat) / (t.length : Rat)

/-- A neighbourhood and its mirror image have the same entry (or none). -/
def Isotropic (t : Table) : Prop := ∀ s, t.get? s.reverse = t.get? s

/-- The key set contains the mirror image of every key. -/
def MirrorClosed (t : Table) : Prop := ∀ s, s ∈ t.keys → s.reverse ∈ t.keys

/-- The entry `s` may be changed when lambda is to be reduced (`reduce`) or increased: it is a transition to a
non-quiescent, respectively to the quiescent state, and not a protected uniform one. -/
def Changeable (q : Int) (strong reduce : Bool) (t : Table) (s : List Char) : Prop :=
  (∃ v, t.get? s = some v ∧ (reduce = true → v ≠ q) ∧ (reduce = false → v = q)) ∧
  (strong = true → ¬ ∃ c, ∀ x ∈ s, x = c)

/-- `lam` has not yet reached the target. -/
def Short (target : Rat) (reduce : Bool) (lam : Rat) : Prop := if reduce then target < lam else lam < target

/-- `l'` is strictly nearer to targets below (`reduce`) respectively above. -/
def Nearer (reduce : Bool) (l l' : Rat) : Prop := if reduce then l' < l else l < l'

/-- What is assumed of the table: a dict whose keys are non-empty, of the right number, and closed under mirroring if
isotropy is asked for. -/
structure WalkTable (a : WalkArgs) (t : Table) : Prop where
  nodup : t.keys.Nodup
  nonempty : ∀ s ∈ t.keys, s ≠ []
  len : t.length = a.k ^ (2 * a.r + 1)
  mirror : a.isotropic = true → MirrorClosed t

/-- Finitely many steps. -/
inductive Steps {α : Type} (R : α → α → Prop) : α → α → Prop where
  | refl (a : α) : Steps R a a
  | head {a b c : α} : R a b → Steps R b c → Steps R a c

/-- One change of the walk: one changeable entry `s` (and its mirror image, if `isotropic`) gets a new value, lambda is
short of the target before, and moves strictly towards it. -/
structure WalkStep (target : Rat) (k : Nat) (q : Int) (strong isotropic reduce : Bool) (t t' : Table) : Prop where
  short : Short target reduce (langtonLambda q t)
  change : ∃ s v, Changeable q strong reduce t s ∧ (reduce = true → v = q) ∧
    (reduce = false → v ≠ q ∧ 0 ≤ v ∧ v < (k : Int)) ∧
    ∀ x, t'.get? x = if x = s ∨ (isotropic = true ∧ x = s.reverse) then some v else t.get? x
  keys : t'.keys = t.keys
  nearer : Nearer reduce (langtonLambda q t) (langtonLambda q t')

end Verif
