import Verif.Py.Err
/-! # String rewriting by windows -/

namespace Verif.Spec

/-- The windows of `m` consecutive symbols, left to right. -/
def windows {V : Type} (m : Nat) (w : List V) : List (List V) :=
  (List.range (w.length + 1 - m)).map (fun i => (w.drop i).take m)

/-- The concatenation of results; the first exception wins. -/
def joinE {V : Type} : List (Except Err (List V)) → Except Err (List V)
  | [] => .ok []
  | .error e :: _ => .error e
  | .ok v :: rest => match joinE rest with
    | .error e => .error e
    | .ok r => .ok (v ++ r)

/-- The results of a list of calls; the first exception wins. -/
def allE {C V : Type} (f : C → Except Err V) : List C → Except Err (List V)
  | [] => .ok []
  | c :: cs => match f c with
    | .error e => .error e
    | .ok v => match allE f cs with
      | .error e => .error e
      | .ok r => .ok (v :: r)

/-- What a window is replaced by: the string of the window is looked up, and the characters found become symbols. -/
def replacement {C V : Type} (str : V → List C) (dtype : C → Except Err V) (rule : List C → Option (List C)) (window : List V) :
    Except Err (List V) :=
  match rule (window.flatMap str) with
  | none => .error .keyError
  | some cs => allE dtype cs

/-- One rewriting step: every window is replaced, left to right. -/
def rewrite {V : Type} (m : Nat) (sub : List V → Except Err (List V)) (w : List V) : Except Err (List V) :=
  joinE ((windows m w).map sub)

/-- The word after `t` steps. -/
def words {V : Type} (m : Nat) (sub : List V → Except Err (List V)) (w : List V) : Nat → Except Err (List V)
  | 0 => .ok w
  | t + 1 => match words m sub w t with
    | .error e => .error e
    | .ok v => rewrite m sub v

end Verif.Spec
