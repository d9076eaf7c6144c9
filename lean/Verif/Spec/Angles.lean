/-! # Exact sine and cosine of turns by 90 and by 120 degrees -/

namespace Verif.Spec
section
variable {R : Type} [Lean.Grind.CommRing R]

/-- Turning by a right angle exchanges sine and cosine. -/
structure QuarterTurns (sin cos : R → R) : Prop where
  sinRight : ∀ a, sin (a + 90) = cos a
  cosRight : ∀ a, cos (a + 90) = -sin a
  sinLeft : ∀ a, sin (a + -90) = -cos a
  cosLeft : ∀ a, cos (a + -90) = sin a

/-- Three directions with 120 degrees between them cancel; a full turn changes nothing. -/
structure ThirdTurns (sin cos : R → R) : Prop where
  sinSum : ∀ a, sin a + sin (a + 120) + sin (a + -120) = 0
  cosSum : ∀ a, cos a + cos (a + 120) + cos (a + -120) = 0
  sinTurn : ∀ a, sin (a + 240) = sin (a + -120)
  cosTurn : ∀ a, cos (a + 240) = cos (a + -120)

end

/-- The end point of a segment `([x, x'], [y, y'])`. -/
def segEnd (seg : List Int × List Int) : Int × Int := (seg.1.getD 1 0, seg.2.getD 1 0)

/-- A segment of length one along one of the axes. -/
def UnitSegment (seg : List Int × List Int) : Prop :=
  ∃ x y x' y' : Int, seg = ([x, x'], [y, y']) ∧ (x' - x) * (x' - x) + (y' - y) * (y' - y) = 1

end Verif.Spec
