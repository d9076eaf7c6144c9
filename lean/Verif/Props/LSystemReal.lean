import Mathlib.Analysis.SpecialFunctions.Trigonometric.Basic
import Verif.Props.LTreeDemos
import Verif.Props.MooreCurve
/-! # C115: the hypotheses on sine and cosine hold for the real functions; examples -/

namespace Verif
open Spec

/-- Sine and cosine of an angle in degrees, on the real numbers (`turtle.py:30-32`). -/
noncomputable def realTrig : Trig ℝ := ⟨fun a => Real.sin (a * (Real.pi / 180)), fun a => Real.cos (a * (Real.pi / 180))⟩

theorem C115_real_quarter : QuarterTurns realTrig.sin realTrig.cos ∧ realTrig.sin 0 = 0 ∧ realTrig.cos 0 = 1 := by
  have e1 : ∀ a : ℝ, (a + 90) * (Real.pi / 180) = a * (Real.pi / 180) + Real.pi / 2 := fun a => by ring
  have e2 : ∀ a : ℝ, (a + -90) * (Real.pi / 180) = a * (Real.pi / 180) - Real.pi / 2 := fun a => by ring
  refine ⟨⟨?_, ?_, ?_, ?_⟩, ?_, ?_⟩
  · intro a; show Real.sin _ = Real.cos _; rw [e1, Real.sin_add_pi_div_two]
  · intro a; show Real.cos _ = -Real.sin _; rw [e1, Real.cos_add_pi_div_two]
  · intro a; show Real.sin _ = -Real.cos _; rw [e2, Real.sin_sub_pi_div_two]
  · intro a; show Real.cos _ = Real.sin _; rw [e2, Real.cos_sub_pi_div_two]
  · show Real.sin _ = 0; simp
  · show Real.cos _ = 1; simp

theorem C115_real_third : ThirdTurns realTrig.sin realTrig.cos := by
  have e1 : ∀ a : ℝ, (a + 120) * (Real.pi / 180) = a * (Real.pi / 180) + (Real.pi - Real.pi / 3) := fun a => by ring
  have e2 : ∀ a : ℝ, (a + -120) * (Real.pi / 180) = a * (Real.pi / 180) - (Real.pi - Real.pi / 3) := fun a => by ring
  have hb : Real.cos (Real.pi - Real.pi / 3) = -(1 / 2) := by rw [Real.cos_pi_sub, Real.cos_pi_div_three]
  have e3 : ∀ a : ℝ, (a + 240) * (Real.pi / 180) = (a + -120) * (Real.pi / 180) + 2 * Real.pi := fun a => by ring
  refine ⟨?_, ?_, ?_, ?_⟩
  · intro a
    show Real.sin _ + Real.sin _ + Real.sin _ = 0
    rw [e1, e2]
    generalize Real.pi - Real.pi / 3 = b at *
    rw [Real.sin_add, Real.sin_sub, hb]
    ring
  · intro a
    show Real.cos _ + Real.cos _ + Real.cos _ = 0
    rw [e1, e2]
    generalize Real.pi - Real.pi / 3 = b at *
    rw [Real.cos_add, Real.cos_sub, hb]
    ring
  · intro a; show Real.sin _ = Real.sin _; rw [e3, Real.sin_add_two_pi]
  · intro a; show Real.cos _ = Real.cos _; rw [e3, Real.cos_add_two_pi]

/-- The right angles on the integers meet the hypotheses of `C115_moore`. -/
theorem quarter_turns : QuarterTurns Ex.quarter.sin Ex.quarter.cos ∧ Ex.quarter.sin 0 = 0 ∧ Ex.quarter.cos 0 = 1 := by
  refine ⟨⟨?_, ?_, ?_, ?_⟩, rfl, rfl⟩ <;> intro a <;> simp only [Ex.quarter] <;> repeat' split
  all_goals omega

/-- The constructor accepts the rules of the demos. -/
example : ∃ sys : SubstSystem Char (List Char), substInit (lAxiom mooreAxiom) mooreRules mooreConstants = .ok sys ∧
    SubstConfig (ExSubst.cfg sys.rules sys.size 5) strStr strDtype sys.rules sys.size 5 ∧
    (⟨[sys.network], sys.state⟩ : World Nat (List Char) SubstState).heap[0]? = some sys.network :=
  ⟨_, rfl, ExSubst.config _ _ (by decide) _, rfl⟩
example : ∃ sys : SubstSystem Char (List Char), substInit (lAxiom ['F']) kochRules turnSigns = .ok sys ∧
    SubstConfig (ExSubst.cfg sys.rules sys.size 4) strStr strDtype sys.rules sys.size 4 :=
  ⟨_, rfl, ExSubst.config _ _ (by decide) _⟩
example : ∃ sys : SubstSystem Char (List Char), substInit (lAxiom sierpinskiAxiom) sierpinskiRules turnSigns = .ok sys ∧
    SubstConfig (ExSubst.cfg sys.rules sys.size 6) strStr strDtype sys.rules sys.size 6 :=
  ⟨_, rfl, ExSubst.config _ _ (by decide) _⟩
example : ∃ sys : SubstSystem Char (List Char), substInit (lAxiom ['0']) treeRules treeConstants = .ok sys ∧
    SubstConfig (ExSubst.cfg sys.rules sys.size 7) strStr strDtype sys.rules sys.size 7 :=
  ⟨_, rfl, ExSubst.config _ _ (by decide) _⟩
example : ∃ sys : SubstSystem Char (List Char), substInit (lAxiom ['X']) plantRules plantConstants = .ok sys ∧
    SubstConfig (ExSubst.cfg sys.rules sys.size 6) strStr strDtype sys.rules sys.size 6 :=
  ⟨_, rfl, ExSubst.config _ _ (by decide) _⟩

/-- The curve of the axiom of the Moore demo. -/
example : renderString (mooreBindings Ex.quarter) mooreAxiom (Turtle.start 0 0 0) =
    .ok ⟨1, 0, 180, [([0, 0], [0, 1]), ([0, 1], [1, 1]), ([1, 1], [1, 0])], []⟩ := by decide +kernel

/-- The curve after one step of the Koch demo. -/
example : renderString (kochBindings Ex.quarter) (growWord kochStep 1 ['F']) (Turtle.start 0 0 90) =
    .ok ⟨3, 0, 90, [([0, 1], [0, 0]), ([1, 1], [0, 1]), ([1, 2], [1, 1]), ([2, 2], [1, 0]), ([2, 3], [0, 0])], []⟩ := by decide +kernel

example : ((growWord treeStep 2 ['0']).flatMap (treeOps (R := Int))).length = 20 ∧
    forwards ((growWord treeStep 2 ['0']).flatMap (treeOps (R := Int))) = 8 := by decide +kernel

end Verif
