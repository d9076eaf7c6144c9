import Mathlib.Analysis.SpecialFunctions.Log.Basic
import Verif.Model.Mlp
import Verif.Model.TSP
import Verif.Model.Hexplot
/-! # Model of the input and output of the multilayer perceptron demo

The output is over the real numbers; the code uses floats (with which `np.exp` of numbers above 709 is infinite). -/

namespace Verif

/-- The body of the inner loop of `read_image_activities` (`demos/mlp/mlp_demo.py:28-29`), with `activities` and `node_label` as state. -/
def readPixel {E : Type} (s : Dict Nat E × Nat) (activity : E) : Dict Nat E × Nat := (s.1.set s.2 activity, s.2 + 1)

/-- `read_image_activities` (`mlp_demo.py:21-30`) on the parsed rows of the file. -/
def readImage {E : Type} (rows : List (List E)) : Dict Nat E := (rows.foldl (fun s line => line.foldl readPixel s) ([], 0)).1

/-- `softmax` (`mlp_demo.py:47-49`). -/
noncomputable def softmax (x : List ℝ) : List ℝ := (x.map Real.exp).map (fun e => e / (x.map Real.exp).sum)

/-- `np.argmax(np.log(softmax(vals)))` (`mlp_demo.py:115`). -/
noncomputable def predictedClass (vals : List ℝ) : Except Err Nat := argmax (fun a b => decide (a ≤ b)) ((softmax vals).map Real.log)

/-- `[d[i] for i in range(n)]` (`mlp_demo.py:113, 116`). -/
def firstValues {E : Type} (d : Dict Nat E) (n : Nat) : Except Err (List E) := (List.range n).mapM (fun i => d.get i)

/-- The array given to `imshow` (`mlp_demo.py:116`), with `n` nodes and any shape (784 nodes and 28 by 28 in the demo). -/
def shownImage {E : Type} (d : Dict Nat E) (n rows cols : Nat) : Except Err (List (List E)) :=
  match firstValues d n with
  | .error e => .error e
  | .ok vs => if n = rows * cols then .ok (reshapeRow rows cols vs) else .error .valueError

end Verif
