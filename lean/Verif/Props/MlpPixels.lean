import Verif.Props.MlpOutput
import Verif.Props.Evolution
/-! # C165: images of the wrong size -/

namespace Verif
open Spec
variable {I σ κ : Type} [DecidableEq κ]

/-- C165: any other number of pixels than nodes raises, too many as well as too few. -/
theorem C165_pixels {M1 image : List (List Rat)} {n : Nat} (hn : 1 ≤ n) (l1 : M1.length = n) (r1 : ∀ l ∈ M1, l.length = n)
    (hpix : image.flatten.length ≠ n) {ws : Nat → Option Weights} {activation : Nat → Option (Rat → Rat)} {T : Nat}
    {cfg : Config Nat Rat Rat I σ κ} (h : MlpCall cfg ws activation T)
    {r : Nat} {w : World Nat Rat σ} (hr : w.heap[r]? = some (mlpNetwork n (readWeights M1)).2) (fuel : Nat) :
    evolve fuel cfg (some (.dict (readImage image))) r w = .error (.exception "too few intial conditions specified") := by
  obtain ⟨o1, _⟩ := readWeights_ok (n := n) (Nat.le_refl n) (by omega) r1
  have hsize : (mlpNetwork n (readWeights M1)).2.size = n := by
    rw [mlpNetwork_eq hn o1, size_ofMG, labels_fullG, List.length_range]
  have hlen : (readImage image).length = image.flatten.length := by
    rw [readImage_eq, List.length_map, List.length_zipIdx]
  have hp : cfg.PackOk := fun hc => by rw [h.compression] at hc; cases hc
  refine (C26_size_mismatch cfg (Or.inl h.copy) hp (by rw [h.input]; intro hc; cases hc) _ r w _ hr fuel).1 ?_ ?_
  · have hrule : cfg.rule = some (pureRule (mlpRule activation)) := h.rule
    rw [hrule]; rfl
  · show (readImage image).length ≠ _
    rw [hlen, hsize]
    exact hpix

/-- Five pixels for a network of two nodes. -/
example : evolve 4 (Ex.mlpCall (demoWeights [[1, -1], [2, 0]] [[3, 1]]) demoActivation 4) (some (.dict (readImage [[1, 2, 3], [4, 5]]))) 0
    ⟨[(mlpNetwork 2 (readWeights [[1, 2], [-1, 1]])).2], ()⟩ = .error (.exception "too few intial conditions specified") :=
  C165_pixels (M1 := [[1, 2], [-1, 1]]) (n := 2) (by omega) rfl (by decide) (by decide) (Ex.mlpCall_ok _ _ _) rfl 4

end Verif
