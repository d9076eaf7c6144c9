import Verif.Model.MlpOutput
import Verif.Props.Mlp
import Verif.Proofs.TSP
import Verif.Proofs.VisData
import Mathlib.Tactic.Linarith
/-! # C165: what the multilayer perceptron demo reads and shows -/

namespace Verif
open Spec
section
variable {E : Type}

theorem foldl_readPixel (l : List E) : ∀ (d : Dict Nat E) (k : Nat), (∀ x ∈ d.keys, x < k) →
    l.foldl readPixel (d, k) = (d ++ (l.zipIdx k).map (fun p => (p.2, p.1)), k + l.length) := by
  induction l with
  | nil => intro d k _; simp
  | cons v l ih =>
    intro d k h
    have e : Dict.set d k v = d ++ [(k, v)] := Dict.set_of_not_mem (fun hk => Nat.lt_irrefl _ (h k hk)) v
    show l.foldl readPixel (Dict.set d k v, k + 1) = _
    rw [e, ih]
    · rw [List.zipIdx_cons, List.map_cons, List.append_assoc, List.length_cons, Nat.add_assoc, Nat.add_comm 1]
      rfl
    · intro x hx
      unfold Dict.keys at hx h
      rw [List.map_append, List.mem_append] at hx
      rcases hx with hx | hx
      · have := h x hx; omega
      · simp at hx; omega

theorem readImage_eq (rows : List (List E)) : readImage rows = rows.flatten.zipIdx.map (fun p => (p.2, p.1)) := by
  unfold readImage
  rw [← List.foldl_flatten, foldl_readPixel _ _ _ (by intro x hx; cases hx)]
  rfl

theorem get?_readImage (rows : List (List E)) (i : Nat) : (readImage rows).get? i = rows.flatten[i]? := by
  rw [readImage_eq, get?_zipIdx_swap]
  simp

theorem firstValues_ok (d : Dict Nat E) (l : List E) (h : ∀ i, i < l.length → d.get? i = l[i]?) : firstValues d l.length = .ok l := by
  unfold firstValues
  have : ∀ k, k ≤ l.length → (List.range k).mapM (fun i => d.get i) = .ok (l.take k) := by
    intro k
    induction k with
    | zero => intro _; rfl
    | succ k ih =>
      intro hk
      have e : d.get k = .ok l[k] := by
        rw [Dict.get_eq_ok_iff, h k (by omega)]
        exact List.getElem?_eq_getElem (by omega)
      rw [List.range_succ, List.mapM_append, ih (by omega)]
      simp only [List.mapM_cons, List.mapM_nil, e]
      show Except.ok (l.take k ++ [l[k]]) = _
      rw [List.take_append_getElem]
  rw [this _ (Nat.le_refl _), List.take_length]

theorem reshape_flatten (cols : Nat) : ∀ (rows : List (List E)), (∀ l ∈ rows, l.length = cols) → reshapeRow rows.length cols rows.flatten = rows := by
  intro rows
  induction rows with
  | nil => intro _; rfl
  | cons l rows ih =>
    intro h
    have hl := h l (by simp)
    have := ih (fun x hx => h x (by simp [hx]))
    unfold reshapeRow at this ⊢
    rw [List.length_cons, List.range_succ_eq_map, List.map_cons, List.map_map, Nat.zero_mul, List.drop_zero, List.flatten_cons]
    have e : ((fun a => ((l ++ rows.flatten).drop (a * cols)).take cols) ∘ Nat.succ) = fun a => (rows.flatten.drop (a * cols)).take cols := by
      funext a
      show ((l ++ rows.flatten).drop (Nat.succ a * cols)).take cols = _
      rw [Nat.succ_mul, Nat.add_comm, ← List.drop_drop, ← hl, List.drop_left]
    rw [e, this]
    congr 1
    rw [← hl]; simp

theorem flatten_at (cols : Nat) : ∀ (rows : List (List E)), (∀ l ∈ rows, l.length = cols) → ∀ a b, b < cols →
    rows.flatten[a * cols + b]? = rows[a]?.bind (fun l => l[b]?) := by
  intro rows
  induction rows with
  | nil => intro _ a b _; simp
  | cons l rows ih =>
    intro h a b hb
    have hl := h l (by simp)
    have := ih (fun x hx => h x (by simp [hx]))
    rw [List.flatten_cons]
    cases a with
    | zero =>
      rw [Nat.zero_mul, Nat.zero_add, List.getElem?_append_left (by omega)]
      rfl
    | succ a =>
      rw [List.getElem?_append_right (by rw [Nat.succ_mul]; omega), List.getElem?_cons_succ, ← this a b hb]
      congr 1
      rw [Nat.succ_mul]; omega

theorem length_flatten_eq (cols : Nat) : ∀ (rows : List (List E)), (∀ l ∈ rows, l.length = cols) → rows.flatten.length = rows.length * cols := by
  intro rows
  induction rows with
  | nil => intro _; simp
  | cons l rows ih =>
    intro h
    rw [List.flatten_cons, List.length_append, ih (fun x hx => h x (by simp [hx])), h l (by simp), List.length_cons, Nat.succ_mul, Nat.add_comm]

/-- C165: the pixel in row `a` and column `b` of the file is the activity of node `a * cols + b`, there are no other nodes, and the picture shown at the
end is the one in the file. -/
theorem C165_image (rows : List (List E)) (cols : Nat) (h : ∀ l ∈ rows, l.length = cols) :
    (readImage rows).keys = List.range (rows.length * cols) ∧
    (∀ a b, b < cols → (readImage rows).get? (a * cols + b) = rows[a]?.bind (fun l => l[b]?)) ∧
    shownImage (readImage rows) (rows.length * cols) rows.length cols = .ok rows := by
  have hlen := length_flatten_eq cols rows h
  refine ⟨?_, fun a b hb => ?_, ?_⟩
  · rw [readImage_eq]
    unfold Dict.keys
    rw [List.map_map]
    show rows.flatten.zipIdx.map Prod.snd = _
    rw [List.zipIdx_map_snd, hlen, List.range_eq_range']
  · rw [get?_readImage, flatten_at cols rows h a b hb]
  · unfold shownImage
    have := firstValues_ok (readImage rows) rows.flatten (fun i _ => get?_readImage rows i)
    rw [hlen] at this
    rw [this]
    simp only [if_pos]
    rw [reshape_flatten cols rows h]

/-- C165: a shape that does not have as many cells as there are nodes raises. -/
theorem C165_shape (rows : List (List E)) (n r c : Nat) (hn : n ≤ rows.flatten.length) (h : n ≠ r * c) :
    shownImage (readImage rows) n r c = .error .valueError := by
  unfold shownImage
  have : firstValues (readImage rows) (rows.flatten.take n).length = .ok (rows.flatten.take n) := by
    refine firstValues_ok _ _ (fun i hi => ?_)
    rw [List.length_take] at hi
    rw [get?_readImage, List.getElem?_take_of_lt (by omega)]
  rw [List.length_take, Nat.min_eq_left hn] at this
  rw [this]
  simp [h]

/-- C165: with fewer pixels than nodes, looking up the missing ones raises. -/
theorem C165_short (rows : List (List E)) (n r c : Nat) (hn : rows.flatten.length < n) : shownImage (readImage rows) n r c = .error .keyError := by
  unfold shownImage
  have : firstValues (readImage rows) n = .error .keyError := by
    unfold firstValues
    have e : List.range n = List.range rows.flatten.length ++ (rows.flatten.length :: (List.range (n - rows.flatten.length - 1)).map (fun i => rows.flatten.length + 1 + i)) := by
      have : n = rows.flatten.length + ((n - rows.flatten.length - 1) + 1) := by omega
      conv => lhs; rw [this, List.range_add, List.range_succ_eq_map, List.map_cons, List.map_map]
      congr 1
      congr 1
      refine List.map_congr_left fun i _ => ?_
      show _ + Nat.succ i = _
      omega
    have h1 := firstValues_ok (readImage rows) rows.flatten (fun i _ => get?_readImage rows i)
    unfold firstValues at h1
    have h2 : (readImage rows).get rows.flatten.length = .error .keyError := by
      unfold Dict.get
      rw [get?_readImage, List.getElem?_eq_none (Nat.le_refl _)]
    rw [e, List.mapM_append, h1, List.mapM_cons, h2]
    rfl
  rw [this]

end

theorem sum_exp_pos : ∀ {l : List ℝ}, l ≠ [] → 0 < (l.map Real.exp).sum
  | [v], _ => by simpa using Real.exp_pos v
  | v :: w :: l, _ => by
    have := sum_exp_pos (l := w :: l) (by simp)
    rw [List.map_cons, List.sum_cons]
    have := Real.exp_pos v
    linarith

theorem sum_div (l : List ℝ) (c : ℝ) : (l.map (fun e => e / c)).sum = l.sum / c := by
  induction l with
  | nil => simp
  | cons v l ih => rw [List.map_cons, List.sum_cons, List.sum_cons, ih, add_div]

/-- C165: the softmax of some numbers are positive numbers with sum 1, in the same order. -/
theorem C165_softmax (x : List ℝ) (hx : x ≠ []) : (softmax x).length = x.length ∧ (∀ p ∈ softmax x, 0 < p) ∧ (softmax x).sum = 1 ∧
    ∀ (i j : Nat) (a b p q : ℝ), x[i]? = some a → x[j]? = some b → (softmax x)[i]? = some p → (softmax x)[j]? = some q → (p < q ↔ a < b) := by
  have hs := sum_exp_pos hx
  refine ⟨by simp [softmax], ?_, ?_, ?_⟩
  · intro p hp
    unfold softmax at hp
    obtain ⟨e, he, rfl⟩ := List.mem_map.1 hp
    obtain ⟨v, _, rfl⟩ := List.mem_map.1 he
    exact div_pos (Real.exp_pos v) hs
  · unfold softmax
    rw [sum_div, div_self (ne_of_gt hs)]
  · intro i j a b p q h1 h2 h3 h4
    unfold softmax at h3 h4
    rw [List.getElem?_map, List.getElem?_map, h1] at h3
    rw [List.getElem?_map, List.getElem?_map, h2] at h4
    cases h3
    cases h4
    rw [div_lt_div_iff_of_pos_right hs, Real.exp_lt_exp]

/-- C165: the predicted class is the position of the first greatest value. -/
theorem C165_class (vals : List ℝ) (h : vals ≠ []) : ∃ k v, predictedClass vals = .ok k ∧ vals[k]? = some v ∧
    ∀ (j : Nat) (w : ℝ), vals[j]? = some w → w ≤ v ∧ (j < k → w < v) := by
  have hs := sum_exp_pos h
  obtain ⟨k, h1, v, h2, h3⟩ := argmax_spec (le := fun a b : ℝ => decide (a ≤ b)) (row := (softmax vals).map Real.log)
    (by intro a b c; simp only [decide_eq_true_eq]; exact le_trans) (by intro a b; simp [le_total]) (by simpa [softmax] using h)
  have at' : ∀ j : Nat, ((softmax vals).map Real.log)[j]? = vals[j]?.map (fun w => Real.log (Real.exp w / (vals.map Real.exp).sum)) := by
    intro j
    simp only [softmax, List.getElem?_map, Option.map_map]
    rfl
  have mono : ∀ a b : ℝ, Real.log (Real.exp a / (vals.map Real.exp).sum) ≤ Real.log (Real.exp b / (vals.map Real.exp).sum) ↔ a ≤ b := by
    intro a b
    rw [Real.log_le_log_iff (div_pos (Real.exp_pos _) hs) (div_pos (Real.exp_pos _) hs), div_le_div_iff_of_pos_right hs, Real.exp_le_exp]
  rw [at' k] at h2
  cases hv : vals[k]? with
  | none => rw [hv] at h2; cases h2
  | some v0 =>
    rw [hv] at h2
    cases h2
    refine ⟨k, v0, h1, hv, fun j w hw => ?_⟩
    obtain ⟨g1, g2⟩ := h3 j _ (by rw [at' j, hw]; rfl)
    simp only [decide_eq_true_eq, mono] at g1 g2
    exact ⟨g1, fun hjk => lt_of_not_ge (g2 hjk)⟩

/-- C165: without values there is no class. -/
theorem C165_none : predictedClass [] = .error .valueError := rfl

section
variable {I σ κ : Type} [DecidableEq κ]

/-- C165: the demo as a whole.  With the image in `image` (`rows` rows with `cols` columns) and the matrices `M1`, `M2` and `M3` read from the files, the
title names the position of the first greatest entry of `M3 · relu(M2 · relu(M1 · x))`, where `x` are the pixels row by row, and the picture shown is the
one in the file. -/
theorem C165_demo {M1 M2 M3 image : List (List Rat)} {n m cols : Nat} (hn : 1 ≤ n) (hm : m ≤ n) (hm1 : 1 ≤ m) (hnc : n = image.length * cols)
    (hi : ∀ l ∈ image, l.length = cols) (l1 : M1.length = n) (l2 : M2.length = n) (l3 : M3.length = m)
    (r1 : ∀ l ∈ M1, l.length = n) (r2 : ∀ l ∈ M2, l.length = n) (r3 : ∀ l ∈ M3, l.length = n)
    {cfg : Config Nat Rat Rat I σ κ} (h : MlpCall cfg (demoWeights M2 M3) demoActivation 4)
    {r : Nat} {w : World Nat Rat σ} (hr : w.heap[r]? = some (mlpNetwork n (readWeights M1)).2) {fuel : Nat} (hf : 4 ≤ fuel) :
    ∃ res d vals k, evolve fuel cfg (some (.dict (readImage image))) r w = .ok res ∧ res.acts cfg (res.states.length - 1) = some d ∧
      firstValues d m = .ok vals ∧ predictedClass (vals.map (fun q : Rat => (q : ℝ))) = .ok k ∧ k < m ∧
      (let out := matVec n M3 (fun i => Spec.posPart (matVec n M2 (fun k => Spec.posPart (matVec n M1 (fun i => ent image (i / cols) (i % cols)) k)) i))
       ∀ j, j < m → out j ≤ out k ∧ (j < k → out j < out k)) ∧
      shownImage (readImage image) n image.length cols = .ok image := by
  have hc : 1 ≤ cols := by
    rcases Nat.eq_zero_or_pos cols with e | e
    · rw [e, Nat.mul_zero] at hnc; omega
    · exact e
  obtain ⟨i1, i2, i3⟩ := C165_image image cols hi
  rw [← hnc] at i1 i3
  obtain ⟨res, d, e1, e2, e3, e4, _⟩ := C107_demo hn hm l1 l2 l3 r1 r2 r3 h hr (init := some (.dict (readImage image)))
    (x := fun i => ent image (i / cols) (i % cols)) (by
      show (readImage image).length = n
      have := congrArg List.length i1
      simpa [Dict.keys] using this)
    (by
      intro i hin
      show (readImage image).get? i = _
      have hb := Nat.mod_lt i hc
      have := i2 (i / cols) (i % cols) hb
      rw [show i / cols * cols + i % cols = i by rw [Nat.mul_comm]; exact Nat.div_add_mod i cols] at this
      rw [this]
      exact ent_some hi (by rw [Nat.div_lt_iff_lt_mul hc]; omega) hb) hf
  let out := matVec n M3 (fun i => Spec.posPart (matVec n M2 (fun k => Spec.posPart (matVec n M1 (fun i => ent image (i / cols) (i % cols)) k)) i))
  have hv : firstValues d m = .ok ((List.range m).map out) := by
    have := firstValues_ok d ((List.range m).map out) (fun i hi' => by
      rw [List.length_map, List.length_range] at hi'
      rw [e4 i hi']
      simp [hi', out])
    rwa [List.length_map, List.length_range] at this
  have hat : ∀ j, j < m → (((List.range m).map out).map (fun q : Rat => (q : ℝ)))[j]? = some ((out j : Rat) : ℝ) := by
    intro j hj
    simp [hj]
  obtain ⟨k, v, c1, c2, c3⟩ := C165_class (((List.range m).map out).map (fun q : Rat => (q : ℝ))) (by
    intro he
    have := congrArg List.length he
    simp at this
    omega)
  have hk : k < m := by
    have := (List.getElem?_eq_some_iff.1 c2).1
    simpa using this
  rw [hat k hk] at c2
  cases c2
  refine ⟨res, d, _, k, e1, by rw [e2]; exact e3, hv, c1, hk, ?_, i3⟩
  intro out j hj
  obtain ⟨g1, g2⟩ := c3 j _ (hat j hj)
  exact ⟨by exact_mod_cast g1, fun hjk => by exact_mod_cast g2 hjk⟩

end

/-! Examples: an image with one row and two columns, and a file with rows of two numbers. -/

example : ∃ res d vals k, evolve 4 (Ex.mlpCall (demoWeights [[1, -1], [2, 0]] [[3, 1], [1, 1]]) demoActivation 4) (some (.dict (readImage [[2, 5]]))) 0
      ⟨[(mlpNetwork 2 (readWeights [[1, 2], [-1, 1]])).2], ()⟩ = .ok res ∧
    res.acts (Ex.mlpCall (demoWeights [[1, -1], [2, 0]] [[3, 1], [1, 1]]) demoActivation 4) (res.states.length - 1) = some d ∧
    firstValues d 2 = .ok vals ∧ predictedClass (vals.map (fun q : Rat => (q : ℝ))) = .ok k ∧ k < 2 ∧
      (let out := matVec 2 [[3, 1], [1, 1]] (fun i => Spec.posPart (matVec 2 [[1, -1], [2, 0]]
        (fun k => Spec.posPart (matVec 2 [[1, 2], [-1, 1]] (fun i => ent [[2, 5]] (i / 2) (i % 2)) k)) i))
       ∀ j, j < 2 → out j ≤ out k ∧ (j < k → out j < out k)) ∧
      shownImage (readImage [[(2 : Rat), 5]]) 2 1 2 = .ok [[2, 5]] :=
  C165_demo (M1 := [[1, 2], [-1, 1]]) (M2 := [[1, -1], [2, 0]]) (M3 := [[3, 1], [1, 1]]) (image := [[2, 5]]) (n := 2) (m := 2) (cols := 2)
    (by omega) (by omega) (by omega) rfl (by decide) rfl rfl rfl (by decide) (by decide) (by decide) (Ex.mlpCall_ok _ _ _) (r := 0)
    (w := ⟨[(mlpNetwork 2 (readWeights [[1, 2], [-1, 1]])).2], ()⟩) rfl (by omega)

example : readImage [[(7 : Nat), 8], [9, 6], [5, 4]] = [(0, 7), (1, 8), (2, 9), (3, 6), (4, 5), (5, 4)] := by decide
example : shownImage (readImage [[(7 : Nat), 8], [9, 6], [5, 4]]) 6 3 2 = .ok [[7, 8], [9, 6], [5, 4]] :=
  (C165_image [[(7 : Nat), 8], [9, 6], [5, 4]] 2 (by decide)).2.2
example : shownImage (readImage [[(7 : Nat), 8], [9, 6], [5, 4]]) 6 3 3 = .error .valueError := C165_shape _ 6 3 3 (by decide) (by decide)
example : shownImage (readImage [[(7 : Nat), 8], [9, 6], [5, 4]]) 9 3 3 = .error .keyError := C165_short _ 9 3 3 (by decide)
example : (softmax [3, 1]).sum = 1 := (C165_softmax [3, 1] (by simp)).2.2.1
example : ∃ k v, predictedClass [3, 7, 7] = .ok k ∧ [(3 : ℝ), 7, 7][k]? = some v ∧ ∀ (j : Nat) (w : ℝ), [(3 : ℝ), 7, 7][j]? = some w → w ≤ v ∧ (j < k → w < v) :=
  C165_class [3, 7, 7] (by simp)

end Verif
