import Verif.Proofs.Analysis
/-! # C66, C67, C68: entropies and mutual information (`analysis.py`)

`analysis.py` computes with floats, here real numbers.  The number of different symbols of a string `s` is
`s.toFinset.card`. -/

namespace Verif

section
variable {α β : Type} [DecidableEq α] [DecidableEq β]

/-- The relative frequency of a symbol. -/
noncomputable def Spec.freq (s : List α) (a : α) : ℝ := (s.count a : ℝ) / (s.length : ℝ)

/-! ## C66 -/

/-- **C66.** The textbook formula: the entropy is the sum of `p log₂ (1/p)` over the different symbols. -/
theorem C66_formula (s : List α) :
    shannonEntropy s = ∑ a ∈ s.toFinset, Spec.freq s a * Real.logb 2 (1 / Spec.freq s a) := by
  rw [entropy_finset]
  refine Finset.sum_congr rfl fun a _ => ?_
  unfold Spec.freq
  rw [one_div, Real.logb_inv]
  ring

/-- **C66.** The entropy lies between 0 and `log₂` of the number of different symbols. -/
theorem C66_bounds (s : List α) (_hs : s ≠ []) :
    0 ≤ shannonEntropy s ∧ shannonEntropy s ≤ Real.logb 2 s.toFinset.card := by
  refine ⟨entropy_nonneg s, ?_⟩
  rw [← symbolsOf_toFinset, List.toFinset_card_of_nodup (nodup_symbolsOf s)]
  exact entropy_le s

example : (['a', 'b', 'a'] : List Char) ≠ [] := by decide

/-- **C66.** The empty string has entropy 0. -/
theorem C66_empty : shannonEntropy ([] : List α) = 0 := by simp [shannonEntropy, symbolsOf]

/-- **C66.** The entropy is 0 exactly if at most one symbol occurs. -/
theorem C66_zero_iff (s : List α) : shannonEntropy s = 0 ↔ s.toFinset.card ≤ 1 := by
  rw [entropy_zero, Finset.card_le_one]
  simp

/-- **C66.** The upper bound is reached if all symbols occur equally often (so the unit is one bit). -/
theorem C66_uniform (s : List α) (hs : s ≠ []) (m : ℕ) (h : ∀ a ∈ s, s.count a = m) :
    shannonEntropy s = Real.logb 2 s.toFinset.card := by
  rw [← symbolsOf_toFinset, List.toFinset_card_of_nodup (nodup_symbolsOf s)]
  exact entropy_uniform s hs m h

/-- "0011" has two symbols, each twice: one bit. -/
example : shannonEntropy ['0', '0', '1', '1'] = 1 := by
  rw [C66_uniform _ (by decide) 2 (by decide)]
  have : (['0', '0', '1', '1'] : List Char).toFinset.card = 2 := by decide
  rw [this]
  exact Real.logb_self_eq_one (by norm_num)

/-- **C66.** Permuting the string and renaming its symbols one-to-one does not change the entropy. -/
theorem C66_invariant (f : α → β) (s : List α) (s' : List β) (hf : ∀ a ∈ s, ∀ b ∈ s, f a = f b → a = b)
    (h : s'.Perm (s.map f)) : shannonEntropy s' = shannonEntropy s :=
  entropy_congr f h hf

example : (['x', 'y', 'x'] : List Char).Perm ([false, false, true].map (fun b => if b then 'y' else 'x')) := by decide

end

/-! ## C67 -/

section
variable {α β : Type} [DecidableEq α] [DecidableEq β]

/-- `xs` lists the members of the set of the symbols of `X` in some order. -/
def Spec.Enumerates (xs X : List α) : Prop := xs.Nodup ∧ ∀ a, a ∈ xs ↔ a ∈ X

/-- The relative frequency of a pair of symbols at equal positions. -/
noncomputable def Spec.jointFreq (X : List α) (Y : List β) (x : α) (y : β) : ℝ :=
  (((List.range X.length).filter (fun i => decide (X[i]? = some x ∧ Y[i]? = some y))).length : ℝ) / (X.length : ℝ)

attribute [-instance] instBEqProd

theorem count_range (l : List α) (a : α) :
    ((List.range l.length).filter (fun i => decide (l[i]? = some a))).length = l.count a := by
  rw [← List.countP_eq_length_filter]
  induction l with
  | nil => simp
  | cons b l ih =>
    rw [List.length_cons, List.range_succ_eq_map, List.countP_cons, List.countP_map, List.count_cons, ← ih]
    congr 1
    simp

theorem jointFreq_eq (X : List α) (Y : List β) (h : X.length = Y.length) (x : α) (y : β) :
    Spec.jointFreq X Y x y = Spec.freq (X.zip Y) (x, y) := by
  have hl : (X.zip Y).length = X.length := by simp [h]
  unfold Spec.jointFreq Spec.freq
  rw [← count_range, hl]
  congr 3
  apply List.filter_congr
  intro i _
  rw [decide_eq_decide, List.getElem?_zip_eq_some]

/-- **C67.** The joint entropy of strings of equal length is the sum of `p log₂ (1/p)` over the pairs of symbols, whatever
the order in which the sets of symbols are visited. -/
theorem C67_joint_formula (X : List α) (Y : List β) (hl : X.length = Y.length) (xs : List α) (ys : List β)
    (hx : Spec.Enumerates xs X) (hy : Spec.Enumerates ys Y) :
    jointEntropy xs ys X Y = .ok (∑ x ∈ X.toFinset, ∑ y ∈ Y.toFinset,
      Spec.jointFreq X Y x y * Real.logb 2 (1 / Spec.jointFreq X Y x y)) := by
  rw [jointEntropy_eq hl hx.1 hx.2 hy.1 hy.2, C66_formula]
  congr 1
  rw [← Finset.sum_product']
  have hsub : (X.zip Y).toFinset ⊆ X.toFinset ×ˢ Y.toFinset := by
    intro p hp
    have hp := List.mem_toFinset.mp hp
    simp only [Finset.mem_product, List.mem_toFinset]
    exact ⟨(List.of_mem_zip hp).1, (List.of_mem_zip hp).2⟩
  rw [← Finset.sum_subset hsub]
  · refine Finset.sum_congr rfl fun p _ => ?_
    rw [jointFreq_eq X Y hl]
  · intro p _ hp
    have : (X.zip Y).count p = 0 := List.count_eq_zero.mpr (by simpa using hp)
    rw [jointFreq_eq X Y hl]
    simp only [Spec.freq, Prod.mk.eta, this]
    simp

/-- **C67.** The joint entropy is at least each marginal and at most their sum. -/
theorem C67_joint_bounds (X : List α) (Y : List β) (hl : X.length = Y.length) (xs : List α) (ys : List β)
    (hx : Spec.Enumerates xs X) (hy : Spec.Enumerates ys Y) :
    ∃ h, jointEntropy xs ys X Y = .ok h ∧ shannonEntropy X ≤ h ∧ shannonEntropy Y ≤ h
      ∧ h ≤ shannonEntropy X + shannonEntropy Y := by
  refine ⟨_, jointEntropy_eq hl hx.1 hx.2 hy.1 hy.2, ?_, ?_, ?_⟩
  · have := entropy_fst_le (X.zip Y); rwa [map_fst_zip hl] at this
  · have := entropy_snd_le (X.zip Y); rwa [map_snd_zip hl] at this
  · have := entropy_subadditive (X.zip Y); rwa [map_fst_zip hl, map_snd_zip hl] at this

/-- **C67.** The mutual information is non-negative, and at most each entropy. -/
theorem C67_nonneg (X : List α) (Y : List β) (hl : X.length = Y.length) (xs : List α) (ys : List β)
    (hx : Spec.Enumerates xs X) (hy : Spec.Enumerates ys Y) :
    ∃ m, mutualInformation xs ys X Y = .ok m ∧ 0 ≤ m ∧ m ≤ shannonEntropy X ∧ m ≤ shannonEntropy Y := by
  obtain ⟨h, he, h1, h2, h3⟩ := C67_joint_bounds X Y hl xs ys hx hy
  refine ⟨_, by rw [mutualInformation, he], ?_, ?_, ?_⟩ <;> linarith

/-- **C67.** The mutual information is symmetric (and does not depend on the order in which the sets are visited). -/
theorem C67_symmetric (X : List α) (Y : List β) (hl : X.length = Y.length) (xs xs' : List α) (ys ys' : List β)
    (hx : Spec.Enumerates xs X) (hy : Spec.Enumerates ys Y) (hx' : Spec.Enumerates xs' X) (hy' : Spec.Enumerates ys' Y) :
    mutualInformation xs ys X Y = mutualInformation ys' xs' Y X := by
  unfold mutualInformation
  rw [jointEntropy_eq hl hx.1 hx.2 hy.1 hy.2, jointEntropy_eq hl.symm hy'.1 hy'.2 hx'.1 hx'.2]
  have : shannonEntropy (Y.zip X) = shannonEntropy (X.zip Y) := by
    rw [← List.zip_swap]; exact entropy_swap _
  simp only [this]
  congr 1
  ring

omit [DecidableEq α] in
theorem zip_self (X : List α) : X.zip X = X.map (fun a => (a, a)) := by
  induction X with
  | nil => rfl
  | cons a X ih => simp [ih]

/-- **C67.** The mutual information of a string with itself is its entropy. -/
theorem C67_self (X : List α) (xs xs' : List α) (hx : Spec.Enumerates xs X) (hx' : Spec.Enumerates xs' X) :
    mutualInformation xs xs' X X = .ok (shannonEntropy X) := by
  unfold mutualInformation
  rw [jointEntropy_eq rfl hx.1 hx.2 hx'.1 hx'.2]
  have : shannonEntropy (X.zip X) = shannonEntropy X :=
    entropy_congr (fun a => (a, a)) (by rw [zip_self]) (fun _ _ _ _ h => (Prod.mk.inj h).1)
  simp only [this]
  congr 1
  ring

/-- **C67.** "which must be of the same length": other lengths raise, unless one of the strings has length 0 or 1. -/
theorem C67_unequal (X : List α) (Y : List β) (hl : X.length ≠ Y.length) (hX : 2 ≤ X.length) (hY : 2 ≤ Y.length)
    (xs : List α) (ys : List β) (hx : Spec.Enumerates xs X) (hy : Spec.Enumerates ys Y) :
    mutualInformation xs ys X Y = .error .valueError := by
  have h1 : xs ≠ [] := by
    rintro rfl
    match X, hX with | a :: _, _ => simpa using (hx.2 a).mpr (by simp)
  have h2 : ys ≠ [] := by
    rintro rfl
    match Y, hY with | a :: _, _ => simpa using (hy.2 a).mpr (by simp)
  unfold mutualInformation jointEntropy broadcast
  rw [if_neg (by simp [h1, h2]), if_neg hl]
  match X, Y, hX, hY with
  | _ :: _ :: _, _ :: _ :: _, _, _ => rfl

example : Spec.Enumerates ['1', '0'] ['0', '1', '1', '0'] ∧ Spec.Enumerates ['a', 'b'] ['b', 'b', 'a', 'a'] := by
  refine ⟨⟨by decide, fun a => ?_⟩, ⟨by decide, fun a => ?_⟩⟩ <;> simp <;> tauto

end

/-! ## C68 -/

section
variable {α : Type}

/-- The states of node `i` over time, written one after the other. -/
def Spec.column (str : α → List Char) (activities : List (List α)) (i : Nat) : List Char :=
  activities.flatMap (fun row => (row[i]?.map str).getD [])

theorem mi_ok (order : List Char → List Char) (horder : ∀ s, Spec.Enumerates (order s) s) (s : List Char) (d : Nat) :
    ∃ m, mutualInformation (order (s.take (s.length - d))) (order (s.drop d)) (s.take (s.length - d)) (s.drop d) = .ok m := by
  have hl : (s.take (s.length - d)).length = (s.drop d).length := by simp
  obtain ⟨m, hm, _⟩ := C67_nonneg _ _ hl _ _ (horder _) (horder _)
  exact ⟨m, hm⟩

/-- **C68.** `average_mutual_information` returns exactly if there are activities, the temporal distance is positive and
below the number of *nodes*, and no row is shorter than the first. -/
theorem C68_returns_iff (str : α → List Char) (order : List Char → List Char) (horder : ∀ s, Spec.Enumerates (order s) s)
    (activities : List (List α)) (d : Int) :
    (∃ m, averageMutualInformation str order activities d = .ok m)
      ↔ ∃ row rows, activities = row :: rows ∧ 0 < d ∧ d < row.length ∧ ∀ r ∈ activities, row.length ≤ r.length := by
  match activities with
  | [] => simp [averageMutualInformation]
  | row :: rows =>
    simp only [averageMutualInformation]
    by_cases hd : 0 < d ∧ d < row.length
    · rw [if_neg (not_not.mpr hd)]
      have hrow : 0 < row.length := by omega
      by_cases hr : ∀ r ∈ row :: rows, row.length ≤ r.length
      · constructor
        · intro _; exact ⟨row, rows, rfl, hd.1, hd.2, hr⟩
        · intro _
          choose g hg using fun s => mi_ok order horder s d.toNat
          rw [except_mapM_ok _ _ (fun i => g (Spec.column str (row :: rows) i))]
          · refine ⟨((List.range row.length).map (fun i => g (Spec.column str (row :: rows) i))).sum
                / ((List.range row.length).map (fun i => g (Spec.column str (row :: rows) i))).length, ?_⟩
            show npMean _ = _
            unfold npMean
            rw [if_neg (by simp; intro h; simp [h] at hrow)]
          · intro i hi
            rw [nodeString_ok _ _ _ (fun r h => lt_of_lt_of_le (List.mem_range.mp hi) (hr r h))]
            exact hg _
      · constructor
        · rintro ⟨m, hm⟩
          exfalso
          push Not at hr
          obtain ⟨r, hrm, hrl⟩ := hr
          obtain ⟨e, he⟩ := except_mapM_error (List.range row.length) (fun i => do
              let s ← nodeString str (row :: rows) i
              mutualInformation (order (s.take (s.length - d.toNat))) (order (s.drop d.toNat))
                (s.take (s.length - d.toNat)) (s.drop d.toNat)) r.length (List.mem_range.mpr hrl) .indexError (by
            rw [nodeString_error _ _ _ ⟨r, hrm, le_refl _⟩]; rfl)
          rw [he] at hm
          cases hm
        · rintro ⟨row', rows', h, _, _, h'⟩
          cases h
          exact absurd h' hr
    · rw [if_pos hd]
      constructor
      · rintro ⟨m, hm⟩; cases hm
      · rintro ⟨row', rows', h, h1, h2, _⟩
        cases h
        exact absurd ⟨h1, h2⟩ hd

/-- **C68, the value.** It is the mean over the nodes of the mutual information of the string of states without its last
`d` characters and the string without its first `d` characters. -/
theorem C68_value (str : α → List Char) (order : List Char → List Char) (horder : ∀ s, Spec.Enumerates (order s) s)
    (activities : List (List α)) (d : Nat) (w : Nat) (hw : ∀ r ∈ activities, r.length = w) (hne : activities ≠ [])
    (h0 : 0 < d) (hd : d < w) :
    ∃ ms : List ℝ, averageMutualInformation str order activities d = .ok (ms.sum / w) ∧ ms.length = w
      ∧ ∀ i, i < w → ∃ m, ms[i]? = some m ∧
        let s := Spec.column str activities i
        mutualInformation (order (s.take (s.length - d))) (order (s.drop d)) (s.take (s.length - d)) (s.drop d) = .ok m := by
  match activities, hne with
  | row :: rows, _ =>
    have hrow : row.length = w := hw row (by simp)
    choose g hg using fun s => mi_ok order horder s d
    refine ⟨(List.range w).map (fun i => g (Spec.column str (row :: rows) i)), ?_, by simp, ?_⟩
    · simp only [averageMutualInformation, hrow]
      rw [if_neg (by omega), except_mapM_ok _ _ (fun i => g (Spec.column str (row :: rows) i))]
      · show npMean _ = _
        unfold npMean
        rw [if_neg (by simp; omega)]
        simp
      · intro i hi
        rw [nodeString_ok _ _ _ (fun r h => by rw [hw r h]; exact List.mem_range.mp hi)]
        exact hg _
    · intro i hi
      exact ⟨g (Spec.column str (row :: rows) i), by simp [hi], hg _⟩

/-- C68 as documented: it raises exactly if the distance is not positive or not below the number of time steps. -/
def Spec.DistanceCheck (str : α → List Char) (order : List Char → List Char) : Prop :=
  ∀ (activities : List (List α)) (w : Nat) (d : Int), activities ≠ [] → (∀ r ∈ activities, r.length = w) →
    ((∀ m, averageMutualInformation str order activities d ≠ .ok m) ↔ (d ≤ 0 ∨ (activities.length : Int) ≤ d))

/-- **C68 is false.** The check compares with the number of nodes: three time steps of one node are refused at distance 1. -/
theorem C68_false (a : α) (str : α → List Char) (order : List Char → List Char)
    (horder : ∀ s, Spec.Enumerates (order s) s) : ¬ Spec.DistanceCheck str order := by
  intro h
  have h1 := h [[a], [a], [a]] 1 1 (by simp) (by simp)
  have h2 := h1.mp (by
    intro m hm
    obtain ⟨row, rows, he, _, h2, _⟩ := (C68_returns_iff str order horder _ _).mp ⟨m, hm⟩
    cases he
    simp at h2)
  simp at h2

/-- **C68 is false** in the other direction as well: two time steps of five nodes are accepted at distance 3. -/
theorem C68_false_accepts (a : α) (str : α → List Char) (order : List Char → List Char)
    (horder : ∀ s, Spec.Enumerates (order s) s) :
    ∃ m, averageMutualInformation str order [[a, a, a, a, a], [a, a, a, a, a]] 3 = .ok m :=
  (C68_returns_iff str order horder _ _).mpr ⟨_, _, rfl, by decide, by simp, by simp⟩

/-- **C68, partial.** The documented check holds if there are as many nodes as time steps.  The full statement is
`Spec.DistanceCheck`; what is missing is every other shape, where the check compares with the wrong number. -/
theorem C68_square_partial (str : α → List Char) (order : List Char → List Char)
    (horder : ∀ s, Spec.Enumerates (order s) s) (activities : List (List α)) (d : Int) (hne : activities ≠ [])
    (hw : ∀ r ∈ activities, r.length = activities.length) :
    (∀ m, averageMutualInformation str order activities d ≠ .ok m) ↔ (d ≤ 0 ∨ (activities.length : Int) ≤ d) := by
  rw [← not_exists, C68_returns_iff str order horder]
  match activities, hne with
  | row :: rows, _ =>
    have h1 : row.length = (row :: rows).length := hw row (by simp)
    constructor
    · intro h
      by_contra hc
      push Not at hc
      exact h ⟨row, rows, rfl, hc.1, by rw [h1]; exact hc.2, fun r hr => by rw [h1, hw r hr]⟩
    · rintro h ⟨row', rows', he, h2, h3, _⟩
      cases he
      rw [h1] at h3
      omega

/-- The sets can be visited in some order. -/
example : ∃ order : List Char → List Char, ∀ s, Spec.Enumerates (order s) s :=
  ⟨symbolsOf, fun s => ⟨nodup_symbolsOf s, mem_symbolsOf s⟩⟩

example : ∀ r ∈ ([[0, 1, 0], [1, 1, 0], [0, 0, 1]] : List (List Nat)),
    r.length = ([[0, 1, 0], [1, 1, 0], [0, 0, 1]] : List (List Nat)).length := by decide

/-- **C66, averages.** `average_node_entropy` is the mean of the entropies of the nodes; it lies between 0 and any common
bound of them. -/
theorem C66_average (str : α → List Char) (activities : List (List α)) (w : Nat) (hne : activities ≠ [])
    (hw : ∀ r ∈ activities, r.length = w) (h0 : 0 < w) :
    averageNodeEntropy str activities
      = .ok (((List.range w).map (fun i => shannonEntropy (Spec.column str activities i))).sum / w) := by
  match activities, hne with
  | row :: rows, _ =>
    have hrow : row.length = w := hw row (by simp)
    simp only [averageNodeEntropy, hrow]
    rw [except_mapM_ok _ _ (fun i => shannonEntropy (Spec.column str (row :: rows) i))]
    · show npMean _ = _
      unfold npMean
      rw [if_neg (by simp; omega)]
      simp
    · intro i hi
      rw [nodeString_ok _ _ _ (fun r h => by rw [hw r h]; exact List.mem_range.mp hi)]
      rfl

/-- **C66, averages.** Without activities it raises. -/
theorem C66_average_empty (str : α → List Char) :
    averageNodeEntropy str ([] : List (List α)) = .error (.exception "there are no activities") := rfl

/-- Activities with several characters run together: a node that is 1, then 11 and one that is 11, then 1 have the same
string "111", of entropy 0, although their states differ over time. -/
theorem C66_average_joined (str : Nat → List Char) (h1 : str 1 = ['1']) (h11 : str 11 = ['1', '1']) :
    averageNodeEntropy str [[1], [11]] = .ok 0 := by
  rw [C66_average str [[1], [11]] 1 (by simp) (by simp) (by simp)]
  have : shannonEntropy (Spec.column str [[1], [11]] 0) = 0 := by
    rw [C66_zero_iff]
    simp [Spec.column, h1, h11]
  simp [this]

end
end Verif
