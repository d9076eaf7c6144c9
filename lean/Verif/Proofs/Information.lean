import Verif.Props.Analysis
/-! # When the inequalities between entropies are equalities -/

namespace Verif

set_option linter.unusedSectionVars false

section
attribute [-instance] instBEqProd
variable {α β : Type} [DecidableEq α] [DecidableEq β]

theorem logb_lt (t : ℝ) (h : 0 < t) (h1 : t ≠ 1) : Real.logb 2 t < (t - 1) / Real.log 2 := by
  unfold Real.logb
  exact div_lt_div_of_pos_right (Real.log_lt_sub_one_of_pos h h1) two_log_pos

/-- If the logarithms of positive numbers with mean at most 1 have mean 0, all of them are 1. -/
theorem all_one_of_sum_logb (l : List α) (t : α → ℝ) (h : ∀ a ∈ l, 0 < t a) (hs : (l.map t).sum ≤ l.length)
    (h0 : 0 ≤ (l.map (fun a => Real.logb 2 (t a))).sum) : ∀ a ∈ l, t a = 1 := by
  have hd : ∀ a ∈ l, 0 ≤ (t a - 1) / Real.log 2 - Real.logb 2 (t a) := fun a ha => by
    have := logb_le (t a) (h a ha); linarith
  have hsum : (l.map (fun a => (t a - 1) / Real.log 2 - Real.logb 2 (t a))).sum = 0 := by
    apply le_antisymm
    · rw [sum_sub_map]
      have e : (l.map (fun a => (t a - 1) / Real.log 2)).sum = ((l.map t).sum - l.length) / Real.log 2 := by
        clear hs h0 h hd
        induction l with
        | nil => simp
        | cons a l ih => simp only [List.map_cons, List.sum_cons, ih, List.length_cons, Nat.cast_add, Nat.cast_one]; ring
      rw [e]
      have : ((l.map t).sum - l.length) / Real.log 2 ≤ 0 := div_nonpos_of_nonpos_of_nonneg (by linarith) two_log_pos.le
      linarith
    · refine List.sum_nonneg ?_
      intro x hx
      obtain ⟨b, hb, rfl⟩ := List.mem_map.mp hx
      exact hd b hb
  intro a ha
  by_contra h1
  have := (sum_eq_zero l _ hd).1 hsum a ha
  have := logb_lt (t a) (h a ha) h1
  linarith

theorem sum_counts (l : List α) : ∑ x ∈ l.toFinset, (l.count x : ℝ) = l.length := by
  exact_mod_cast List.sum_toFinset_count_eq_length l

/-- Maximal entropy: all symbols occur equally often. -/
theorem entropy_max (s : List α) (h : shannonEntropy s = Real.logb 2 (symbolsOf s).length) :
    ∀ a ∈ s, (s.count a : ℝ) * (symbolsOf s).length = s.length := by
  intro a0 ha0
  have hl := length_pos_real ha0
  have hk : (0 : ℝ) < (symbolsOf s).length := length_pos_real ((mem_symbolsOf s a0).mpr ha0)
  have hcard : ((symbolsOf s).length : ℝ) = s.toFinset.card := by
    rw [← symbolsOf_toFinset, List.toFinset_card_of_nodup (nodup_symbolsOf s)]
  rw [entropy_positions, div_eq_iff hl.ne'] at h
  have h1 : (s.map (fun a => Real.logb 2 (s.length / s.count a))).sum - Real.logb 2 (symbolsOf s).length * s.length
      = (s.map (fun a => Real.logb 2 (s.length / (s.count a * (symbolsOf s).length)))).sum := by
    have h2 : Real.logb 2 (symbolsOf s).length * s.length = (s.map (fun _ => Real.logb 2 (symbolsOf s).length)).sum := by
      simp [mul_comm]
    rw [h2, ← sum_sub_map]
    congr 1
    apply List.map_congr_left
    intro a ha
    have hc := count_pos_real ha
    rw [← Real.logb_div (by positivity) hk.ne']
    congr 1
    field_simp
  have h3 : (s.map (fun a => (s.length : ℝ) / (s.count a * (symbolsOf s).length))).sum = s.length := by
    rw [sum_positions]
    have : ∀ a ∈ s.toFinset, (s.count a : ℝ) * (s.length / (s.count a * (symbolsOf s).length))
        = s.length / (symbolsOf s).length := by
      intro a ha
      have hc := count_pos_real (List.mem_toFinset.mp ha)
      field_simp
    rw [Finset.sum_congr rfl this, Finset.sum_const, nsmul_eq_mul, ← hcard]
    field_simp
  have h4 := all_one_of_sum_logb s (fun a => (s.length : ℝ) / (s.count a * (symbolsOf s).length)) (by
    intro a ha
    have hc := count_pos_real ha
    positivity) h3.le (by linarith) a0 ha0
  have hc := count_pos_real ha0
  rw [div_eq_one_iff_eq (by positivity)] at h4
  exact h4.symm

/-- The entropies of two strings and of the string of the pairs. -/
theorem entropy_gap (Z : List (α × β)) (hZ : Z ≠ []) :
    shannonEntropy Z - shannonEntropy (Z.map Prod.fst) - shannonEntropy (Z.map Prod.snd) =
      (Z.map (fun p => Real.logb 2 (((Z.map Prod.fst).count p.1 : ℝ) * (Z.map Prod.snd).count p.2 / (Z.length * Z.count p)))).sum / Z.length := by
  obtain ⟨p0, hp0⟩ := List.exists_mem_of_ne_nil Z hZ
  have hl := length_pos_real hp0
  rw [entropy_positions, entropy_positions (Z.map Prod.fst), entropy_positions (Z.map Prod.snd), List.map_map, List.map_map,
    List.length_map, List.length_map, ← sub_div, ← sub_div, ← sum_sub_map, ← sum_sub_map]
  congr 2
  apply List.map_congr_left
  intro p hp
  have h1 : (0 : ℝ) < (Z.map Prod.fst).count p.1 := count_pos_real (List.mem_map_of_mem hp)
  have h2 : (0 : ℝ) < (Z.map Prod.snd).count p.2 := count_pos_real (List.mem_map_of_mem hp)
  have h3 := count_pos_real hp
  simp only [Function.comp]
  rw [← Real.logb_div (by positivity) (by positivity), ← Real.logb_div (by positivity) (by positivity)]
  congr 1
  field_simp

/-- The entropies add up exactly for independent strings. -/
theorem entropy_additive (Z : List (α × β)) :
    shannonEntropy Z = shannonEntropy (Z.map Prod.fst) + shannonEntropy (Z.map Prod.snd) ↔
      ∀ x y, (Z.length : ℝ) * Z.count (x, y) = (Z.map Prod.fst).count x * (Z.map Prod.snd).count y := by
  rcases eq_or_ne Z [] with rfl | hZ
  · simp [shannonEntropy, symbolsOf]
  obtain ⟨p0, hp0⟩ := List.exists_mem_of_ne_nil Z hZ
  have hl := length_pos_real hp0
  have hgap := entropy_gap Z hZ
  have e2 : Z.toFinset ⊆ (Z.map Prod.fst).toFinset ×ˢ (Z.map Prod.snd).toFinset := by
    intro p hp
    have hp := List.mem_toFinset.mp hp
    simp only [Finset.mem_product, List.mem_toFinset]
    exact ⟨List.mem_map_of_mem hp, List.mem_map_of_mem hp⟩
  have htot : ∑ p ∈ (Z.map Prod.fst).toFinset ×ˢ (Z.map Prod.snd).toFinset, ((Z.map Prod.fst).count p.1 : ℝ) * (Z.map Prod.snd).count p.2
      = (Z.length : ℝ) * Z.length := by
    rw [Finset.sum_product]
    show ∑ x ∈ _, ∑ y ∈ _, ((Z.map Prod.fst).count x : ℝ) * ((Z.map Prod.snd).count y : ℝ) = _
    rw [← Finset.sum_mul_sum, sum_counts, sum_counts, List.length_map, List.length_map]
  constructor
  · intro h
    have ht : ∀ p ∈ Z, (0 : ℝ) < ((Z.map Prod.fst).count p.1 : ℝ) * (Z.map Prod.snd).count p.2 / (Z.length * Z.count p) := by
      intro p hp
      have h1 : (0 : ℝ) < (Z.map Prod.fst).count p.1 := count_pos_real (List.mem_map_of_mem hp)
      have h2 : (0 : ℝ) < (Z.map Prod.snd).count p.2 := count_pos_real (List.mem_map_of_mem hp)
      have h3 := count_pos_real hp
      positivity
    have hsum : (Z.map (fun p => ((Z.map Prod.fst).count p.1 : ℝ) * (Z.map Prod.snd).count p.2 / (Z.length * Z.count p))).sum ≤ Z.length := by
      rw [sum_positions]
      have e1 : ∀ p ∈ Z.toFinset, (Z.count p : ℝ) * (((Z.map Prod.fst).count p.1 : ℝ) * (Z.map Prod.snd).count p.2 / (Z.length * Z.count p))
          = (Z.map Prod.fst).count p.1 * (Z.map Prod.snd).count p.2 / Z.length := by
        intro p hp
        have h3 := count_pos_real (List.mem_toFinset.mp hp)
        field_simp
      rw [Finset.sum_congr rfl e1, ← Finset.sum_div, div_le_iff₀ hl, ← htot]
      exact Finset.sum_le_sum_of_subset_of_nonneg e2 fun p _ _ => by positivity
    have hone := all_one_of_sum_logb Z _ ht hsum (by
      have h0 : (Z.map (fun p => Real.logb 2 (((Z.map Prod.fst).count p.1 : ℝ) * (Z.map Prod.snd).count p.2 / (Z.length * Z.count p)))).sum / Z.length = 0 := by
        rw [← hgap, h]; ring
      rw [div_eq_zero_iff, or_iff_left hl.ne'] at h0
      exact h0.ge)
    have hin : ∀ p ∈ Z, (Z.length : ℝ) * Z.count p = (Z.map Prod.fst).count p.1 * (Z.map Prod.snd).count p.2 := by
      intro p hp
      have h3 := count_pos_real hp
      have := hone p hp
      rw [div_eq_one_iff_eq (by positivity)] at this
      exact this.symm
    have hrest : ∑ p ∈ ((Z.map Prod.fst).toFinset ×ˢ (Z.map Prod.snd).toFinset) \ Z.toFinset,
        ((Z.map Prod.fst).count p.1 : ℝ) * (Z.map Prod.snd).count p.2 = 0 := by
      have h1 := Finset.sum_sdiff (f := fun p : α × β => ((Z.map Prod.fst).count p.1 : ℝ) * (Z.map Prod.snd).count p.2) e2
      have h2 : ∑ p ∈ Z.toFinset, ((Z.map Prod.fst).count p.1 : ℝ) * (Z.map Prod.snd).count p.2 = Z.length * Z.length := by
        rw [Finset.sum_congr rfl (fun p hp => (hin p (List.mem_toFinset.mp hp)).symm), ← Finset.mul_sum, sum_counts]
      rw [htot, h2] at h1
      linarith
    rw [Finset.sum_eq_zero_iff_of_nonneg (fun p _ => by positivity)] at hrest
    intro x y
    by_cases hp : (x, y) ∈ Z
    · exact hin _ hp
    · rw [List.count_eq_zero.mpr hp]
      by_cases hx : x ∈ Z.map Prod.fst
      · by_cases hy : y ∈ Z.map Prod.snd
        · have := hrest (x, y) (by
            rw [Finset.mem_sdiff, Finset.mem_product, List.mem_toFinset, List.mem_toFinset, List.mem_toFinset]
            exact ⟨⟨hx, hy⟩, hp⟩)
          simp only at this
          rw [this]; simp
        · rw [List.count_eq_zero.mpr hy]; simp
      · rw [List.count_eq_zero.mpr hx]; simp
  · intro h
    have h0 : Z.map (fun p => Real.logb 2 (((Z.map Prod.fst).count p.1 : ℝ) * (Z.map Prod.snd).count p.2 / (Z.length * Z.count p))) =
        Z.map (fun _ => (0 : ℝ)) := by
      apply List.map_congr_left
      intro p hp
      have h3 := count_pos_real hp
      rw [← h p.1 p.2, div_self (by positivity), Real.logb_one]
    rw [h0] at hgap
    simp only [List.map_const', List.sum_replicate, nsmul_eq_mul, mul_zero, zero_div] at hgap
    linarith

/-- Two different pairs with the same first component are both counted there. -/
theorem count_two_le (Z : List (α × β)) (p q : α × β) (h : p.1 = q.1) (hne : ¬ p.2 = q.2) :
    Z.count p + Z.count q ≤ (Z.map Prod.fst).count p.1 := by
  have hpq : p ≠ q := fun e => hne (by rw [e])
  induction Z with
  | nil => simp
  | cons r Z ih =>
    simp only [List.map_cons, List.count_cons, beq_iff_eq]
    by_cases h1 : r = p
    · subst h1
      rw [if_pos rfl, if_neg hpq, if_pos rfl]; omega
    · by_cases h2 : r = q
      · subst h2
        rw [if_neg h1, if_pos rfl, if_pos h.symm]; omega
      · rw [if_neg h1, if_neg h2]
        split <;> omega

/-- The pairs carry no more information than the first string exactly if it determines the second. -/
theorem entropy_fst_eq (Z : List (α × β)) :
    shannonEntropy Z = shannonEntropy (Z.map Prod.fst) ↔ ∀ p ∈ Z, ∀ q ∈ Z, p.1 = q.1 → p.2 = q.2 := by
  constructor
  · intro h
    rcases eq_or_ne Z [] with rfl | hZ
    · simp
    obtain ⟨p0, hp0⟩ := List.exists_mem_of_ne_nil Z hZ
    have hl := length_pos_real hp0
    rw [entropy_positions, entropy_positions (Z.map Prod.fst), List.map_map, List.length_map, div_left_inj' hl.ne'] at h
    have hterm : ∀ p ∈ Z, (Z.count p : ℝ) ≤ (Z.map Prod.fst).count p.1 := fun p _ => by exact_mod_cast count_pair_le_left Z p
    have hd : ∀ p ∈ Z, 0 ≤ Real.logb 2 (Z.length / Z.count p) - Real.logb 2 (Z.length / (Z.map Prod.fst).count p.1) := by
      intro p hp
      have hc := count_pos_real hp
      have hle := hterm p hp
      have : Real.logb 2 ((Z.length : ℝ) / (Z.map Prod.fst).count p.1) ≤ Real.logb 2 (Z.length / Z.count p) := by
        apply Real.logb_le_logb_of_le (by norm_num)
        · have : (0 : ℝ) < (Z.map Prod.fst).count p.1 := lt_of_lt_of_le hc hle
          positivity
        · exact div_le_div_of_nonneg_left hl.le hc hle
      linarith
    have h0 : (Z.map (fun p => Real.logb 2 (Z.length / Z.count p) - Real.logb 2 (Z.length / (Z.map Prod.fst).count p.1))).sum = 0 := by
      rw [sum_sub_map, h]
      simp only [Function.comp_def, sub_self]
    have heq : ∀ p ∈ Z, Z.count p = (Z.map Prod.fst).count p.1 := by
      intro p hp
      have hc := count_pos_real hp
      have hle := hterm p hp
      have hc' : (0 : ℝ) < (Z.map Prod.fst).count p.1 := lt_of_lt_of_le hc hle
      have h1 := (sum_eq_zero Z _ hd).1 h0 p hp
      have h2 := Real.logb_injOn_pos (b := 2) (by norm_num) (Set.mem_Ioi.2 (show (0 : ℝ) < Z.length / Z.count p by positivity))
        (Set.mem_Ioi.2 (show (0 : ℝ) < Z.length / (Z.map Prod.fst).count p.1 by positivity)) (sub_eq_zero.1 h1)
      rw [div_eq_div_iff hc.ne' hc'.ne'] at h2
      have h3 := mul_left_cancel₀ hl.ne' h2
      exact_mod_cast h3.symm
    intro p hp q hq hpq
    by_contra hne
    have h1 := heq p hp
    have h2 := count_two_le Z p q hpq hne
    have h3 := List.count_pos_iff.mpr hq
    omega
  · intro h
    exact (entropy_congr (s := Z) Prod.fst (List.Perm.refl _) (fun a ha b hb hab => Prod.ext hab (h a ha b hb hab))).symm

end
end Verif
