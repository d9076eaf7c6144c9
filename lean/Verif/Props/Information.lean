import Verif.Proofs.Information
/-! # C139: what the extreme values of entropy and mutual information mean (`analysis.py`)

C66 and C67 bound the values; here it is shown which strings reach the bounds. -/

namespace Verif

section
attribute [-instance] instBEqProd
variable {α β : Type} [DecidableEq α] [DecidableEq β]

/-- **C139.** The entropy of a string is as large as its number of symbols allows exactly if all of them occur equally
often. -/
theorem C139_max_entropy (s : List α) :
    shannonEntropy s = Real.logb 2 s.toFinset.card ↔ ∀ a ∈ s, ∀ b ∈ s, s.count a = s.count b := by
  rcases eq_or_ne s [] with rfl | hs
  · simp [shannonEntropy, symbolsOf]
  constructor
  · intro h a ha b hb
    rw [← symbolsOf_toFinset, List.toFinset_card_of_nodup (nodup_symbolsOf s)] at h
    have hk : (0 : ℝ) < (symbolsOf s).length := length_pos_real ((mem_symbolsOf s a).mpr ha)
    have h1 := entropy_max s h a ha
    rw [← entropy_max s h b hb] at h1
    exact_mod_cast mul_right_cancel₀ hk.ne' h1
  · intro h
    obtain ⟨a, ha⟩ := List.exists_mem_of_ne_nil s hs
    exact C66_uniform s hs (s.count a) fun b hb => h b hb a ha

/-- "00011" does not reach one bit. -/
example : shannonEntropy ['0', '0', '0', '1', '1'] ≠ Real.logb 2 (['0', '0', '0', '1', '1'] : List Char).toFinset.card := by
  rw [Ne, C139_max_entropy]; decide

/-- **C139.** The mutual information of strings of equal length is 0 exactly if they are independent: each pair of symbols
has the product of the frequencies as its frequency. -/
theorem C139_independent (X : List α) (Y : List β) (hl : X.length = Y.length) (xs : List α) (ys : List β)
    (hx : Spec.Enumerates xs X) (hy : Spec.Enumerates ys Y) :
    mutualInformation xs ys X Y = .ok 0 ↔ ∀ x y, Spec.jointFreq X Y x y = Spec.freq X x * Spec.freq Y y := by
  have h1 := entropy_additive (X.zip Y)
  rw [map_fst_zip hl, map_snd_zip hl] at h1
  have hz : (X.zip Y).length = X.length := by simp [hl]
  unfold mutualInformation
  rw [jointEntropy_eq hl hx.1 hx.2 hy.1 hy.2]
  simp only [Except.ok.injEq]
  rw [show shannonEntropy X + shannonEntropy Y - shannonEntropy (X.zip Y) = 0 ↔
    shannonEntropy (X.zip Y) = shannonEntropy X + shannonEntropy Y by constructor <;> intro h <;> linarith, h1]
  refine forall_congr' fun x => forall_congr' fun y => ?_
  rw [jointFreq_eq X Y hl, Spec.freq, Spec.freq, Spec.freq, hz, ← hl]
  rcases eq_or_ne X [] with rfl | hX
  · simp
  obtain ⟨a, ha⟩ := List.exists_mem_of_ne_nil X hX
  have hp := length_pos_real ha
  rw [div_mul_div_comm, div_eq_div_iff hp.ne' (by positivity)]
  constructor
  · intro h; rw [← h]; ring
  · intro h
    have : ((X.length : ℝ)) * (X.length * (X.zip Y).count (x, y)) = X.length * (X.count x * Y.count y) := by linarith
    exact mul_left_cancel₀ hp.ne' this

/-- "0011" and "0101" are independent, "0011" and "0111" are not. -/
example : mutualInformation ['0', '1'] ['0', '1'] ['0', '0', '1', '1'] ['0', '1', '0', '1'] = .ok 0 := by
  have he : Spec.Enumerates (['0', '1'] : List Char) ['0', '0', '1', '1'] := ⟨by decide, fun a => by simp⟩
  have he' : Spec.Enumerates (['0', '1'] : List Char) ['0', '1', '0', '1'] := ⟨by decide, fun a => by simp; tauto⟩
  rw [C139_independent _ _ (by rfl) _ _ he he']
  intro x y
  rw [jointFreq_eq _ _ (by rfl)]
  unfold Spec.freq
  by_cases h0 : x = '0'
  · by_cases g0 : y = '0'
    · subst h0 g0
      simp [List.count_cons]; norm_num
    · by_cases g1 : y = '1'
      · subst h0 g1
        simp [List.count_cons]; norm_num
      · have : (['0', '1', '0', '1'] : List Char).count y = 0 := List.count_eq_zero.mpr (by simp [g0, g1])
        rw [this, List.count_eq_zero.mpr (by simp [g0, g1])]; simp
  · by_cases h1 : x = '1'
    · by_cases g0 : y = '0'
      · subst h1 g0
        simp [List.count_cons]; norm_num
      · by_cases g1 : y = '1'
        · subst h1 g1
          simp [List.count_cons]; norm_num
        · have : (['0', '1', '0', '1'] : List Char).count y = 0 := List.count_eq_zero.mpr (by simp [g0, g1])
          rw [this, List.count_eq_zero.mpr (by simp [g0, g1])]; simp
    · have : (['0', '0', '1', '1'] : List Char).count x = 0 := List.count_eq_zero.mpr (by simp [h0, h1])
      rw [this, List.count_eq_zero.mpr (by simp [h0, h1])]; simp

example : mutualInformation ['0', '1'] ['0', '1'] ['0', '0', '1', '1'] ['0', '1', '1', '1'] ≠ .ok 0 := by
  have he : Spec.Enumerates (['0', '1'] : List Char) ['0', '0', '1', '1'] := ⟨by decide, fun a => by simp⟩
  have he' : Spec.Enumerates (['0', '1'] : List Char) ['0', '1', '1', '1'] := ⟨by decide, fun a => by simp⟩
  rw [Ne, C139_independent _ _ (by rfl) _ _ he he']
  intro h
  have := h '0' '0'
  rw [jointFreq_eq _ _ (by rfl)] at this
  unfold Spec.freq at this
  norm_num [List.count_cons] at this

/-- **C139.** The mutual information of strings of equal length is the whole entropy of the second exactly if the first
determines it: where the first has equal symbols, the second has. -/
theorem C139_determined (X : List α) (Y : List β) (hl : X.length = Y.length) (xs : List α) (ys : List β)
    (hx : Spec.Enumerates xs X) (hy : Spec.Enumerates ys Y) :
    mutualInformation xs ys X Y = .ok (shannonEntropy Y) ↔ ∀ i j : Nat, i < X.length → j < X.length → X[i]? = X[j]? → Y[i]? = Y[j]? := by
  have h1 := entropy_fst_eq (X.zip Y)
  rw [map_fst_zip hl] at h1
  unfold mutualInformation
  rw [jointEntropy_eq hl hx.1 hx.2 hy.1 hy.2]
  simp only [Except.ok.injEq]
  rw [show shannonEntropy X + shannonEntropy Y - shannonEntropy (X.zip Y) = shannonEntropy Y ↔
    shannonEntropy (X.zip Y) = shannonEntropy X by constructor <;> intro h <;> linarith, h1]
  constructor
  · intro h i j hi hj hij
    have hi' : i < Y.length := hl ▸ hi
    have hj' : j < Y.length := hl ▸ hj
    rw [List.getElem?_eq_getElem hi, List.getElem?_eq_getElem hj, Option.some.injEq] at hij
    rw [List.getElem?_eq_getElem hi', List.getElem?_eq_getElem hj', Option.some.injEq]
    have hp : ∀ k (hk : k < X.length) (hk' : k < Y.length), (X[k], Y[k]) ∈ X.zip Y := fun k hk hk' => by
      rw [List.mem_iff_getElem]
      exact ⟨k, by simp [hk, hk'], by simp⟩
    exact h _ (hp i hi hi') _ (hp j hj hj') hij
  · intro h p hp q hq hpq
    obtain ⟨i, hi, rfl⟩ := List.mem_iff_getElem.mp hp
    obtain ⟨j, hj, rfl⟩ := List.mem_iff_getElem.mp hq
    have hiX : i < X.length := by simp at hi; omega
    have hjX : j < X.length := by simp at hj; omega
    have hiY : i < Y.length := hl ▸ hiX
    have hjY : j < Y.length := hl ▸ hjX
    simp only [List.getElem_zip] at hpq ⊢
    have := h i j hiX hjX (by rw [List.getElem?_eq_getElem hiX, List.getElem?_eq_getElem hjX, hpq])
    rwa [List.getElem?_eq_getElem hiY, List.getElem?_eq_getElem hjY, Option.some.injEq] at this

/-- "0123" determines "0101". -/
example : mutualInformation ['0', '1', '2', '3'] ['0', '1'] ['0', '1', '2', '3'] ['0', '1', '0', '1']
    = .ok (shannonEntropy ['0', '1', '0', '1']) := by
  have he : Spec.Enumerates (['0', '1', '2', '3'] : List Char) ['0', '1', '2', '3'] := ⟨by decide, fun a => Iff.rfl⟩
  have he' : Spec.Enumerates (['0', '1'] : List Char) ['0', '1', '0', '1'] := ⟨by decide, fun a => by simp; tauto⟩
  rw [C139_determined _ _ (by rfl) _ _ he he']
  intro i j hi hj
  have : ∀ i j : Fin 4, (['0', '1', '2', '3'] : List Char)[i.1]? = (['0', '1', '2', '3'] : List Char)[j.1]? →
    (['0', '1', '0', '1'] : List Char)[i.1]? = (['0', '1', '0', '1'] : List Char)[j.1]? := by decide
  exact this ⟨i, hi⟩ ⟨j, hj⟩

end
end Verif
