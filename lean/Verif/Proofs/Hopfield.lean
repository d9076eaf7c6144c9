import Verif.Model.Hopfield
import Verif.Spec.Hopfield
/-! # Lemmas on Hopfield nets: sums, the training loop, the energy -/

namespace Verif
open Spec

theorem isum_congr {n : Nat} {f g : Nat → Int} (h : ∀ i, i < n → f i = g i) : isum n f = isum n g := by
  induction n with
  | zero => rfl
  | succ n ih =>
    simp only [isum]
    rw [ih (fun i hi => h i (by omega)), h n (by omega)]

theorem isum_add (n : Nat) (f g : Nat → Int) : isum n (fun i => f i + g i) = isum n f + isum n g := by
  induction n with
  | zero => rfl
  | succ n ih => simp only [isum]; rw [ih]; omega

theorem isum_mul (n : Nat) (c : Int) (f : Nat → Int) : isum n (fun i => c * f i) = c * isum n f := by
  induction n with
  | zero => simp [isum]
  | succ n ih => simp only [isum]; rw [ih, Int.mul_add]

theorem isum_zero (n : Nat) : isum n (fun _ => 0) = 0 := by
  induction n with
  | zero => rfl
  | succ n ih => simp only [isum]; rw [ih]; rfl

theorem isum_single {n k : Nat} (hk : k < n) (v : Int) : isum n (fun i => if i = k then v else 0) = v := by
  induction n with
  | zero => omega
  | succ n ih =>
    simp only [isum]
    by_cases h : n = k
    · subst h
      rw [if_pos rfl, isum_congr (g := fun _ => 0) (fun i hi => if_neg (by omega)), isum_zero]; omega
    · rw [if_neg h, ih (by omega)]; omega

theorem isum_range (n : Nat) (f : Nat → Int) : ((List.range n).map f).sum = isum n f := by
  induction n with
  | zero => rfl
  | succ n ih => rw [List.range_succ, List.map_append, List.sum_append, ih]; simp [isum]

/-- The change of the energy when one unit changes. -/
theorem energy_change {n k : Nat} (hk : k < n) {W : Nat → Nat → Int} (hsym : ∀ i j, i < n → j < n → W i j = W j i)
    (hd : W k k = 0) {s s' : Nat → Int} (ho : ∀ i, i < n → i ≠ k → s' i = s i) :
    energy2 n W s' = energy2 n W s - 2 * ((s' k - s k) * field n W s k) := by
  have hs' : ∀ i, i < n → s' i = s i + (if i = k then s' k - s k else 0) := by
    intro i hi
    by_cases h : i = k
    · subst h; simp; omega
    · rw [if_neg h, ho i hi h]; omega
  generalize hδ : s' k - s k = δ at hs'
  have hf : ∀ i, i < n → isum n (fun j => W i j * s' j) = isum n (fun j => W i j * s j) + δ * W i k := by
    intro i hi
    rw [← isum_single hk (δ * W i k), ← isum_add]
    refine isum_congr (fun j hj => ?_)
    rw [hs' j hj]
    by_cases h : j = k
    · subst h; simp; grind
    · simp [h]
  have hrow : ∀ t : Nat → Int, isum n (fun i => isum n (fun j => W i j * t i * t j)) =
      isum n (fun i => t i * isum n (fun j => W i j * t j)) := by
    intro t
    refine isum_congr (fun i _ => ?_)
    rw [← isum_mul]
    refine isum_congr (fun j _ => ?_)
    grind
  have hcol : isum n (fun i => s i * W i k) = field n W s k := by
    unfold field
    refine isum_congr (fun i hi => ?_)
    rw [hsym i k hi hk]; grind
  have key : isum n (fun i => s' i * isum n (fun j => W i j * s' j)) =
      isum n (fun i => s i * isum n (fun j => W i j * s j)) + 2 * (δ * field n W s k) := by
    have h1 : isum n (fun i => s' i * isum n (fun j => W i j * s' j)) =
        isum n (fun i => s i * isum n (fun j => W i j * s j) + (δ * (s i * W i k) +
          (if i = k then δ * field n W s k else 0))) := by
      refine isum_congr (fun i hi => ?_)
      rw [hf i hi, hs' i hi]
      by_cases h : i = k
      · subst h
        simp only [if_true, hd, field]
        grind
      · simp only [if_neg h]; grind
    rw [h1, isum_add, isum_add, isum_mul, hcol, isum_single hk]
    omega
  unfold energy2
  rw [hrow, hrow, key]
  omega

/-- One update does not raise the energy. -/
theorem energy_update {n k : Nat} (hk : k < n) {W : Nat → Nat → Int} (hsym : ∀ i j, i < n → j < n → W i j = W j i)
    (hd : W k k = 0) {s s' : Nat → Int} (hs : s k = 1 ∨ s k = -1)
    (hk' : s' k = if field n W s k ≥ 0 then 1 else -1) (ho : ∀ i, i < n → i ≠ k → s' i = s i) :
    energy2 n W s' ≤ energy2 n W s := by
  rw [energy_change hk hsym hd ho]
  have : 0 ≤ (s' k - s k) * field n W s k := by
    rw [hk']
    by_cases h : field n W s k ≥ 0
    · rw [if_pos h]
      apply Int.mul_nonneg _ h
      rcases hs with h | h <;> omega
    · rw [if_neg h]
      apply Int.mul_nonneg_of_nonpos_of_nonpos _ (by omega)
      rcases hs with h | h <;> omega
  omega

/-! ### Training -/

/-- The matrix with entries `g i j`. -/
def matOf (n : Nat) (g : Nat → Nat → Int) : List (List Int) := (List.range n).map (fun i => (List.range n).map (g i))

theorem matOf_congr {n : Nat} {g h : Nat → Nat → Int} (e : ∀ i j, i < n → j < n → g i j = h i j) : matOf n g = matOf n h := by
  unfold matOf
  refine List.map_congr_left (fun i hi => List.map_congr_left (fun j hj => e i j ?_ ?_))
  · simpa using hi
  · simpa using hj

theorem matOf_zero (n : Nat) : List.replicate n (List.replicate n 0) = matOf n (fun _ _ => 0) := by
  unfold matOf
  rw [List.map_const', List.map_const', List.length_range]

theorem set_range_map {α : Type} (n i : Nat) (f : Nat → α) (v : α) :
    ((List.range n).map f).set i v = (List.range n).map (fun k => if k = i then v else f k) := by
  apply List.ext_getElem?
  intro k
  rw [List.getElem?_set]
  by_cases hk : k < n
  · by_cases h : i = k
    · subst h; simp [hk]
    · have h' : ¬ k = i := fun e => h e.symm
      simp [hk, h, h']
  · by_cases h : i = k
    · subst h; simp [hk]
    · simp [hk, h]

theorem matModify_matOf (n : Nat) (g : Nat → Nat → Int) (i j : Nat) (f : Int → Int) :
    matModify (matOf n g) i j f =
      if i < n ∧ j < n then .ok (matOf n (fun a b => if a = i ∧ b = j then f (g a b) else g a b)) else .error .indexError := by
  unfold matModify
  by_cases hi : i < n
  · have h1 : (matOf n g)[i]? = some ((List.range n).map (g i)) := by simp [matOf, hi]
    rw [h1]
    by_cases hj : j < n
    · have h2 : ((List.range n).map (g i))[j]? = some (g i j) := by simp [hj]
      simp only [h2]
      rw [if_pos ⟨hi, hj⟩]
      congr 1
      unfold matOf
      rw [set_range_map, set_range_map]
      refine List.map_congr_left (fun a _ => ?_)
      by_cases ha : a = i
      · subst ha
        rw [if_pos rfl]
        refine List.map_congr_left (fun b _ => ?_)
        by_cases hb : b = j
        · subst hb; simp
        · simp [hb]
      · rw [if_neg ha]
        refine List.map_congr_left (fun b _ => ?_)
        simp [ha]
    · simp [hj]
  · have h1 : (matOf n g)[i]? = none := by simp [matOf, hi]
    rw [h1]; simp [hi]

theorem hebbCell_matOf {n : Nat} {p : List Int} (hp : p.length ≤ n) (g : Nat → Nat → Int) {i j : Nat} (hi : i < p.length)
    (hj : j < p.length) : hebbCell p i (matOf n g) j =
      .ok (matOf n (fun a b => if a = i ∧ b = j then (if a = b then 0 else g a b + prodAt p a b) else g a b)) := by
  unfold hebbCell
  simp only [List.getElem?_eq_getElem hi, List.getElem?_eq_getElem hj]
  rw [matModify_matOf, if_pos ⟨by omega, by omega⟩]
  congr 1
  refine matOf_congr (fun a b _ _ => ?_)
  by_cases h : a = i ∧ b = j
  · obtain ⟨rfl, rfl⟩ := h
    simp [prodAt, hi, hj]
  · rw [if_neg h, if_neg h]

theorem hebbRow_matOf {n : Nat} {p : List Int} (hp : p.length ≤ n) (g : Nat → Nat → Int) {i : Nat} (hi : i < p.length)
    (m : Nat) (hm : m ≤ p.length) : (List.range m).foldlM (hebbCell p i) (matOf n g) =
      .ok (matOf n (fun a b => if a = i ∧ b < m then (if a = b then 0 else g a b + prodAt p a b) else g a b)) := by
  induction m with
  | zero => simp [pure, Except.pure]
  | succ m ih =>
    rw [List.range_succ, List.foldlM_append, ih (by omega)]
    simp only [bind, Except.bind, List.foldlM_cons, List.foldlM_nil]
    rw [hebbCell_matOf hp _ hi (by omega)]
    simp only [pure, Except.pure]
    congr 1
    refine matOf_congr (fun a b _ _ => ?_)
    by_cases ha : a = i
    · subst ha
      by_cases hb : b = m
      · subst hb; simp
      · by_cases hb' : b < m
        · simp [hb', hb, Nat.lt_succ_of_lt hb']
        · simp [hb', hb, show ¬ b < m + 1 by omega]
    · simp [ha]

theorem hebbPattern_matOf {n : Nat} {p : List Int} (hp : p.length ≤ n) (g : Nat → Nat → Int) :
    hebbPattern (matOf n g) p =
      .ok (matOf n (fun a b => if a < p.length ∧ b < p.length then (if a = b then 0 else g a b + prodAt p a b) else g a b)) := by
  unfold hebbPattern
  have : ∀ m, m ≤ p.length → (List.range m).foldlM (fun M i => (List.range p.length).foldlM (hebbCell p i) M) (matOf n g) =
      .ok (matOf n (fun a b => if a < m ∧ b < p.length then (if a = b then 0 else g a b + prodAt p a b) else g a b)) := by
    intro m hm
    induction m with
    | zero => simp [pure, Except.pure]
    | succ m ih =>
      rw [List.range_succ, List.foldlM_append, ih (by omega)]
      simp only [bind, Except.bind, List.foldlM_cons, List.foldlM_nil]
      rw [hebbRow_matOf hp _ (by omega) _ (Nat.le_refl _)]
      simp only [pure, Except.pure]
      congr 1
      refine matOf_congr (fun a b _ _ => ?_)
      by_cases hb : b < p.length
      · by_cases ha : a = m
        · subst ha; simp [hb]
        · by_cases ha' : a < m
          · simp [ha, ha', hb, Nat.lt_succ_of_lt ha']
          · simp [ha, hb, show ¬ a < m by omega, show ¬ a < m + 1 by omega]
      · simp [hb]
  exact this _ (Nat.le_refl _)

theorem prodAt_zero {p : List Int} {i j : Nat} (h : ¬ (i < p.length ∧ j < p.length)) : prodAt p i j = 0 := by
  unfold prodAt
  by_cases hi : i < p.length
  · have hj : p[j]? = none := by simp; omega
    rw [hj]; cases p[i]? <;> rfl
  · have hi : p[i]? = none := by simp; omega
    rw [hi]

/-- A pattern that is longer than the first one raises. -/
theorem hebbPattern_long {n : Nat} {p : List Int} (hp : n < p.length) (g : Nat → Nat → Int) :
    hebbPattern (matOf n g) p = .error .indexError := by
  -- the very first row already runs out of columns
  have row : ∀ m, m ≤ n → 0 < p.length → n ≠ 0 → (List.range m).foldlM (hebbCell p 0) (matOf n g) =
      .ok (matOf n (fun a b => if a = 0 ∧ b < m then (if a = b then 0 else g a b + prodAt p a b) else g a b)) := by
    intro m hm h0 hn
    induction m with
    | zero => simp [pure, Except.pure]
    | succ m ih =>
      rw [List.range_succ, List.foldlM_append, ih (by omega)]
      simp only [bind, Except.bind, List.foldlM_cons, List.foldlM_nil]
      unfold hebbCell
      simp only [List.getElem?_eq_getElem (show 0 < p.length by omega), List.getElem?_eq_getElem (show m < p.length by omega)]
      rw [matModify_matOf, if_pos ⟨by omega, by omega⟩]
      simp only [pure, Except.pure]
      congr 1
      refine matOf_congr (fun a b _ _ => ?_)
      by_cases ha : a = 0
      · subst ha
        by_cases hb : b = m
        · subst hb
          simp [prodAt, show 0 < p.length by omega, show b < p.length by omega]
        · by_cases hb' : b < m
          · simp [hb', hb, Nat.lt_succ_of_lt hb']
          · simp [hb', hb, show ¬ b < m + 1 by omega]
      · simp [ha]
  unfold hebbPattern
  obtain ⟨k, hk⟩ : ∃ k, p.length = k + 1 := ⟨p.length - 1, by omega⟩
  have hr : List.range p.length = 0 :: (List.range k).map Nat.succ := by rw [hk, List.range_succ_eq_map]
  have hfold : ∀ (F : List (List Int) → Nat → Except Err (List (List Int))) M, F M 0 = .error .indexError →
      (List.range p.length).foldlM F M = .error .indexError := by
    intro F M h
    rw [hr, List.foldlM_cons, h]; rfl
  refine hfold _ _ ?_
  by_cases hn : n = 0
  · subst hn
    refine hfold _ _ ?_
    unfold hebbCell
    simp only [List.getElem?_eq_getElem (show 0 < p.length by omega)]
    rw [matModify_matOf, if_neg (by omega)]
  · obtain ⟨q, hq⟩ : ∃ q, List.range p.length = List.range n ++ n :: q := by
      have : p.length = n + ((p.length - n - 1) + 1) := by omega
      rw [this, List.range_add, List.range_succ_eq_map]
      exact ⟨_, by simp; rfl⟩
    rw [hq, List.foldlM_append, row n (Nat.le_refl _) (by omega) hn]
    simp only [bind, Except.bind, List.foldlM_cons]
    have : ∀ h : Nat → Nat → Int, hebbCell p 0 (matOf n h) n = .error .indexError := by
      intro h
      unfold hebbCell
      simp only [List.getElem?_eq_getElem (show 0 < p.length by omega), List.getElem?_eq_getElem (show n < p.length by omega)]
      rw [matModify_matOf, if_neg (by omega)]
    rw [this]

theorem hebb_fold {n : Nat} (P : List (List Int)) (hP : ∀ p ∈ P, p.length ≤ n) (g : Nat → Nat → Int)
    (hg : ∀ i, g i i = 0) :
    P.foldlM hebbPattern (matOf n g) = .ok (matOf n (fun i j => g i j + Spec.hebb P i j)) := by
  induction P generalizing g with
  | nil =>
    simp only [List.foldlM_nil, pure, Except.pure]
    congr 1
    refine matOf_congr (fun i j _ _ => ?_)
    simp [Spec.hebb]
  | cons p P ih =>
    simp only [List.foldlM_cons, bind, Except.bind]
    rw [hebbPattern_matOf (hP p (by simp))]
    simp only
    rw [ih (fun q hq => hP q (by simp [hq])) _ (by intro i; simp [hg])]
    congr 1
    refine matOf_congr (fun i j _ _ => ?_)
    by_cases hij : i = j
    · subst hij; simp [Spec.hebb, hg]
    · simp only [hij, if_false, Spec.hebb, List.map_cons, List.sum_cons]
      by_cases h : i < p.length ∧ j < p.length
      · rw [if_pos h]; omega
      · rw [if_neg h, prodAt_zero h]; omega

theorem hebb_fold_error {n : Nat} (P : List (List Int)) (hP : ∃ p ∈ P, n < p.length) (g : Nat → Nat → Int) :
    P.foldlM hebbPattern (matOf n g) = .error .indexError := by
  induction P generalizing g with
  | nil => obtain ⟨p, hp, _⟩ := hP; cases hp
  | cons p P ih =>
    simp only [List.foldlM_cons, bind, Except.bind]
    by_cases h : n < p.length
    · rw [hebbPattern_long h]
    · rw [hebbPattern_matOf (by omega)]
      simp only
      refine ih ?_ _
      obtain ⟨q, hq, hl⟩ := hP
      rcases List.mem_cons.1 hq with rfl | hq
      · omega
      · exact ⟨q, hq, hl⟩

end Verif
