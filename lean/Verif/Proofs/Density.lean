import Verif.Spec.Density
/-! # No local rule classifies densities (lemmas for C121) -/

namespace Verif
open Spec

theorem length_le_of_nodup_subset {α : Type} [DecidableEq α] : ∀ {l m : List α}, l.Nodup → (∀ x ∈ l, x ∈ m) →
    l.length ≤ m.length
  | [], _, _, _ => Nat.zero_le _
  | a :: l, m, hl, h => by
      have h1 : a ∈ m := h a List.mem_cons_self
      have h2 : l.length ≤ (m.erase a).length := by
        refine length_le_of_nodup_subset (List.nodup_cons.1 hl).2 ?_
        intro x hx
        have hne : x ≠ a := fun e => (List.nodup_cons.1 hl).1 (e ▸ hx)
        exact (List.mem_erase_of_ne hne).2 (h x (List.mem_cons_of_mem _ hx))
      rw [List.length_erase_of_mem h1] at h2
      have := List.length_pos_of_mem h1
      simp only [List.length_cons]
      omega

theorem onesCount_ge {n : Nat} {s : Nat → Nat} {l : List Nat} (hl : l.Nodup) (h : ∀ x ∈ l, x < n ∧ s x = 1) :
    l.length ≤ onesCount n s := by
  unfold onesCount
  rw [List.countP_eq_length_filter]
  refine length_le_of_nodup_subset hl ?_
  intro x hx
  rw [List.mem_filter, List.mem_range]
  exact ⟨(h x hx).1, by simp [(h x hx).2]⟩

theorem onesCount_le {n : Nat} {s : Nat → Nat} {l : List Nat} (h : ∀ x, x < n → s x = 1 → x ∈ l) :
    onesCount n s ≤ l.length := by
  unfold onesCount
  rw [List.countP_eq_length_filter]
  refine length_le_of_nodup_subset (List.nodup_range.filter _) ?_
  intro x hx
  rw [List.mem_filter, List.mem_range] at hx
  exact h x hx.1 (by simpa using hx.2)

theorem onesCount_congr {n : Nat} {s s' : Nat → Nat} (h : ∀ x, x < n → s x = s' x) : onesCount n s = onesCount n s' := by
  unfold onesCount
  refine List.countP_congr ?_
  intro x hx
  rw [h x (List.mem_range.1 hx)]

theorem ringWindow_congr {n r : Nat} {s s' : Nat → Nat} (hn : 0 < n) (h : ∀ x, x < n → s x = s' x) (x : Nat) :
    ringWindow n r s x = ringWindow n r s' x := by
  unfold ringWindow
  refine List.map_congr_left ?_
  intro k _
  exact h _ (Nat.mod_lt _ hn)

theorem localCA_congr {n r : Nat} {f : List Nat → Nat} {s s' : Nat → Nat} (hn : 0 < n) (h : ∀ x, x < n → s x = s' x) :
    ∀ t x, x < n → localCA n r f s t x = localCA n r f s' t x := by
  intro t
  induction t with
  | zero => exact h
  | succ t ih =>
    intro x _
    show f _ = f _
    rw [ringWindow_congr hn ih]

theorem localCA_shift (n r : Nat) (f : List Nat → Nat) (s : Nat → Nat) :
    ∀ t, localCA n r f (localStep n r f s) t = localCA n r f s (t + 1) := by
  intro t
  induction t with
  | zero => rfl
  | succ t ih => show localStep n r f _ = localStep n r f _; rw [ih]

theorem map_const {α : Type} (k : Nat) (g : Nat → α) (a : α) (h : ∀ i, i < k → g i = a) :
    (List.range k).map g = List.replicate k a := by
  rw [← List.length_range (n := k), ← List.map_const', List.length_range]
  exact List.map_congr_left (fun i hi => h i (List.mem_range.1 hi))

/-- Where the window does not go round the ring. -/
theorem ringWindow_inner {n r : Nat} (s : Nat → Nat) {x : Nat} (h1 : r ≤ x) (h2 : x + r < n) :
    ringWindow n r s x = (List.range (2 * r + 1)).map (fun k => s (x - r + k)) := by
  unfold ringWindow
  refine List.map_congr_left ?_
  intro k hk
  have hk := List.mem_range.1 hk
  have : (x + n - r + k) % n = x - r + k := by
    have e : x + n - r + k = (x - r + k) + n := by omega
    rw [e, Nat.add_mod_right, Nat.mod_eq_of_lt (by omega)]
  rw [this]

/-- The window with a single 1, at position `j`. -/
def oneAt (r j : Nat) : List Nat := (List.range (2 * r + 1)).map (fun k => if k = j then 1 else 0)

/-! ## The row with a block and single ones -/

/-- `L` ones, then from `L + 2r` on `K` single ones, `2r + 1` cells apart. -/
def blockRow (r L K : Nat) (x : Nat) : Nat :=
  if x < L ∨ (L + 2 * r ≤ x ∧ (x - (L + 2 * r)) % (2 * r + 1) = 0 ∧ (x - (L + 2 * r)) / (2 * r + 1) < K) then 1 else 0

theorem blockRow_one {r L K x : Nat} : blockRow r L K x = 1 ↔ x < L ∨ ∃ i, i < K ∧ x = L + 2 * r + (2 * r + 1) * i := by
  unfold blockRow
  constructor
  · intro h
    split at h
    · rename_i h'
      rcases h' with h' | ⟨h1, h2, h3⟩
      · exact .inl h'
      · refine .inr ⟨_, h3, ?_⟩
        have := Nat.div_add_mod (x - (L + 2 * r)) (2 * r + 1)
        omega
    · cases h
  · intro h
    rw [if_pos]
    rcases h with h | ⟨i, h1, h2⟩
    · exact .inl h
    · have e : x - (L + 2 * r) = (2 * r + 1) * i := by omega
      refine .inr ⟨by omega, ?_, ?_⟩
      · rw [e, Nat.mul_mod_right]
      · rw [e, Nat.mul_div_cancel_left _ (by omega)]; exact h1

theorem blockRow_lt (r L K x : Nat) : blockRow r L K x < 2 := by
  unfold blockRow; split <;> omega

theorem blockRow_zero {r L K x : Nat} : blockRow r L K x = 0 ↔ ¬ (x < L ∨ ∃ i, i < K ∧ x = L + 2 * r + (2 * r + 1) * i) := by
  rw [← blockRow_one]
  have := blockRow_lt r L K x
  omega

theorem mul_step {w i j : Nat} (h : i < j) : w * i + w ≤ w * j := by
  have := Nat.mul_le_mul_left w (show i + 1 ≤ j from h)
  rw [Nat.mul_add, Nat.mul_one] at this
  exact this

theorem blockRow_ones {r L K n : Nat} (hn : L + 2 * r + (2 * r + 1) * K ≤ n) (hL : L ≤ n) :
    onesCount n (blockRow r L K) = L + K := by
  have hlen : (List.range L ++ (List.range K).map (fun i => L + 2 * r + (2 * r + 1) * i)).length = L + K := by simp
  refine Nat.le_antisymm ?_ ?_
  · refine Nat.le_trans (onesCount_le (l := List.range L ++ (List.range K).map (fun i => L + 2 * r + (2 * r + 1) * i)) ?_) (Nat.le_of_eq hlen)
    intro x _ h
    rcases blockRow_one.1 h with h | ⟨i, h1, h2⟩
    · exact List.mem_append_left _ (List.mem_range.2 h)
    · exact List.mem_append_right _ (List.mem_map.2 ⟨i, List.mem_range.2 h1, h2.symm⟩)
  · refine Nat.le_trans (Nat.le_of_eq hlen.symm) (onesCount_ge ?_ ?_)
    · refine List.nodup_append.2 ⟨List.nodup_range, ?_, ?_⟩
      · rw [List.nodup_iff_pairwise_ne, List.pairwise_map]
        refine List.nodup_range.imp ?_
        intro a b hab e
        exact hab (Nat.eq_of_mul_eq_mul_left (show 0 < 2 * r + 1 by omega) (by omega))
      · intro a ha b hb
        obtain ⟨i, _, rfl⟩ := List.mem_map.1 hb
        have := List.mem_range.1 ha
        omega
    · intro x hx
      rcases List.mem_append.1 hx with hx | hx
      · have := List.mem_range.1 hx
        exact ⟨by omega, blockRow_one.2 (.inl this)⟩
      · obtain ⟨i, hi, rfl⟩ := List.mem_map.1 hx
        have hi := List.mem_range.1 hi
        have := mul_step (w := 2 * r + 1) hi
        exact ⟨by omega, blockRow_one.2 (.inr ⟨i, hi, rfl⟩)⟩

/-- Beyond the block a window has at most one 1. -/
theorem blockRow_window {r L K n x : Nat} (h1 : L + r ≤ x) (h2 : x + r < n) :
    ringWindow n r (blockRow r L K) x = List.replicate (2 * r + 1) 0 ∨
    ∃ j, j < 2 * r + 1 ∧ ringWindow n r (blockRow r L K) x = oneAt r j := by
  rw [ringWindow_inner _ (by omega) h2]
  by_cases hex : ∃ j, j < 2 * r + 1 ∧ blockRow r L K (x - r + j) = 1
  · right
    obtain ⟨j, hj, he⟩ := hex
    refine ⟨j, hj, ?_⟩
    refine List.map_congr_left ?_
    intro k hk
    have hk := List.mem_range.1 hk
    by_cases hkj : k = j
    · subst hkj; rw [he, if_pos rfl]
    · rw [if_neg hkj, blockRow_zero]
      intro hc
      rcases hc with hc | ⟨i', _, hc⟩
      · omega
      · rcases blockRow_one.1 he with he | ⟨i, _, he⟩
        · omega
        · rcases Nat.lt_trichotomy i i' with hi | hi | hi
          · have := mul_step (w := 2 * r + 1) hi; omega
          · subst hi; omega
          · have := mul_step (w := 2 * r + 1) hi; omega
  · left
    refine map_const _ _ _ ?_
    intro i hi
    have := blockRow_lt r L K (x - r + i)
    have h3 : ¬ blockRow r L K (x - r + i) = 1 := fun h => hex ⟨i, hi, h⟩
    omega

theorem blockRow_hit {r L K n i j : Nat} (hi : i < K) (hj : j < 2 * r + 1)
    (hn : L + 2 * r + (2 * r + 1) * K + 2 * r ≤ n) :
    ringWindow n r (blockRow r L K) (L + 3 * r + (2 * r + 1) * i - j) = oneAt r j := by
  have hm := mul_step (w := 2 * r + 1) hi
  rw [ringWindow_inner _ (by omega) (by omega)]
  refine List.map_congr_left ?_
  intro k hk
  have hk := List.mem_range.1 hk
  by_cases hkj : k = j
  · subst hkj
    rw [if_pos rfl, blockRow_one]
    exact .inr ⟨i, hi, by omega⟩
  · rw [if_neg hkj, blockRow_zero]
    intro hc
    rcases hc with hc | ⟨i', _, hc⟩
    · omega
    · rcases Nat.lt_trichotomy i i' with hi | hi | hi
      · have := mul_step (w := 2 * r + 1) hi; omega
      · subst hi; omega
      · have := mul_step (w := 2 * r + 1) hi; omega

theorem blockRow_full {r L K n x : Nat} (h1 : r ≤ x) (h2 : x + r < L) (hn : L ≤ n) :
    ringWindow n r (blockRow r L K) x = List.replicate (2 * r + 1) 1 := by
  rw [ringWindow_inner _ h1 (by omega)]
  refine map_const _ _ _ ?_
  intro i hi
  exact blockRow_one.2 (.inl (by omega))

/-! ## A single 1 -/

theorem mod_shift {n x a q : Nat} (hx : x < n) (ha : a < n) (hq : q < n) : (x + a) % n = q ↔ x = (q + n - a) % n := by
  have e1 : (x + a) % n = if x + a < n then x + a else x + a - n := by
    split
    · exact Nat.mod_eq_of_lt ‹_›
    · rw [Nat.mod_eq_sub_mod (by omega), Nat.mod_eq_of_lt (by omega)]
  have e2 : (q + n - a) % n = if q < a then q + n - a else q - a := by
    split
    · exact Nat.mod_eq_of_lt (by omega)
    · rw [Nat.mod_eq_sub_mod (by omega), Nat.mod_eq_of_lt (by omega)]; omega
  rw [e1, e2]
  split <;> split <;> omega

/-- If exactly one window with a single 1 goes to 1, a row with a single 1 stays such a row. -/
theorem single_step {n r : Nat} {f : List Nat → Nat} {j0 : Nat} (hn : 2 * r + 1 ≤ n) (hf : ∀ l, f l < 2)
    (h0 : f (List.replicate (2 * r + 1) 0) = 0) (hj : j0 < 2 * r + 1) (h1 : f (oneAt r j0) = 1)
    (hu : ∀ j, j < 2 * r + 1 → f (oneAt r j) = 1 → j = j0) {q : Nat} (hq : q < n) :
    ∃ q', q' < n ∧ ∀ x, x < n → localStep n r f (fun x => if x = q then 1 else 0) x = if x = q' then 1 else 0 := by
  have key : ∀ x k, x < n → ((x + n - r + k) % n = q ↔ x = (q + n - (n - r + k) % n) % n) := by
    intro x k hx
    rw [← mod_shift hx (Nat.mod_lt _ (by omega)) hq, Nat.add_mod_mod]
    have : x + n - r + k = x + (n - r + k) := by omega
    rw [this]
  have uniq : ∀ x k k', x < n → k < 2 * r + 1 → k' < 2 * r + 1 → (x + n - r + k) % n = q → (x + n - r + k') % n = q → k = k' := by
    intro x k k' hx hk hk' e1 e2
    have d1 := Nat.div_add_mod (x + n - r + k) n
    have d2 := Nat.div_add_mod (x + n - r + k') n
    rw [e1] at d1; rw [e2] at d2
    generalize (x + n - r + k) / n = u at d1
    generalize (x + n - r + k') / n = v at d2
    rcases Nat.lt_trichotomy u v with h | h | h
    · have := mul_step (w := n) h; omega
    · subst h; omega
    · have := mul_step (w := n) h; omega
  refine ⟨(q + n - (n - r + j0) % n) % n, Nat.mod_lt _ (by omega), ?_⟩
  intro x hx
  show f (ringWindow n r _ x) = _
  by_cases hex : ∃ k, k < 2 * r + 1 ∧ (x + n - r + k) % n = q
  · obtain ⟨k, hk, e⟩ := hex
    have hw : ringWindow n r (fun x => if x = q then 1 else 0) x = oneAt r k := by
      refine List.map_congr_left ?_
      intro i hi
      have hi := List.mem_range.1 hi
      show (if (x + n - r + i) % n = q then 1 else 0) = _
      by_cases hik : i = k
      · subst hik; rw [if_pos e, if_pos rfl]
      · rw [if_neg hik, if_neg (fun h => hik (uniq x i k hx hi hk h e))]
    rw [hw]
    by_cases hkj : k = j0
    · subst hkj
      rw [h1, if_pos ((key x k hx).1 e)]
    · have h2 := hf (oneAt r k)
      have h3 : f (oneAt r k) ≠ 1 := fun h => hkj (hu k hk h)
      rw [if_neg (fun h => hkj (uniq x k j0 hx hk hj e ((key x j0 hx).2 h)))]
      omega
  · have hw : ringWindow n r (fun x => if x = q then 1 else 0) x = List.replicate (2 * r + 1) 0 := by
      refine map_const _ _ _ ?_
      intro i hi
      show (if (x + n - r + i) % n = q then 1 else 0) = _
      rw [if_neg (fun h => hex ⟨i, hi, h⟩)]
    rw [hw, h0, if_neg (fun h => hex ⟨j0, hj, (key x j0 hx).2 h⟩)]

/-! ## The impossibility -/

/-- No radius and no local rule classify the densities of all odd rings. -/
theorem no_density_rule (r : Nat) (f : List Nat → Nat) (hf : ∀ l, f l < 2) :
    ∃ n s, 3 ≤ n ∧ 2 * r + 1 ≤ n ∧ n % 2 = 1 ∧ (∀ x, s x < 2) ∧ ¬ SettlesOn n r f s (majorityOf n s) := by
  apply Classical.byContradiction
  intro hno
  have H : ∀ n s, 3 ≤ n → 2 * r + 1 ≤ n → n % 2 = 1 → (∀ x, s x < 2) → SettlesOn n r f s (majorityOf n s) := by
    intro n s a b c d
    apply Classical.byContradiction
    intro h
    exact hno ⟨n, s, a, b, c, d, h⟩
  have hmaj : ∀ n s, 3 ≤ n → 2 * r + 1 ≤ n → n % 2 = 1 → (∀ x, s x < 2) →
      majorityOf n (localStep n r f s) = majorityOf n s := by
    intro n s a b c d
    obtain ⟨t1, h1⟩ := H n s a b c d
    obtain ⟨t2, h2⟩ := H n (localStep n r f s) a b c (fun x => hf _)
    have e1 := h1 (t1 + t2 + 1) (by omega) 0 (by omega)
    have e2 := h2 (t1 + t2) (by omega) 0 (by omega)
    rw [localCA_shift] at e2
    rw [← e1, ← e2]
  have hz : f (List.replicate (2 * r + 1) 0) = 0 := by
    obtain ⟨t0, h⟩ := H (2 * r + 3) (fun _ => 0) (by omega) (by omega) (by omega) (by intro x; show 0 < 2; omega)
    have hm : majorityOf (2 * r + 3) (fun _ => 0) = 0 := by
      have : onesCount (2 * r + 3) (fun _ => 0) = 0 := Nat.le_zero.1 (onesCount_le (l := []) (by intro x _ h; cases h))
      rw [majorityOf, this, if_neg (by omega)]
    rw [hm] at h
    have e := h (t0 + 1) (by omega) 0 (by omega)
    have : ringWindow (2 * r + 3) r (localCA (2 * r + 3) r f (fun _ => 0) t0) 0 = List.replicate (2 * r + 1) 0 := by
      refine map_const _ _ _ ?_
      intro i _
      exact h t0 (Nat.le_refl _) _ (Nat.mod_lt _ (by omega))
    rw [← this]; exact e
  have ho : f (List.replicate (2 * r + 1) 1) = 1 := by
    obtain ⟨t0, h⟩ := H (2 * r + 3) (fun _ => 1) (by omega) (by omega) (by omega) (by intro x; show 1 < 2; omega)
    have hm : majorityOf (2 * r + 3) (fun _ => 1) = 1 := by
      have : (List.range (2 * r + 3)).length ≤ onesCount (2 * r + 3) (fun _ => 1) :=
        onesCount_ge List.nodup_range (by intro x h; exact ⟨List.mem_range.1 h, rfl⟩)
      rw [List.length_range] at this
      rw [majorityOf, if_pos (by omega)]
    rw [hm] at h
    have e := h (t0 + 1) (by omega) 0 (by omega)
    have : ringWindow (2 * r + 3) r (localCA (2 * r + 3) r f (fun _ => 1) t0) 0 = List.replicate (2 * r + 1) 1 := by
      refine map_const _ _ _ ?_
      intro i _
      exact h t0 (Nat.le_refl _) _ (Nat.mod_lt _ (by omega))
    rw [← this]; exact e
  -- the sizes used below
  have hsize : ∃ L K, K = 2 * r + 1 ∧ (2 * r + 1) * K + 4 * r + 2 ≤ L := ⟨_, 2 * r + 1, rfl, Nat.le_refl _⟩
  obtain ⟨L, K, hK, hL⟩ := hsize
  by_cases ha : ∃ j, j < 2 * r + 1 ∧ f (oneAt r j) = 1
  · obtain ⟨j0, hj0, e0⟩ := ha
    by_cases hb : ∃ j, j < 2 * r + 1 ∧ f (oneAt r j) = 1 ∧ j ≠ j0
    · -- two windows with a single 1 go to 1: the number of ones grows too much
      obtain ⟨j1, hj1, e1, hne⟩ := hb
      have hn : L + 2 * r + (2 * r + 1) * K + 2 * r ≤ 2 * (L + K) + 1 := by omega
      have h := hmaj (2 * (L + K) + 1) (blockRow r L K) (by omega) (by omega) (by omega) (blockRow_lt r L K)
      have hold : majorityOf (2 * (L + K) + 1) (blockRow r L K) = 0 := by
        rw [majorityOf, blockRow_ones (by omega) (by omega), if_neg (by omega)]
      have hnew : L - 2 * r + 2 * K ≤ onesCount (2 * (L + K) + 1) (localStep (2 * (L + K) + 1) r f (blockRow r L K)) := by
        have hlen : (List.range' r (L - 2 * r) ++ ((List.range K).map (fun i => L + 3 * r + (2 * r + 1) * i - j0) ++
            (List.range K).map (fun i => L + 3 * r + (2 * r + 1) * i - j1))).length = L - 2 * r + 2 * K := by
          simp; omega
        have hmapnd : ∀ j, j < 2 * r + 1 → ((List.range K).map (fun i => L + 3 * r + (2 * r + 1) * i - j)).Nodup := by
          intro j hj
          rw [List.nodup_iff_pairwise_ne, List.pairwise_map]
          refine List.nodup_range.imp ?_
          intro a b hab e
          exact hab (Nat.eq_of_mul_eq_mul_left (show 0 < 2 * r + 1 by omega) (by omega))
        rw [← hlen]
        refine onesCount_ge ?_ ?_
        · refine List.nodup_append.2 ⟨List.nodup_range', List.nodup_append.2 ⟨hmapnd j0 hj0, hmapnd j1 hj1, ?_⟩, ?_⟩
          · intro a ha b hb e
            obtain ⟨i, _, rfl⟩ := List.mem_map.1 ha
            obtain ⟨i', _, rfl⟩ := List.mem_map.1 hb
            rcases Nat.lt_trichotomy i i' with hi | hi | hi
            · have := mul_step (w := 2 * r + 1) hi; omega
            · subst hi; omega
            · have := mul_step (w := 2 * r + 1) hi; omega
          · intro a ha b hb
            have ha := List.mem_range'_1.1 ha
            rcases List.mem_append.1 hb with hb | hb
            · obtain ⟨i', _, rfl⟩ := List.mem_map.1 hb; omega
            · obtain ⟨i', _, rfl⟩ := List.mem_map.1 hb; omega
        · intro x hx
          rcases List.mem_append.1 hx with hx | hx
          · have hx := List.mem_range'_1.1 hx
            refine ⟨by omega, ?_⟩
            show f (ringWindow _ r _ x) = 1
            rw [blockRow_full (by omega) (by omega) (by omega), ho]
          · rcases List.mem_append.1 hx with hx | hx
            · obtain ⟨i, hi, rfl⟩ := List.mem_map.1 hx
              have hi := List.mem_range.1 hi
              have := mul_step (w := 2 * r + 1) hi
              refine ⟨by omega, ?_⟩
              show f (ringWindow _ r _ _) = 1
              rw [blockRow_hit hi hj0 hn, e0]
            · obtain ⟨i, hi, rfl⟩ := List.mem_map.1 hx
              have hi := List.mem_range.1 hi
              have := mul_step (w := 2 * r + 1) hi
              refine ⟨by omega, ?_⟩
              show f (ringWindow _ r _ _) = 1
              rw [blockRow_hit hi hj1 hn, e1]
      rw [hold, majorityOf, if_pos (by omega)] at h
      cases h
    · -- exactly one goes to 1: a single 1 lives for ever
      have hu : ∀ j, j < 2 * r + 1 → f (oneAt r j) = 1 → j = j0 := by
        intro j hj he
        apply Classical.byContradiction
        intro hne
        exact hb ⟨j, hj, he, hne⟩
      obtain ⟨t0, h⟩ := H (2 * r + 3) (fun x => if x = 0 then 1 else 0) (by omega) (by omega) (by omega)
        (by intro x; show (if x = 0 then 1 else 0) < 2; split <;> omega)
      have hm : majorityOf (2 * r + 3) (fun x => if x = 0 then 1 else 0) = 0 := by
        have : onesCount (2 * r + 3) (fun x => if x = 0 then 1 else 0) ≤ [0].length := by
          refine onesCount_le ?_
          intro x _ hx
          split at hx
          · subst x; exact List.mem_cons_self
          · cases hx
        simp only [List.length_cons, List.length_nil] at this
        rw [majorityOf, if_neg (by omega)]
      rw [hm] at h
      have hall : ∀ t, ∃ q, q < 2 * r + 3 ∧ ∀ x, x < 2 * r + 3 →
          localCA (2 * r + 3) r f (fun x => if x = 0 then 1 else 0) t x = if x = q then 1 else 0 := by
        intro t
        induction t with
        | zero => exact ⟨0, by omega, fun x _ => rfl⟩
        | succ t ih =>
          obtain ⟨q, hq, e⟩ := ih
          obtain ⟨q', hq', e'⟩ := single_step (n := 2 * r + 3) (by omega) hf hz hj0 e0 hu hq
          refine ⟨q', hq', ?_⟩
          intro x hx
          rw [← e' x hx]
          show f _ = f _
          rw [ringWindow_congr (by omega) e]
      obtain ⟨q, hq, e⟩ := hall t0
      have e1 := e q hq
      rw [h t0 (Nat.le_refl _) q hq, if_pos rfl] at e1
      cases e1
  · -- no window with a single 1 goes to 1: the number of ones shrinks too much
    have hn : L + 2 * r + (2 * r + 1) * K + 2 * r ≤ 2 * (L + K) - 1 := by omega
    have h := hmaj (2 * (L + K) - 1) (blockRow r L K) (by omega) (by omega) (by omega) (blockRow_lt r L K)
    have hold : majorityOf (2 * (L + K) - 1) (blockRow r L K) = 1 := by
      rw [majorityOf, blockRow_ones (by omega) (by omega), if_pos (by omega)]
    have hnew : onesCount (2 * (L + K) - 1) (localStep (2 * (L + K) - 1) r f (blockRow r L K)) ≤ L + 2 * r := by
      have hlen : (List.range (L + r) ++ List.range' (2 * (L + K) - 1 - r) r).length = L + 2 * r := by
        simp; omega
      rw [← hlen]
      refine onesCount_le ?_
      intro x hx he
      by_cases h1 : x < L + r
      · exact List.mem_append_left _ (List.mem_range.2 h1)
      · by_cases h2 : x + r < 2 * (L + K) - 1
        · exfalso
          have he : f (ringWindow (2 * (L + K) - 1) r (blockRow r L K) x) = 1 := he
          rcases blockRow_window (K := K) (by omega : L + r ≤ x) h2 with hw | ⟨j, hj, hw⟩
          · rw [hw, hz] at he; cases he
          · rw [hw] at he; exact ha ⟨j, hj, he⟩
        · exact List.mem_append_right _ (List.mem_range'_1.2 (by omega))
    rw [hold, majorityOf, if_neg (by omega)] at h
    cases h

/-! ## Rows as lists, for computing -/

/-- One step on a row given as a list. -/
def listStep (r : Nat) (f : List Nat → Nat) (l : List Nat) : List Nat :=
  (List.range l.length).map (localStep l.length r f (fun x => l[x]?.getD 0))

theorem listStep_ok (r : Nat) (f : List Nat → Nat) (l : List Nat) {n : Nat} (hn : l.length = n) :
    (listStep r f l).length = n ∧ ∀ x, x < n → localStep n r f (fun x => l[x]?.getD 0) x = (listStep r f l)[x]?.getD 0 := by
  subst hn
  refine ⟨by simp [listStep], ?_⟩
  intro x hx
  unfold listStep
  rw [List.getElem?_map, List.getElem?_range hx]
  rfl

theorem localCA_list {n r : Nat} {f : List Nat → Nat} (hn : 0 < n) : ∀ (k : Nat) (l : List Nat), l.length = n →
    ∀ x, x < n → localCA n r f (fun x => l[x]?.getD 0) k x = (Nat.repeat (listStep r f) k l)[x]?.getD 0
  | 0, _, _, _, _ => rfl
  | k + 1, l, hl, x, hx => by
      have hlen : ∀ k, (Nat.repeat (listStep r f) k l).length = n := by
        intro k
        induction k with
        | zero => exact hl
        | succ k ih => exact (listStep_ok r f _ ih).1
      show localStep n r f (localCA n r f _ k) x = (listStep r f (Nat.repeat (listStep r f) k l))[x]?.getD 0
      rw [← (listStep_ok r f _ (hlen k)).2 x hx]
      show f _ = f _
      rw [ringWindow_congr hn (localCA_list hn k l hl)]

/-- Once uniform, uniform for ever, if the rule keeps the uniform window. -/
theorem localCA_stays {n r : Nat} {f : List Nat → Nat} {s : Nat → Nat} {m : Nat} (hn : 0 < n)
    (hfix : f (List.replicate (2 * r + 1) m) = m) {t0 : Nat} (h : ∀ x, x < n → localCA n r f s t0 x = m) :
    ∀ t, t0 ≤ t → ∀ x, x < n → localCA n r f s t x = m := by
  intro t ht
  induction t with
  | zero => have : t0 = 0 := by omega
            subst this; exact h
  | succ t ih =>
    by_cases he : t0 = t + 1
    · subst he; exact h
    · intro x _
      have h' := ih (by omega)
      show f _ = m
      have : ringWindow n r (localCA n r f s t) x = List.replicate (2 * r + 1) m :=
        map_const _ _ _ (fun i _ => h' _ (Nat.mod_lt _ hn))
      rw [this, hfix]

end Verif
