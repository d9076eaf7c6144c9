import Verif.Py.Repr
/-! # Lemmas about digits -/

namespace Verif

theorem digitsLE_zero (k f : Nat) : digitsLE k f 0 = [] := by cases f <;> simp [digitsLE]

theorem digitsLE_pos {k f n : Nat} (hn : n ≠ 0) : digitsLE k (f + 1) n = n % k :: digitsLE k f (n / k) := by
  simp [digitsLE, hn]

/-- The digits, padded to `w` places, are `n / k ^ i % k`. -/
theorem digitsLE_pad {k : Nat} (hk : 2 ≤ k) : ∀ (w n f : Nat), n ≤ f → n < k ^ w →
    (digitsLE k f n).length ≤ w ∧
      digitsLE k f n ++ List.replicate (w - (digitsLE k f n).length) 0
        = (List.range w).map (fun i => n / k ^ i % k) := by
  intro w
  induction w with
  | zero =>
    intro n f _ hn
    have : n = 0 := by simpa using hn
    subst this
    simp [digitsLE_zero]
  | succ w ih =>
    intro n f hf hn
    by_cases h0 : n = 0
    · subst h0
      simp only [digitsLE_zero, List.length_nil, Nat.zero_le, true_and, List.nil_append, Nat.sub_zero, Nat.zero_div,
        Nat.zero_mod]
      rw [List.map_const']
      simp
    · obtain ⟨f', rfl⟩ : ∃ f', f = f' + 1 := ⟨f - 1, by omega⟩
      have hlt : n / k < n := Nat.div_lt_self (by omega) hk
      have hb : n / k < k ^ w := by
        rw [Nat.div_lt_iff_lt_mul (by omega)]
        rwa [Nat.pow_succ] at hn
      obtain ⟨h1, h2⟩ := ih (n / k) f' (by omega) hb
      rw [digitsLE_pos h0]
      refine ⟨by simp only [List.length_cons]; omega, ?_⟩
      rw [List.length_cons, List.cons_append, Nat.add_sub_add_right, h2, List.range_succ_eq_map, List.map_cons,
        List.map_map]
      simp only [Nat.pow_zero, Nat.div_one]
      congr 1
      apply List.map_congr_left
      intro i _
      simp only [Function.comp, Nat.succ_eq_add_one]
      rw [Nat.div_div_eq_div_mul, Nat.pow_succ, Nat.mul_comm k]

theorem length_digitsLE_gt {k : Nat} (hk : 2 ≤ k) : ∀ (w n f : Nat), n ≤ f → k ^ w ≤ n →
    w < (digitsLE k f n).length := by
  intro w
  induction w with
  | zero =>
    intro n f hf hn
    have hn0 : n ≠ 0 := by
      have : 1 ≤ n := by simpa using hn
      omega
    obtain ⟨f', rfl⟩ : ∃ f', f = f' + 1 := ⟨f - 1, by omega⟩
    rw [digitsLE_pos hn0]; simp
  | succ w ih =>
    intro n f hf hn
    have hpos : 0 < k ^ (w + 1) := Nat.pow_pos (by omega)
    have hn0 : n ≠ 0 := by omega
    obtain ⟨f', rfl⟩ : ∃ f', f = f' + 1 := ⟨f - 1, by omega⟩
    have hlt : n / k < n := Nat.div_lt_self (by omega) hk
    have hb : k ^ w ≤ n / k := by
      rw [Nat.le_div_iff_mul_le (by omega)]
      rwa [Nat.pow_succ] at hn
    rw [digitsLE_pos hn0, List.length_cons]
    exact Nat.succ_lt_succ (ih _ _ (by omega) hb)

/-- The number of digits of `n` exceeds `w ≥ 1` iff `k ^ w ≤ n`. -/
theorem length_digitsBE {k : Nat} (hk : 2 ≤ k) {w : Nat} (hw : 1 ≤ w) (n : Nat) :
    (digitsBE k n).length ≤ w ↔ n < k ^ w := by
  unfold digitsBE
  split
  · rename_i h; subst h
    simp only [List.length_singleton]
    exact ⟨fun _ => Nat.pow_pos (by omega), fun _ => hw⟩
  · rw [List.length_reverse]
    constructor
    · intro h
      apply Decidable.byContradiction
      intro hc
      have := length_digitsLE_gt hk w n n (Nat.le_refl _) (by omega)
      omega
    · intro h; exact (digitsLE_pad hk w n n (Nat.le_refl _) h).1

/-- The digits, most significant first, padded with zeros on the left. -/
theorem digitsBE_pad {k : Nat} (hk : 2 ≤ k) {w : Nat} (hw : 1 ≤ w) {n : Nat} (hn : n < k ^ w) :
    List.replicate (w - (digitsBE k n).length) 0 ++ digitsBE k n
      = ((List.range w).map (fun i => n / k ^ i % k)).reverse := by
  by_cases h0 : n = 0
  · subst h0
    simp only [digitsBE, if_pos, List.length_singleton, Nat.zero_div, Nat.zero_mod]
    rw [List.map_const']
    obtain ⟨w', rfl⟩ : ∃ w', w = w' + 1 := ⟨w - 1, by omega⟩
    simp [← List.replicate_succ']
  · simp only [digitsBE, h0, if_neg, not_false_eq_true, if_false]
    rw [← (digitsLE_pad hk w n n (Nat.le_refl _) hn).2, List.reverse_append, List.reverse_replicate,
      List.length_reverse]

theorem digitsBE_pad_length {k : Nat} (hk : 2 ≤ k) {w : Nat} (hw : 1 ≤ w) {n : Nat} (hn : n < k ^ w) :
    (List.replicate (w - (digitsBE k n).length) 0 ++ digitsBE k n).length = w := by
  rw [digitsBE_pad hk hw hn]; simp

/-- Item `p` of the padded digits. -/
theorem getElem?_digitsBE_pad {k : Nat} (hk : 2 ≤ k) {w : Nat} {n : Nat} (hn : n < k ^ w) {p : Nat} (hp : p < w) :
    (List.replicate (w - (digitsBE k n).length) 0 ++ digitsBE k n)[p]? = some (n / k ^ (w - 1 - p) % k) := by
  rw [digitsBE_pad hk (by omega) hn, List.getElem?_reverse (by simpa using hp)]
  simp only [List.length_map, List.length_range, List.getElem?_map]
  rw [List.getElem?_range (by omega)]
  rfl

/-! ## Characters -/

theorem digitChar_inj_aux : ∀ d, d < 36 → digitChars.findIdx? (· == digitChar d) = some d := by decide +kernel

theorem intOfChar_digitChar {d k : Nat} (hk : k ≤ 36) (hd : d < k) : intOfChar (digitChar d) k = .ok d := by
  unfold intOfChar
  rw [digitChar_inj_aux d (by omega)]
  simp [hd]

theorem digitChar_inj {d e : Nat} (hd : d < 36) (he : e < 36) (h : digitChar d = digitChar e) : d = e := by
  have h1 := digitChar_inj_aux d hd
  rw [h, digitChar_inj_aux e he] at h1
  exact (Option.some.inj h1).symm

theorem digitChar_zero : digitChar 0 = '0' := by decide

theorem zfill_digits (w : Nat) (ds : List Nat) :
    zfill w (ds.map digitChar) = (List.replicate (w - ds.length) 0 ++ ds).map digitChar := by
  simp [zfill, digitChar_zero]

/-- Every digit of `n` is below the base. -/
theorem digitsLE_lt {k : Nat} (hk : 0 < k) : ∀ (f n d : Nat), d ∈ digitsLE k f n → d < k := by
  intro f
  induction f with
  | zero => intro n d h; simp [digitsLE] at h
  | succ f ih =>
    intro n d h
    by_cases h0 : n = 0
    · subst h0; simp [digitsLE_zero] at h
    · rw [digitsLE_pos h0] at h
      rcases List.mem_cons.1 h with rfl | h
      · exact Nat.mod_lt _ hk
      · exact ih _ _ h

theorem digitsBE_lt {k : Nat} (hk : 0 < k) {n d : Nat} (h : d ∈ digitsBE k n) : d < k := by
  unfold digitsBE at h
  split at h
  · simp at h; omega
  · exact digitsLE_lt hk _ _ _ (List.mem_reverse.1 h)

/-- A number below the base is its own only digit. -/
theorem digitsBE_small {k d : Nat} (hd : d < k) : digitsBE k d = [d] := by
  unfold digitsBE
  split
  · rename_i h; rw [h]
  · rename_i h
    obtain ⟨e, rfl⟩ : ∃ e, d = e + 1 := ⟨d - 1, by omega⟩
    rw [digitsLE_pos h, Nat.mod_eq_of_lt hd, Nat.div_eq_of_lt hd, digitsLE_zero]
    rfl

end Verif
