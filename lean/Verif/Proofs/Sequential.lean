import Verif.Spec.Sequential
/-! # Sweeps of rule 60 -/

namespace Verif
open Spec

theorem and_zero_iff (a b : Nat) : a &&& b = 0 ↔ (a / 2) &&& (b / 2) = 0 ∧ ¬ (a % 2 = 1 ∧ b % 2 = 1) := by
  have h1 : (a &&& b) / 2 = (a / 2) &&& (b / 2) := Nat.and_div_two
  have h2 : (a &&& b) % 2 = 1 ↔ a % 2 = 1 ∧ b % 2 = 1 := Nat.and_mod_two_eq_one
  rw [← h1, ← h2]
  omega

/-- Pascal's triangle modulo 2 by binary digits. -/
theorem pascal_bits : ∀ a b : Nat, ((a + 1) &&& (b + 1) == 0) = ((a &&& (b + 1) == 0) ^^ ((a + 1) &&& b == 0)) := by
  intro a
  induction a using Nat.strongRecOn with
  | _ a ih =>
    intro b
    have e : ∀ x y : Nat, (x &&& y == 0) = (((x / 2) &&& (y / 2) == 0) && !(decide (x % 2 = 1) && decide (y % 2 = 1))) := by
      intro x y
      rw [Bool.eq_iff_iff]
      simp only [beq_iff_eq, Bool.and_eq_true, Bool.not_eq_true', ← Bool.not_eq_true, decide_eq_true_iff]
      exact and_zero_iff x y
    rw [e (a + 1), e a, e (a + 1) b]
    rcases Nat.mod_two_eq_zero_or_one a with ha | ha <;> rcases Nat.mod_two_eq_zero_or_one b with hb | hb
    · simp only [show (a + 1) % 2 = 1 by omega, show (b + 1) % 2 = 1 by omega, show (a + 1) / 2 = a / 2 by omega, show (b + 1) / 2 = b / 2 by omega, ha, hb]
      simp
    · obtain ⟨b', rfl⟩ : ∃ b', b = 2 * b' + 1 := ⟨b / 2, by omega⟩
      simp only [show (a + 1) % 2 = 1 by omega, show (2 * b' + 1 + 1) % 2 = 0 by omega, show (a + 1) / 2 = a / 2 by omega, show (2 * b' + 1 + 1) / 2 = b' + 1 by omega,
        ha, hb, show (2 * b' + 1) / 2 = b' by omega]
      simp
    · obtain ⟨a', rfl⟩ : ∃ a', a = 2 * a' + 1 := ⟨a / 2, by omega⟩
      simp only [show (b + 1) % 2 = 1 by omega, show (2 * a' + 1 + 1) % 2 = 0 by omega, show (b + 1) / 2 = b / 2 by omega, show (2 * a' + 1 + 1) / 2 = a' + 1 by omega,
        ha, hb, show (2 * a' + 1) / 2 = a' by omega]
      simp
    · obtain ⟨a', rfl⟩ : ∃ a', a = 2 * a' + 1 := ⟨a / 2, by omega⟩
      obtain ⟨b', rfl⟩ : ∃ b', b = 2 * b' + 1 := ⟨b / 2, by omega⟩
      simp only [show (2 * a' + 1 + 1) % 2 = 0 by omega, show (2 * b' + 1 + 1) % 2 = 0 by omega, show (2 * a' + 1 + 1) / 2 = a' + 1 by omega,
        show (2 * b' + 1 + 1) / 2 = b' + 1 by omega, ha, hb, show (2 * a' + 1) / 2 = a' by omega, show (2 * b' + 1) / 2 = b' by omega]
      have := ih a' (by omega) b'
      simpa using this

theorem count_xor {α : Type} (p q : α → Bool) : ∀ l : List α,
    (l.filter fun i => p i ^^ q i).length % 2 = ((l.filter p).length + (l.filter q).length) % 2
  | [] => rfl
  | a :: l => by
    have ih := count_xor p q l
    simp only [List.filter_cons]
    cases hp : p a <;> cases hq : q a <;> simp <;> omega

/-- One more sweep. -/
theorem overlap_succ (s : Nat → Nat) (k x : Nat) :
    overlapFree s (k + 1) (x + 1) = (overlapFree s k (x + 1) + overlapFree s (k + 1) x) % 2 := by
  unfold overlapFree
  have h : ∀ (P Q R : Nat → Bool), (∀ i ∈ List.range (x + 1), P i = (Q i ^^ R i)) →
      ((List.range (x + 1)).filter P).length % 2 = (((List.range (x + 1)).filter Q).length + ((List.range (x + 1)).filter R).length) % 2 := by
    intro P Q R hP
    rw [← count_xor, List.filter_congr hP]
  have hsum := h (fun i => s i == 1 && (k + 1 &&& (x + 1 - i)) == 0) (fun i => s i == 1 && (k &&& (x + 1 - i)) == 0)
    (fun i => s i == 1 && (k + 1 &&& (x - i)) == 0) (by
      intro i hi
      have hi' : i < x + 1 := List.mem_range.1 hi
      rw [show x + 1 - i = (x - i) + 1 by omega, pascal_bits]
      cases s i == 1 <;> simp)
  rw [List.range_succ, List.filter_append, List.filter_append, List.length_append, List.length_append]
  simp only [List.filter_cons, Nat.sub_self, Nat.and_zero, List.filter_nil, beq_self_eq_true, Bool.and_true]
  split <;> simp only [List.length_cons, List.length_nil] <;> omega

theorem overlap_zero (s : Nat → Nat) (hs : ∀ x, s x < 2) (x : Nat) : overlapFree s 0 (x + 1) = (s (x + 1) + overlapFree s 0 x) % 2 := by
  unfold overlapFree
  rw [List.range_succ, List.filter_append, List.length_append]
  simp only [Nat.zero_and, beq_self_eq_true, Bool.and_true, List.filter_cons, List.filter_nil]
  have := hs (x + 1)
  split
  · rename_i h
    simp only [beq_iff_eq] at h
    simp only [List.length_cons, List.length_nil]
    omega
  · rename_i h
    simp only [beq_iff_eq] at h
    simp only [List.length_nil]
    omega

theorem overlap_first (s : Nat → Nat) (hs : ∀ x, s x < 2) (k : Nat) : overlapFree s k 0 = s 0 := by
  unfold overlapFree
  have := hs 0
  rw [show List.range (0 + 1) = [0] from rfl]
  simp only [List.filter_cons, List.filter_nil, Nat.sub_self, Nat.and_zero, beq_self_eq_true, Bool.and_true]
  split
  · rename_i h
    simp only [beq_iff_eq] at h
    simp [h]
  · rename_i h
    simp only [beq_iff_eq] at h
    simp only [List.length_nil]
    omega

/-- The rows after whole sweeps over the cells `1, …, m`. -/
def sweepRow (m : Nat) (s : Nat → Nat) : Nat → Nat → Nat
  | 0, x => s x
  | k + 1, x => if x ≤ m then overlapFree s k x else s x

theorem sweepRow_succ {m : Nat} {s : Nat → Nat} (hs : ∀ x, s x < 2) (k x : Nat) (hx : x + 1 ≤ m) :
    sweepRow m s (k + 1) (x + 1) = (sweepRow m s k (x + 1) + sweepRow m s (k + 1) x) % 2 := by
  simp only [sweepRow, if_pos hx, if_pos (show x ≤ m by omega)]
  cases k with
  | zero => exact overlap_zero s hs x
  | succ k =>
    simp only [if_pos hx]
    exact overlap_succ s k x

theorem sweepRow_fixed {m : Nat} {s : Nat → Nat} (hs : ∀ x, s x < 2) (k x : Nat) (hx : x = 0 ∨ m < x) : sweepRow m s k x = s x := by
  cases k with
  | zero => rfl
  | succ k =>
    simp only [sweepRow]
    split
    · rename_i h
      rcases hx with rfl | hx
      · exact overlap_first s hs k
      · omega
    · rfl

theorem sweepRow_lt {m : Nat} {s : Nat → Nat} (hs : ∀ x, s x < 2) (k x : Nat) : sweepRow m s k x < 2 := by
  cases k with
  | zero => exact hs x
  | succ k =>
    simp only [sweepRow]
    split
    · exact Nat.mod_lt _ (by omega)
    · exact hs x

theorem rule60 {l c r : Nat} (hl : l < 2) (hc : c < 2) (hr : r < 2) : ecaRule 60 l c r = (c + l) % 2 := by
  have : ∀ l c r : Fin 2, ecaRule 60 l.1 c.1 r.1 = (c.1 + l.1) % 2 := by decide
  exact this ⟨l, hl⟩ ⟨c, hc⟩ ⟨r, hr⟩

theorem sweep_inside {n m : Nat} (hm : m < n) (hm0 : 0 < m) {s : Nat → Nat} (hs : ∀ x, s x < 2) (k : Nat)
    (h : ∀ x, x < n → seqRun n 60 (List.range' 1 m) s (k * m) x = sweepRow m s k x) : ∀ j : Nat, j ≤ m → ∀ x, x < n →
    seqRun n 60 (List.range' 1 m) s (k * m + j) x = if x ≤ j then sweepRow m s (k + 1) x else sweepRow m s k x
  | 0, _, x, hx => by
    rw [Nat.add_zero, h x hx]
    split
    · rename_i h0
      rw [sweepRow_fixed hs k x (by omega), sweepRow_fixed hs (k + 1) x (by omega)]
    · rfl
  | j + 1, hj, x, hx => by
    have ih := sweep_inside hm hm0 hs k h j (by omega)
    rw [← Nat.add_assoc, seqRun]
    have hcell : (List.range' 1 m)[(k * m + j) % (List.range' 1 m).length]? = some (j + 1) := by
      rw [List.length_range', Nat.mul_comm, Nat.mul_add_mod, Nat.mod_eq_of_lt (by omega), List.getElem?_range' (by omega)]
      congr 1
      omega
    rw [hcell]
    unfold seqStep
    by_cases hxj : x = j + 1
    · subst hxj
      have hl : (j + 1 + n - 1) % n = j := by
        rw [show j + 1 + n - 1 = j + n by omega, Nat.add_mod_right, Nat.mod_eq_of_lt (by omega)]
      rw [if_pos rfl, if_pos (Nat.le_refl _), hl, ih j (by omega), ih (j + 1) hx, if_pos (Nat.le_refl _), if_neg (by omega),
        ih _ (Nat.mod_lt _ (by omega)), sweepRow_succ hs k j hj]
      apply rule60 (sweepRow_lt hs _ _) (sweepRow_lt hs _ _)
      split <;> exact sweepRow_lt hs _ _
    · rw [if_neg (by intro he; exact hxj (Option.some.inj he).symm), ih x hx]
      by_cases h1 : x ≤ j
      · rw [if_pos h1, if_pos (by omega)]
      · rw [if_neg h1, if_neg (by omega)]

theorem sweep_rows {n m : Nat} (hm : m < n) (hm0 : 0 < m) {s : Nat → Nat} (hs : ∀ x, s x < 2) : ∀ k x : Nat, x < n →
    seqRun n 60 (List.range' 1 m) s (k * m) x = sweepRow m s k x
  | 0, x, _ => by rw [Nat.zero_mul]; rfl
  | k + 1, x, hx => by
    rw [Nat.succ_mul, sweep_inside hm hm0 hs k (sweep_rows hm hm0 hs k) m (Nat.le_refl _) x hx]
    split
    · rfl
    · rename_i h
      rw [sweepRow_fixed hs k x (by omega), sweepRow_fixed hs (k + 1) x (by omega)]

theorem and_add_pow {e b : Nat} (hb : b < 2 ^ e) (k : Nat) : (k + 2 ^ e) &&& b = k &&& b := by
  apply Nat.eq_of_testBit_eq
  intro i
  rw [Nat.testBit_and, Nat.testBit_and]
  rcases Nat.lt_or_ge i e with h | h
  · rw [Nat.add_comm k, Nat.testBit_two_pow_add_gt h]
  · have : b.testBit i = false := Nat.testBit_lt_two_pow (Nat.lt_of_lt_of_le hb (Nat.pow_le_pow_right (by omega) h))
    rw [this, Bool.and_false, Bool.and_false]

theorem pred_pow_and {e b : Nat} (hb : b < 2 ^ e) : (2 ^ e - 1) &&& b = b := by
  rw [Nat.and_comm, Nat.and_two_pow_sub_one_eq_mod, Nat.mod_eq_of_lt hb]

theorem overlap_add {m e : Nat} (hm : m < 2 ^ e) (s : Nat → Nat) (k x : Nat) (hx : x ≤ m) : overlapFree s (k + 2 ^ e) x = overlapFree s k x := by
  unfold overlapFree
  have : ∀ i ∈ List.range (x + 1), (s i == 1 && (k + 2 ^ e &&& (x - i)) == 0) = (s i == 1 && (k &&& (x - i)) == 0) := by
    intro i _
    rw [and_add_pow (by omega)]
  rw [List.filter_congr this]

theorem overlap_back {m e : Nat} (hm : m < 2 ^ e) {s : Nat → Nat} (hs : ∀ x, s x < 2) (x : Nat) (hx : x ≤ m) : overlapFree s (2 ^ e - 1) x = s x := by
  unfold overlapFree
  have h0 : (List.range x).filter (fun i => s i == 1 && (2 ^ e - 1 &&& (x - i)) == 0) = [] := by
    rw [List.filter_eq_nil_iff]
    intro i hi
    have := List.mem_range.1 hi
    rw [pred_pow_and (by omega)]
    simp only [Bool.and_eq_true, beq_iff_eq, not_and]
    intro _
    omega
  rw [List.range_succ, List.filter_append, h0]
  have := hs x
  simp only [List.nil_append, List.filter_cons, List.filter_nil, Nat.sub_self, Nat.and_zero, beq_self_eq_true, Bool.and_true]
  split
  · rename_i h
    simp only [beq_iff_eq] at h
    simp [h]
  · rename_i h
    simp only [beq_iff_eq] at h
    simp only [List.length_nil]
    omega

theorem sweepRow_period {m e : Nat} (hm : m < 2 ^ e) {s : Nat → Nat} (hs : ∀ x, s x < 2) (k x : Nat) :
    sweepRow m s (k + 2 ^ e) x = sweepRow m s k x := by
  have hpos : 0 < 2 ^ e := Nat.two_pow_pos e
  cases k with
  | zero =>
    obtain ⟨p, hp⟩ : ∃ p, 2 ^ e = p + 1 := ⟨2 ^ e - 1, by omega⟩
    rw [Nat.zero_add, hp]
    simp only [sweepRow]
    split
    · rename_i h
      rw [show p = 2 ^ e - 1 by omega]
      exact overlap_back hm hs x h
    · rfl
  | succ k =>
    rw [show k + 1 + 2 ^ e = (k + 2 ^ e) + 1 by omega]
    simp only [sweepRow]
    split
    · rename_i h; exact overlap_add hm s k x h
    · rfl

end Verif
