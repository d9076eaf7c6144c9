import Verif.Spec.Outline
import Verif.Proofs.Plane
import Verif.Proofs.Sequential
/-! # Lemmas for C125 -/

namespace Verif
open Spec

/-! ## Pascal's triangle modulo 2 -/

theorem pascal_zero : ∀ n, pascal n 0 = 1
  | 0 => rfl
  | _ + 1 => rfl

theorem pascal_gt : ∀ n k, n < k → pascal n k = 0
  | 0, 0, h => absurd h (by omega)
  | 0, _ + 1, _ => rfl
  | n + 1, 0, h => absurd h (by omega)
  | n + 1, k + 1, h => by
      rw [pascal, pascal_gt n k (by omega), pascal_gt n (k + 1) (by omega)]

theorem pascal_odd : ∀ n a b, a + b = n → (pascal n a % 2 == 1) = (a &&& b == 0)
  | n, 0, b, _ => by rw [pascal_zero]; simp
  | n, a + 1, 0, h => by
      have h' : n = a + 1 := by omega
      subst h'
      have e : ∀ m, pascal m m = 1 := by
        intro m
        induction m with
        | zero => rfl
        | succ m ih => rw [pascal, ih, pascal_gt m (m + 1) (by omega)]
      rw [e]; simp
  | 0, a + 1, b + 1, h => absurd h (by omega)
  | n + 1, a + 1, b + 1, h => by
      rw [pascal, pascal_bits, ← pascal_odd n a (b + 1) (by omega), ← pascal_odd n (a + 1) b (by omega)]
      have h2 : ∀ x y : Nat, ((x + y) % 2 == 1) = ((x % 2 == 1) ^^ (y % 2 == 1)) := by
        intro x y
        rw [Nat.add_mod]
        rcases Nat.mod_two_eq_zero_or_one x with hx | hx <;> rcases Nat.mod_two_eq_zero_or_one y with hy | hy <;>
          rw [hx, hy] <;> rfl
      exact h2 _ _

theorem pascal_odd_iff {a b : Nat} : pascal (a + b) a % 2 = 1 ↔ a &&& b = 0 := by
  have := pascal_odd (a + b) a b rfl
  rw [Bool.eq_iff_iff] at this
  simpa using this

theorem and_of_add_ones : ∀ k a b : Nat, a + b = 2 ^ k - 1 → a &&& b = 0
  | 0, a, b, h => by
      have : a = 0 := by simp at h; omega
      subst this
      simp
  | k + 1, a, b, h => by
      have hp : 2 ^ (k + 1) = 2 * 2 ^ k := by rw [Nat.pow_succ, Nat.mul_comm]
      have h0 : 0 < 2 ^ k := Nat.two_pow_pos k
      rw [and_zero_iff]
      exact ⟨and_of_add_ones k _ _ (by omega), by omega⟩

theorem and_of_add_power : ∀ k a b : Nat, a + b = 2 ^ k → 0 < a → 0 < b → a &&& b ≠ 0
  | 0, a, b, h, ha, hb => by simp at h; omega
  | k + 1, a, b, h, ha, hb => by
      have hp : 2 ^ (k + 1) = 2 * 2 ^ k := by rw [Nat.pow_succ, Nat.mul_comm]
      intro h'
      rw [and_zero_iff] at h'
      have := and_of_add_power k (a / 2) (b / 2) (by omega) (by omega) (by omega)
      exact this h'.1

/-! ## The hexagonal plane -/

/-- The cell of the axial coordinates `(i, j)` around the cell `(a, b)`, as a column of row `a + i`. -/
def axialCol (a b i j : Int) : Int := b - (a + 1) / 2 + j + (a + i + 1) / 2

/-- The sum over the six neighbours in axial coordinates. -/
theorem hex_sum (S : Int → Int → Int) (a b i j : Int) :
    (planeNbrs hex6 S (a + i) (axialCol a b i j)).sum =
      S (a + i) (axialCol a b i (j + 1)) + S (a + i) (axialCol a b i (j - 1)) +
      S (a + (i + 1)) (axialCol a b (i + 1) j) + S (a + (i + 1)) (axialCol a b (i + 1) (j - 1)) +
      S (a + (i - 1)) (axialCol a b (i - 1) j) + S (a + (i - 1)) (axialCol a b (i - 1) (j + 1)) := by
  have e1 : axialCol a b i (j + 1) = axialCol a b i j + 1 := by unfold axialCol; omega
  have e2 : axialCol a b i (j - 1) = axialCol a b i j + -1 := by unfold axialCol; omega
  have r1 : a + (i + 1) = a + i + 1 := by omega
  have r2 : a + (i - 1) = a + i + -1 := by omega
  unfold planeNbrs hex6
  by_cases h : (a + i) % 2 = 1
  · rw [if_pos h]
    have e3 : axialCol a b (i + 1) j = axialCol a b i j + 0 := by unfold axialCol; omega
    have e4 : axialCol a b (i + 1) (j - 1) = axialCol a b i j + -1 := by unfold axialCol; omega
    have e5 : axialCol a b (i - 1) j = axialCol a b i j + -1 := by unfold axialCol; omega
    have e6 : axialCol a b (i - 1) (j + 1) = axialCol a b i j + 0 := by unfold axialCol; omega
    rw [e1, e2, e3, e4, e5, e6, r1, r2]
    simp only [List.cons_append, List.nil_append, List.map_cons, List.map_nil, List.sum_cons, List.sum_nil]
    simp only [Int.add_zero]
    omega
  · rw [if_neg h]
    have e3 : axialCol a b (i + 1) j = axialCol a b i j + 1 := by unfold axialCol; omega
    have e4 : axialCol a b (i + 1) (j - 1) = axialCol a b i j + 0 := by unfold axialCol; omega
    have e5 : axialCol a b (i - 1) j = axialCol a b i j + 0 := by unfold axialCol; omega
    have e6 : axialCol a b (i - 1) (j + 1) = axialCol a b i j + 1 := by unfold axialCol; omega
    rw [e1, e2, e3, e4, e5, e6, r1, r2]
    simp only [List.cons_append, List.nil_append, List.map_cons, List.map_nil, List.sum_cons, List.sum_nil]
    simp only [Int.add_zero]
    omega

/-- The run of the hexagonal demo around `(a, b)` in axial coordinates. -/
def hexRun (a b : Int) (t : Nat) (i j : Int) : Int :=
  planeCA hex6 growsAtOne (loneCell a b) t (a + i) (axialCol a b i j)

theorem hexRun_zero (a b i j : Int) : hexRun a b 0 i j = if i = 0 ∧ j = 0 then 1 else 0 := by
  unfold hexRun
  simp only [planeCA, loneCell]
  by_cases h : i = 0 ∧ j = 0
  · rw [if_pos h, if_pos ⟨by omega, by obtain ⟨rfl, rfl⟩ := h; unfold axialCol; omega⟩]
  · rw [if_neg h, if_neg]
    rintro ⟨h1, h2⟩
    have : i = 0 := by omega
    subst this
    unfold axialCol at h2
    exact h ⟨rfl, by omega⟩

theorem hexRun_succ (a b : Int) (t : Nat) (i j : Int) : hexRun a b (t + 1) i j =
    if hexRun a b t i j + (hexRun a b t i (j + 1) + hexRun a b t i (j - 1) + hexRun a b t (i + 1) j +
      hexRun a b t (i + 1) (j - 1) + hexRun a b t (i - 1) j + hexRun a b t (i - 1) (j + 1)) = 1 then 1
    else hexRun a b t i j := by
  show growsAtOne _ _ = _
  unfold growsAtOne
  rw [hex_sum]
  rfl

theorem hexRun_bit (a b : Int) (t : Nat) : ∀ i j, hexRun a b t i j = 0 ∨ hexRun a b t i j = 1 := by
  induction t with
  | zero => intro i j; rw [hexRun_zero]; split <;> simp
  | succ t ih =>
    intro i j
    rw [hexRun_succ]
    split
    · exact Or.inr rfl
    · exact ih i j

theorem hexRun_cone (a b : Int) (t : Nat) : ∀ i j : Int, t < i.natAbs ∨ t < j.natAbs ∨ t < (i + j).natAbs →
    hexRun a b t i j = 0 := by
  induction t with
  | zero => intro i j h; rw [hexRun_zero, if_neg]; omega
  | succ t ih =>
    intro i j h
    rw [hexRun_succ, ih i j (by omega), ih i (j + 1) (by omega), ih i (j - 1) (by omega), ih (i + 1) j (by omega),
      ih (i + 1) (j - 1) (by omega), ih (i - 1) j (by omega), ih (i - 1) (j + 1) (by omega)]
    rfl

/-- A turn by 60 degrees. -/
theorem hexRun_turn (a b : Int) (t : Nat) : ∀ i j, hexRun a b t (i + j) (-i) = hexRun a b t i j := by
  induction t with
  | zero =>
    intro i j
    rw [hexRun_zero, hexRun_zero]
    by_cases h : i = 0 ∧ j = 0
    · rw [if_pos h, if_pos (by omega)]
    · rw [if_neg h, if_neg (by omega)]
  | succ t ih =>
    intro i j
    rw [hexRun_succ, hexRun_succ, ← ih i j, ← ih i (j + 1), ← ih i (j - 1), ← ih (i + 1) j, ← ih (i + 1) (j - 1),
      ← ih (i - 1) j, ← ih (i - 1) (j + 1)]
    have e1 : i + (j + 1) = i + j + 1 := by omega
    have e2 : i + (j - 1) = i + j - 1 := by omega
    have e3 : i + 1 + j = i + j + 1 := by omega
    have e4 : i + 1 + (j - 1) = i + j := by omega
    have e5 : i - 1 + j = i + j - 1 := by omega
    have e6 : i - 1 + (j + 1) = i + j := by omega
    have f1 : -(i + 1) = -i - 1 := by omega
    have f2 : -(i - 1) = -i + 1 := by omega
    rw [e1, e2, e3, e4, e5, e6, f1, f2]
    have : ∀ u p q r s v w : Int, u + (p + q + r + s + v + w) = u + (w + s + r + p + q + v) := by omega
    generalize hexRun a b t (i + j) (-i) = u
    generalize hexRun a b t (i + j) (-i + 1) = p
    generalize hexRun a b t (i + j) (-i - 1) = q
    generalize hexRun a b t (i + j + 1) (-i) = r
    generalize hexRun a b t (i + j + 1) (-i - 1) = s
    generalize hexRun a b t (i + j - 1) (-i) = v
    generalize hexRun a b t (i + j - 1) (-i + 1) = w
    have h : u + (p + q + r + s + v + w) = u + (r + v + s + q + w + p) := by omega
    rw [h]

/-- The cells of one side, as Pascal's triangle modulo 2. -/
theorem hexRun_side (a b : Int) (t : Nat) : ∀ i j : Nat, i + j = t → hexRun a b t i j = ((pascal t i % 2 : Nat) : Int) := by
  induction t with
  | zero =>
    intro i j h
    obtain ⟨rfl, rfl⟩ : i = 0 ∧ j = 0 := by omega
    rw [hexRun_zero]
    rfl
  | succ t ih =>
    intro i j h
    rw [hexRun_succ, hexRun_cone a b t i j (by omega), hexRun_cone a b t i (j + 1) (by omega),
      hexRun_cone a b t (i + 1) j (by omega), hexRun_cone a b t (i + 1) (j - 1) (by omega),
      hexRun_cone a b t (i - 1) (j + 1) (by omega)]
    have hL : hexRun a b t i (j - 1) = ((if j = 0 then 0 else pascal t i % 2 : Nat) : Int) := by
      by_cases hj : j = 0
      · subst hj
        rw [if_pos rfl]
        exact hexRun_cone a b t _ _ (by omega)
      · rw [if_neg hj]
        obtain ⟨j', rfl⟩ : ∃ j', j = j' + 1 := ⟨j - 1, by omega⟩
        have := ih i j' (by omega)
        rw [show ((j' + 1 : Nat) : Int) - 1 = (j' : Int) by omega]
        exact this
    have hR : hexRun a b t (i - 1) j = ((if i = 0 then 0 else pascal t (i - 1) % 2 : Nat) : Int) := by
      by_cases hi : i = 0
      · subst hi
        rw [if_pos rfl]
        exact hexRun_cone a b t _ _ (by omega)
      · rw [if_neg hi]
        obtain ⟨i', rfl⟩ : ∃ i', i = i' + 1 := ⟨i - 1, by omega⟩
        have := ih i' j (by omega)
        rw [show ((i' + 1 : Nat) : Int) - 1 = (i' : Int) by omega]
        exact this
    match i, j with
    | 0, j + 1 =>
      rw [if_neg (by omega)] at hL
      rw [if_pos rfl] at hR
      rw [hL, hR, pascal_zero, pascal_zero]
      rfl
    | i + 1, 0 =>
      rw [if_pos rfl] at hL
      rw [if_neg (by omega)] at hR
      have : t = i := by omega
      subst this
      rw [hL, hR, pascal, pascal_gt t (t + 1) (by omega)]
      simp only [Nat.add_sub_cancel, Nat.add_zero]
      split <;> omega
    | i + 1, j + 1 =>
      rw [if_neg (by omega)] at hL
      rw [if_neg (by omega)] at hR
      rw [hL, hR, pascal]
      simp only [Nat.add_sub_cancel]
      split <;> omega

/-- One step in axial coordinates. -/
def axialDir : Fin 6 → Int × Int
  | 0 => (0, 1)
  | 1 => (1, 0)
  | 2 => (1, -1)
  | 3 => (0, -1)
  | 4 => (-1, 0)
  | 5 => (-1, 1)

theorem hexStep_axial (k : Fin 6) (a b i j : Int) : hexStep k (a + i, axialCol a b i j) =
    (a + (i + (axialDir k).1), axialCol a b (i + (axialDir k).1) (j + (axialDir k).2)) := by
  unfold axialCol
  match k with
  | 0 => simp only [hexStep, axialDir]; exact Prod.ext (by simp only; omega) (by simp only; omega)
  | 1 =>
    simp only [hexStep, axialDir]
    refine Prod.ext (by simp only; omega) ?_
    simp only
    split <;> omega
  | 2 =>
    simp only [hexStep, axialDir]
    refine Prod.ext (by simp only; omega) ?_
    simp only
    split <;> omega
  | 3 => simp only [hexStep, axialDir]; exact Prod.ext (by simp only; omega) (by simp only; omega)
  | 4 =>
    simp only [hexStep, axialDir]
    refine Prod.ext (by simp only; omega) ?_
    simp only
    split <;> omega
  | 5 =>
    simp only [hexStep, axialDir]
    refine Prod.ext (by simp only; omega) ?_
    simp only
    split <;> omega

theorem hexWalk_axial (k : Fin 6) (n : Nat) (a b i j : Int) : hexWalk k n (a + i, axialCol a b i j) =
    (a + (i + n * (axialDir k).1), axialCol a b (i + n * (axialDir k).1) (j + n * (axialDir k).2)) := by
  induction n with
  | zero => simp [hexWalk]
  | succ n ih =>
    rw [hexWalk, ih, hexStep_axial]
    have h : ∀ u d : Int, u + n * d + d = u + ((n + 1 : Nat) : Int) * d := by
      intro u d
      rw [Int.natCast_add, Int.add_mul]
      omega
    rw [h, h]

theorem axialCol_zero (a b : Int) : axialCol a b 0 0 = b := by unfold axialCol; omega

/-- The cell `j` steps along side `k` of the hexagon of radius `m + j`. -/
theorem hexWalk_side (k : Fin 6) (m j : Nat) (a b : Int) (t : Nat) :
    hexRun a b t ((m * (axialDir k).1) + j * (axialDir (k + 1)).1) ((m * (axialDir k).2) + j * (axialDir (k + 1)).2) =
      hexRun a b t j m ∧
    hexWalk (k + 1) j (hexWalk k m (a, b)) = (a + ((m * (axialDir k).1) + j * (axialDir (k + 1)).1),
      axialCol a b ((m * (axialDir k).1) + j * (axialDir (k + 1)).1) ((m * (axialDir k).2) + j * (axialDir (k + 1)).2)) := by
  constructor
  · have T := hexRun_turn a b t
    have T1 := T j m
    have T2 := T (j + m) (-j)
    have T3 := T (j + m + -j) (-(j + m))
    have T4 := T (j + m + -j + -(j + m)) (-(j + m + -j))
    have T5 := T (j + m + -j + -(j + m) + -(j + m + -j)) (-(j + m + -j + -(j + m)))
    match k with
    | 0 => simp only [axialDir, show (0 : Fin 6) + 1 = 1 from rfl]; congr 1 <;> omega
    | 1 =>
      rw [← T1]
      simp only [axialDir, show (1 : Fin 6) + 1 = 2 from rfl]; congr 1 <;> omega
    | 2 =>
      rw [← T1, ← T2]
      simp only [axialDir, show (2 : Fin 6) + 1 = 3 from rfl]; congr 1 <;> omega
    | 3 =>
      rw [← T1, ← T2, ← T3]
      simp only [axialDir, show (3 : Fin 6) + 1 = 4 from rfl]; congr 1 <;> omega
    | 4 =>
      rw [← T1, ← T2, ← T3, ← T4]
      simp only [axialDir, show (4 : Fin 6) + 1 = 5 from rfl]; congr 1 <;> omega
    | 5 =>
      rw [← T1, ← T2, ← T3, ← T4, ← T5]
      simp only [axialDir, show (5 : Fin 6) + 1 = 0 from rfl]; congr 1 <;> omega
  · have h1 := hexWalk_axial k m a b 0 0
    rw [axialCol_zero, Int.add_zero, Int.zero_add, Int.zero_add] at h1
    rw [h1, hexWalk_axial]

/-! ## Cells that are reached -/

theorem hexStep_mem (x y : Int) : ∀ d ∈ hex6 x, ∃ k : Fin 6, hexStep k (x + d.1, y + d.2) = (x, y) := by
  intro d hd
  unfold hex6 at hd
  by_cases h : x % 2 = 1
  · rw [if_pos h] at hd
    simp only [List.cons_append, List.nil_append, List.mem_cons, List.not_mem_nil, or_false] at hd
    have h1 : ¬ (x + 1) % 2 = 1 := by omega
    have h2 : ¬ (x + -1) % 2 = 1 := by omega
    rcases hd with rfl | rfl | rfl | rfl | rfl | rfl
    · exact ⟨3, by simp only [hexStep]; exact Prod.ext (by simp only; omega) (by simp only; omega)⟩
    · exact ⟨0, by simp only [hexStep]; exact Prod.ext (by simp only; omega) (by simp only; omega)⟩
    · exact ⟨4, by simp only [hexStep, if_neg h1]; exact Prod.ext (by simp only; omega) (by simp only; omega)⟩
    · exact ⟨2, by simp only [hexStep, if_neg h2]; exact Prod.ext (by simp only; omega) (by simp only; omega)⟩
    · exact ⟨5, by simp only [hexStep, if_neg h1]; exact Prod.ext (by simp only; omega) (by simp only; omega)⟩
    · exact ⟨1, by simp only [hexStep, if_neg h2]; exact Prod.ext (by simp only; omega) (by simp only; omega)⟩
  · rw [if_neg h] at hd
    simp only [List.cons_append, List.nil_append, List.mem_cons, List.not_mem_nil, or_false] at hd
    have h1 : (x + 1) % 2 = 1 := by omega
    have h2 : (x + -1) % 2 = 1 := by omega
    rcases hd with rfl | rfl | rfl | rfl | rfl | rfl
    · exact ⟨3, by simp only [hexStep]; exact Prod.ext (by simp only; omega) (by simp only; omega)⟩
    · exact ⟨0, by simp only [hexStep]; exact Prod.ext (by simp only; omega) (by simp only; omega)⟩
    · exact ⟨5, by simp only [hexStep, if_pos h1]; exact Prod.ext (by simp only; omega) (by simp only; omega)⟩
    · exact ⟨1, by simp only [hexStep, if_pos h2]; exact Prod.ext (by simp only; omega) (by simp only; omega)⟩
    · exact ⟨4, by simp only [hexStep, if_pos h1]; exact Prod.ext (by simp only; omega) (by simp only; omega)⟩
    · exact ⟨2, by simp only [hexStep, if_pos h2]; exact Prod.ext (by simp only; omega) (by simp only; omega)⟩

theorem hexPath_snoc : ∀ (ks : List (Fin 6)) (k : Fin 6) (p : Int × Int),
    hexPath (ks ++ [k]) p = hexStep k (hexPath ks p)
  | [], _, _ => rfl
  | _ :: ks, k, _ => hexPath_snoc ks k _

theorem sum_zero_of_all : ∀ l : List Int, (∀ u ∈ l, u = 0) → l.sum = 0
  | [], _ => rfl
  | a :: l, h => by
      rw [List.sum_cons, h a List.mem_cons_self, sum_zero_of_all l (fun u hu => h u (List.mem_cons_of_mem _ hu))]
      rfl

theorem hex_reached (S : Int → Int → Int) (t : Nat) : ∀ x y, planeCA hex6 growsAtOne S t x y ≠ 0 →
    ∃ ks a b, ks.length ≤ t ∧ S a b ≠ 0 ∧ hexPath ks (a, b) = (x, y) := by
  induction t with
  | zero => intro x y h; exact ⟨[], x, y, by simp, h, rfl⟩
  | succ t ih =>
    intro x y h
    by_cases h0 : planeCA hex6 growsAtOne S t x y = 0
    · have : ∃ d ∈ hex6 x, planeCA hex6 growsAtOne S t (x + d.1) (y + d.2) ≠ 0 := by
        apply Classical.byContradiction
        intro hn
        apply h
        show growsAtOne (planeCA hex6 growsAtOne S t x y) (planeNbrs hex6 (planeCA hex6 growsAtOne S t) x y) = 0
        rw [h0, growsAtOne, sum_zero_of_all _ ?_]
        · rfl
        · intro u hu
          obtain ⟨d, hd, rfl⟩ := List.mem_map.1 hu
          apply Classical.byContradiction
          intro hne
          exact hn ⟨d, hd, hne⟩
      obtain ⟨d, hd, hne⟩ := this
      obtain ⟨ks, a, b, k1, k2, k3⟩ := ih _ _ hne
      obtain ⟨k, hk⟩ := hexStep_mem x y d hd
      exact ⟨ks ++ [k], a, b, by simp; omega, k2, by rw [hexPath_snoc, k3, hk]⟩
    · obtain ⟨ks, a, b, k1, k2, k3⟩ := ih x y h0
      exact ⟨ks, a, b, by omega, k2, k3⟩

theorem hexStep_near (k : Fin 6) (x y : Int) : ((hexStep k (x, y)).1 - x).natAbs ≤ 1 ∧ ((hexStep k (x, y)).2 - y).natAbs ≤ 1 := by
  match k with
  | 0 => simp only [hexStep]; omega
  | 1 => simp only [hexStep]; split <;> omega
  | 2 => simp only [hexStep]; split <;> omega
  | 3 => simp only [hexStep]; omega
  | 4 => simp only [hexStep]; split <;> omega
  | 5 => simp only [hexStep]; split <;> omega

theorem hexWalk_near (k : Fin 6) (n : Nat) (x y : Int) :
    ((hexWalk k n (x, y)).1 - x).natAbs ≤ n ∧ ((hexWalk k n (x, y)).2 - y).natAbs ≤ n := by
  induction n with
  | zero => simp [hexWalk]
  | succ n ih =>
    have h := hexStep_near k (hexWalk k n (x, y)).1 (hexWalk k n (x, y)).2
    rw [show ((hexWalk k n (x, y)).1, (hexWalk k n (x, y)).2) = hexWalk k n (x, y) from rfl] at h
    rw [hexWalk]
    omega

theorem hexStep_tile (k : Fin 6) (x y m n : Int) (hm : m % 2 = 0) :
    hexStep k (x + m, y + n) = ((hexStep k (x, y)).1 + m, (hexStep k (x, y)).2 + n) := by
  have e : (x + m) % 2 = x % 2 := by omega
  match k with
  | 0 => simp only [hexStep]; exact Prod.ext (by simp only) (by simp only; omega)
  | 1 => simp only [hexStep, e]; refine Prod.ext (by simp only; omega) ?_; simp only; split <;> omega
  | 2 => simp only [hexStep, e]; refine Prod.ext (by simp only; omega) ?_; simp only; split <;> omega
  | 3 => simp only [hexStep]; exact Prod.ext (by simp only) (by simp only; omega)
  | 4 => simp only [hexStep, e]; refine Prod.ext (by simp only; omega) ?_; simp only; split <;> omega
  | 5 => simp only [hexStep, e]; refine Prod.ext (by simp only; omega) ?_; simp only; split <;> omega

theorem hexPath_tile (ks : List (Fin 6)) (m n : Int) (hm : m % 2 = 0) : ∀ x y,
    hexPath ks (x + m, y + n) = ((hexPath ks (x, y)).1 + m, (hexPath ks (x, y)).2 + n) := by
  induction ks with
  | nil => intro x y; rfl
  | cons k ks ih =>
    intro x y
    simp only [hexPath]
    rw [hexStep_tile k x y m n hm, ih]

/-! ## The square -/

theorem moore_sum (S : Int → Int → Int) (x y : Int) : (planeNbrs (fun _ => moore8) S x y).sum =
    S (x - 1) (y - 1) + S (x - 1) y + S (x - 1) (y + 1) + S x (y - 1) + S x (y + 1) + S (x + 1) (y - 1) + S (x + 1) y +
      S (x + 1) (y + 1) := by
  unfold planeNbrs moore8
  simp only [List.map_cons, List.map_nil, List.sum_cons, List.sum_nil, Int.add_zero]
  simp only [show x + -1 = x - 1 by omega, show y + -1 = y - 1 by omega]
  omega

/-- A cell one step outside a full square outline has one to three neighbours on it. -/
theorem square_sum {U : Int → Int → Int} {t : Nat} (hb : ∀ i j, 0 ≤ U i j ∧ U i j ≤ 1)
    (hz : ∀ i j, t < chebyshev i j → U i j = 0) (ho : ∀ i j, chebyshev i j = t → U i j = 1) (i j : Int)
    (h : chebyshev i j = t + 1) :
    1 ≤ U i j + (planeNbrs (fun _ => moore8) U i j).sum ∧ U i j + (planeNbrs (fun _ => moore8) U i j).sum ≤ 3 := by
  rw [moore_sum]
  have h' : max i.natAbs j.natAbs = t + 1 := h
  have c0 := hz i j (by omega)
  have cz : ∀ i j : Int, t < i.natAbs ∨ t < j.natAbs → U i j = 0 := by
    intro i j h
    apply hz
    unfold chebyshev
    omega
  have co : ∀ i j : Int, (i.natAbs = t ∧ j.natAbs ≤ t) ∨ (j.natAbs = t ∧ i.natAbs ≤ t) → U i j = 1 := by
    intro i j h
    apply ho
    unfold chebyshev
    omega
  have b1 := hb (i - 1) (j - 1)
  have b2 := hb (i - 1) j
  have b3 := hb (i - 1) (j + 1)
  have b4 := hb i (j - 1)
  have b5 := hb i (j + 1)
  have b6 := hb (i + 1) (j - 1)
  have b7 := hb (i + 1) j
  have b8 := hb (i + 1) (j + 1)
  rw [c0]
  by_cases hi : i.natAbs = t + 1
  · have z4 := cz i (j - 1) (by omega)
    have z5 := cz i (j + 1) (by omega)
    rcases Int.natAbs_eq i with hi' | hi'
    · have z6 := cz (i + 1) (j - 1) (by omega)
      have z7 := cz (i + 1) j (by omega)
      have z8 := cz (i + 1) (j + 1) (by omega)
      have : U (i - 1) (j - 1) = 1 ∨ U (i - 1) j = 1 ∨ U (i - 1) (j + 1) = 1 := by
        by_cases hj : j.natAbs = t + 1
        · rcases Int.natAbs_eq j with hj' | hj'
          · exact Or.inl (co _ _ (by omega))
          · exact Or.inr (Or.inr (co _ _ (by omega)))
        · exact Or.inr (Or.inl (co _ _ (by omega)))
      clear hz ho h h' cz co hi hi'
      omega
    · have z6 := cz (i - 1) (j - 1) (by omega)
      have z7 := cz (i - 1) j (by omega)
      have z8 := cz (i - 1) (j + 1) (by omega)
      have : U (i + 1) (j - 1) = 1 ∨ U (i + 1) j = 1 ∨ U (i + 1) (j + 1) = 1 := by
        by_cases hj : j.natAbs = t + 1
        · rcases Int.natAbs_eq j with hj' | hj'
          · exact Or.inl (co _ _ (by omega))
          · exact Or.inr (Or.inr (co _ _ (by omega)))
        · exact Or.inr (Or.inl (co _ _ (by omega)))
      clear hz ho h h' cz co hi hi'
      omega
  · have z2 := cz (i - 1) j (by omega)
    have z7 := cz (i + 1) j (by omega)
    rcases Int.natAbs_eq j with hj' | hj'
    · have z3 := cz (i - 1) (j + 1) (by omega)
      have z5 := cz i (j + 1) (by omega)
      have z8 := cz (i + 1) (j + 1) (by omega)
      have o4 := co i (j - 1) (by omega)
      clear hz ho h h' cz co hi hj'
      omega
    · have z3 := cz (i - 1) (j - 1) (by omega)
      have z5 := cz i (j - 1) (by omega)
      have z8 := cz (i + 1) (j - 1) (by omega)
      have o4 := co i (j + 1) (by omega)
      clear hz ho h h' cz co hi hj'
      omega

/-- A cell further outside has none. -/
theorem square_none {U : Int → Int → Int} {t : Nat} (hz : ∀ i j, t < chebyshev i j → U i j = 0) (i j : Int)
    (h : t + 1 < chebyshev i j) : U i j + (planeNbrs (fun _ => moore8) U i j).sum = 0 := by
  rw [hz i j (by omega), sum_zero_of_all]
  · rfl
  · intro u hu
    obtain ⟨d, hd, rfl⟩ := List.mem_map.1 hu
    have hs := moore_directions.small d hd
    apply hz
    unfold chebyshev at h ⊢
    omega

theorem square_run {R : Nat} (h0 : R % 2 = 0) (h1 : R / 2 % 2 = 1) (h2 : R / 4 % 2 = 1) (h3 : R / 8 % 2 = 1) (t : Nat) :
    ∀ i j : Int,
      (0 ≤ planeCA (fun _ => moore8) (totalOf R) (loneCell 0 0) t i j ∧
        planeCA (fun _ => moore8) (totalOf R) (loneCell 0 0) t i j ≤ 1) ∧
      (t < chebyshev i j → planeCA (fun _ => moore8) (totalOf R) (loneCell 0 0) t i j = 0) ∧
      (chebyshev i j = t → planeCA (fun _ => moore8) (totalOf R) (loneCell 0 0) t i j = 1) := by
  induction t with
  | zero =>
    intro i j
    simp only [planeCA, loneCell, chebyshev]
    refine ⟨by split <;> simp, ?_, ?_⟩
    · intro h; rw [if_neg]; omega
    · intro h; rw [if_pos]; omega
  | succ t ih =>
    intro i j
    have hs : planeCA (fun _ => moore8) (totalOf R) (loneCell 0 0) (t + 1) i j =
        totalOf R (planeCA (fun _ => moore8) (totalOf R) (loneCell 0 0) t i j)
          (planeNbrs (fun _ => moore8) (planeCA (fun _ => moore8) (totalOf R) (loneCell 0 0) t) i j) := rfl
    rw [hs]
    clear hs
    generalize planeCA (fun _ => moore8) (totalOf R) (loneCell 0 0) t = U at ih ⊢
    refine ⟨by unfold totalOf; omega, ?_, ?_⟩
    · intro h
      rw [totalOf, square_none (fun i j => (ih i j).2.1) i j h]
      simp [h0]
    · intro h
      obtain ⟨s1, s2⟩ := square_sum (fun i j => (ih i j).1) (fun i j => (ih i j).2.1) (fun i j => (ih i j).2.2) i j h
      rw [totalOf]
      generalize U i j + (planeNbrs (fun _ => moore8) U i j).sum = v at s1 s2
      have : v = 1 ∨ v = 2 ∨ v = 3 := by omega
      rcases this with rfl | rfl | rfl <;> simp [h1, h2, h3]

/-- Moving the seed moves the run. -/
theorem planeCA_shift {V : Type} {D : List (Int × Int)} {F : V → List V → V} {S S' : Int → Int → V} (a b : Int)
    (h : ∀ x y, S (a + x) (b + y) = S' x y) (t : Nat) : ∀ x y,
      planeCA (fun _ => D) F S t (a + x) (b + y) = planeCA (fun _ => D) F S' t x y := by
  induction t with
  | zero => intro x y; exact h x y
  | succ t ih =>
    intro x y
    simp only [planeCA, planeNbrs]
    rw [ih]
    congr 1
    apply List.map_congr_left
    intro d _
    rw [Int.add_assoc, Int.add_assoc, ih]

/-! ## The state of `init_simple2d` on the torus -/

/-- The state with one cell in the middle. -/
def middleCell (rows cols : Nat) (a b : Nat) : Int := if a = rows / 2 ∧ b = cols / 2 then 1 else 0

theorem emod_middle {n : Nat} (hn : 0 < n) (x : Int) :
    (x % (n : Int)).toNat = n / 2 ↔ ∃ k : Int, x = ((n / 2 : Nat) : Int) + n * k := by
  have h1 := Int.emod_nonneg x (by omega : (n : Int) ≠ 0)
  have hd := Int.mul_ediv_add_emod x n
  have hlt : ((n / 2 : Nat) : Int) < n := by omega
  constructor
  · intro h
    exact ⟨x / n, by omega⟩
  · rintro ⟨k, rfl⟩
    rw [Int.add_mul_emod_self_left, Int.emod_eq_of_lt (by omega) hlt, Int.toNat_natCast]

theorem tiled_middle {rows cols : Nat} (hr : 0 < rows) (hc : 0 < cols) {x y : Int}
    (hx : (x - ((rows / 2 : Nat) : Int)).natAbs < rows) (hy : (y - ((cols / 2 : Nat) : Int)).natAbs < cols) :
    tiled rows cols (middleCell rows cols) x y = loneCell ((rows / 2 : Nat) : Int) ((cols / 2 : Nat) : Int) x y := by
  have key : ∀ {n : Nat}, 0 < n → ∀ {x : Int}, (x - ((n / 2 : Nat) : Int)).natAbs < n →
      ((x % (n : Int)).toNat = n / 2 ↔ x = ((n / 2 : Nat) : Int)) := by
    intro n hn x hx
    rw [emod_middle hn]
    constructor
    · rintro ⟨k, hk⟩
      have := Int.eq_zero_of_dvd_of_natAbs_lt_natAbs (d := (n : Int)) (n := x - ((n / 2 : Nat) : Int)) ⟨k, by omega⟩ (by omega)
      omega
    · intro h
      exact ⟨0, by omega⟩
  unfold tiled middleCell loneCell
  by_cases h : x = ((rows / 2 : Nat) : Int) ∧ y = ((cols / 2 : Nat) : Int)
  · rw [if_pos h, if_pos ⟨(key hr hx).2 h.1, (key hc hy).2 h.2⟩]
  · rw [if_neg h, if_neg (fun h' => h ⟨(key hr hx).1 h'.1, (key hc hy).1 h'.2⟩)]

/-- Away from the copies of the middle the torus behaves like the plane with a single cell. -/
theorem middle_run {rows cols : Nat} (hr : 0 < rows) (hc : 0 < cols) {D : Int → List (Int × Int)} {F : Int → List Int → Int}
    (hsm : ∀ x, ∀ d ∈ D x, d.1.natAbs ≤ 1 ∧ d.2.natAbs ≤ 1) {t : Nat} {x y : Int}
    (hx : (x - ((rows / 2 : Nat) : Int)).natAbs + t < rows) (hy : (y - ((cols / 2 : Nat) : Int)).natAbs + t < cols) :
    planeCA D F (tiled rows cols (middleCell rows cols)) t x y =
      planeCA D F (loneCell ((rows / 2 : Nat) : Int) ((cols / 2 : Nat) : Int)) t x y := by
  apply planeCA_cone hsm
  intro i j hi hj
  exact tiled_middle hr hc (by omega) (by omega)

theorem torusLabel_lt {rows cols : Nat} (hr : 0 < rows) (hc : 0 < cols) (p : Int × Int) : torusLabel rows cols p < rows * cols :=
  label_lt (emod_toNat_lt _ hr) (emod_toNat_lt _ hc)

/-- The value of the run at the label of a cell. -/
theorem run_at_label {rows cols : Nat} (hr : 0 < rows) (hc : 0 < cols) {V : Type} {D : Int → List (Int × Int)} {F : V → List V → V}
    {s : Nat → Nat → V} (hp : ∀ x, D (x % (rows : Int)) = D x) (t : Nat) (p : Int × Int) :
    planeCA D F (tiled rows cols s) t ((torusLabel rows cols p / cols : Nat) : Int) ((torusLabel rows cols p % cols : Nat) : Int) =
      planeCA D F (tiled rows cols s) t p.1 p.2 := by
  have l2 := emod_toNat_lt p.2 hc
  have q1 : torusLabel rows cols p / cols = (p.1 % (rows : Int)).toNat := by
    unfold torusLabel
    rw [Nat.mul_comm, Nat.mul_add_div (by omega), Nat.div_eq_of_lt l2, Nat.add_zero]
  have q2 : torusLabel rows cols p % cols = (p.2 % (cols : Int)).toNat := by
    unfold torusLabel
    rw [Nat.mul_comm, Nat.mul_add_mod, Nat.mod_eq_of_lt l2]
  have n1 : (0 : Int) ≤ p.1 % (rows : Int) := Int.emod_nonneg _ (by omega)
  have n2 : (0 : Int) ≤ p.2 % (cols : Int) := Int.emod_nonneg _ (by omega)
  rw [q1, q2]
  apply planeCA_tiled hp
  · rw [Int.toNat_of_nonneg n1, Int.emod_emod_of_dvd _ (Int.dvd_refl _)]
  · rw [Int.toNat_of_nonneg n2, Int.emod_emod_of_dvd _ (Int.dvd_refl _)]

end Verif
