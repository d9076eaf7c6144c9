import Verif.Spec.Line
import Verif.Spec.Outline
import Verif.Spec.Topology
import Verif.Proofs.Additive
import Verif.Proofs.Traffic
/-! # Diagonals of elementary cellular automata -/

namespace Verif
open Spec

/-! ## A variable with two values that is driven periodically -/

theorem driven_same {x : Nat → Nat} {g : Nat → Nat → Nat} (hstep : ∀ t, x (t + 1) = g t (x t)) {q t1 : Nat}
    (hg : ∀ t, t1 ≤ t → ∀ v, g (t + q) v = g t v) (h : x (t1 + q) = x t1) : ∀ t, t1 ≤ t → x (t + q) = x t := by
  intro t ht
  obtain ⟨m, rfl⟩ := Nat.exists_eq_add_of_le ht
  clear ht
  induction m with
  | zero => exact h
  | succ m ih =>
    rw [show t1 + (m + 1) + q = (t1 + m + q) + 1 by omega, hstep, hg _ (by omega), ih, show t1 + (m + 1) = (t1 + m) + 1 by omega, hstep]

theorem driven_period {x : Nat → Nat} (hx : ∀ t, x t < 2) {g : Nat → Nat → Nat} (hstep : ∀ t, x (t + 1) = g t (x t)) {p t0 : Nat}
    (hg : ∀ t, t0 ≤ t → ∀ v, g (t + p) v = g t v) : ∀ t, t0 + p ≤ t → x (t + 2 * p) = x t := by
  have hg2 : ∀ t, t0 ≤ t → ∀ v, g (t + 2 * p) v = g t v := by
    intro t ht v
    rw [show t + 2 * p = (t + p) + p by omega, hg _ (by omega), hg _ ht]
  intro t ht
  have a := hx t0
  have b := hx (t0 + p)
  have c := hx (t0 + p + p)
  by_cases h1 : x (t0 + p) = x t0
  · have := driven_same hstep hg h1
    rw [show t + 2 * p = (t + p) + p by omega, this _ (by omega), this _ (by omega)]
  · by_cases h2 : x (t0 + 2 * p) = x t0
    · exact driven_same hstep hg2 h2 t (by omega)
    · have h3 : x (t0 + p + p) = x (t0 + p) := by
        rw [show t0 + 2 * p = t0 + p + p by omega] at h2
        omega
      have := driven_same hstep (fun t ht => hg t (by omega)) h3
      rw [show t + 2 * p = (t + p) + p by omega, this _ (by omega), this _ (by omega)]

/-! ## The line -/

theorem lineEca_lt {R : Nat} {s : Int → Nat} (hs : ∀ x, s x < 2) (t : Nat) (x : Int) : lineEca R s t x < 2 := by
  cases t with
  | zero => exact hs x
  | succ t => exact ecaRule_lt _ _ _ _

theorem ecaRule_even {R : Nat} (hR : R % 2 = 0) : ecaRule R 0 0 0 = 0 := by
  unfold ecaRule
  simpa using hR

/-- What is left of the light cone stays 0. -/
theorem line_left {R : Nat} (hR : R % 2 = 0) {s : Int → Nat} {c : Int} (h0 : ∀ x, x < c → s x = 0) :
    ∀ (t : Nat) (x : Int), x < c - t → lineEca R s t x = 0 := by
  intro t
  induction t with
  | zero => intro x hx; exact h0 x (by simpa using hx)
  | succ t ih =>
    intro x hx
    rw [lineEca, ih _ (by omega), ih _ (by omega), ih _ (by omega), ecaRule_even hR]

/-- The left diagonals repeat. -/
theorem line_diagonals {R : Nat} (hR : R % 2 = 0) {s : Int → Nat} (hs : ∀ x, s x < 2) {c : Int} (h0 : ∀ x, x < c → s x = 0) :
    ∀ (k : Nat) (j : Int), j ≤ k → ∀ t : Nat, 2 ^ k ≤ t →
      lineEca R s (t + 2 ^ k) (c - (t + 2 ^ k : Nat) + j) = lineEca R s t (c - t + j) := by
  have step : ∀ (t : Nat) (j : Int), lineEca R s (t + 1) (c - (t + 1 : Nat) + j) =
      ecaRule R (lineEca R s t (c - t + (j - 2))) (lineEca R s t (c - t + (j - 1))) (lineEca R s t (c - t + j)) := by
    intro t j
    rw [lineEca]
    congr 2 <;> omega
  have neg : ∀ (t : Nat) (j : Int), j < 0 → lineEca R s t (c - t + j) = 0 := fun t j hj => line_left hR h0 t _ (by omega)
  intro k
  induction k with
  | zero =>
    intro j hj t ht
    by_cases hj0 : j < 0
    · rw [neg _ _ hj0, neg _ _ hj0]
    · have hj' : j = 0 := by omega
      subst hj'
      obtain ⟨t', rfl⟩ : ∃ t', t = t' + 1 := ⟨t - 1, by omega⟩
      show lineEca R s (t' + 1 + 1) (c - (t' + 1 + 1 : Nat) + 0) = _
      have one : ∀ t, lineEca R s (t + 1) (c - (t + 1 : Nat) + 0) = ecaRule R 0 0 (lineEca R s t (c - t + 0)) := by
        intro t
        rw [step, neg _ _ (by decide), neg _ _ (by decide)]
      rw [one, one]
      have hv := lineEca_lt (R := R) hs t' (c - t' + 0)
      generalize lineEca R s t' (c - t' + 0) = v at hv
      have hv : v = 0 ∨ v = 1 := by omega
      rcases hv with rfl | rfl
      · rw [ecaRule_even hR, ecaRule_even hR]
      · have hb := ecaRule_lt R 0 0 1
        have hb : ecaRule R 0 0 1 = 0 ∨ ecaRule R 0 0 1 = 1 := by omega
        rcases hb with hb | hb
        · rw [hb, ecaRule_even hR]
        · rw [hb, hb]
  | succ k ih =>
    intro j hj t ht
    have hp : (2 : Nat) ^ (k + 1) = 2 * 2 ^ k := by rw [Nat.pow_succ]; omega
    rw [hp] at ht ⊢
    by_cases hjk : j ≤ k
    · have h1 := ih j hjk (t + 2 ^ k) (by omega)
      have h2 := ih j hjk t (by omega)
      rw [show t + 2 * 2 ^ k = t + 2 ^ k + 2 ^ k by omega, h1, h2]
    · have hj' : j = (k + 1 : Nat) := by omega
      have := driven_period (x := fun t => lineEca R s t (c - t + j)) (fun t => lineEca_lt hs t _)
        (g := fun t v => ecaRule R (lineEca R s t (c - t + (j - 2))) (lineEca R s t (c - t + (j - 1))) v)
        (fun t => step t j) (p := 2 ^ k) (t0 := 2 ^ k) (by
          intro t ht v
          show ecaRule R (lineEca R s (t + 2 ^ k) (c - (t + 2 ^ k : Nat) + (j - 2))) (lineEca R s (t + 2 ^ k) (c - (t + 2 ^ k : Nat) + (j - 1))) v = _
          rw [ih (j - 2) (by omega) t ht, ih (j - 1) (by omega) t ht]) t (by omega)
      exact this

/-- The left edge. -/
theorem line_edge {R : Nat} (hR : R % 2 = 0) {s : Int → Nat} {c : Int} (h0 : ∀ x, x < c → s x = 0) (hc : s c = 1) (t : Nat) :
    lineEca R s t (c - t) = if t = 0 then 1 else R / 2 % 2 := by
  have hb : ecaRule R 0 0 1 = R / 2 % 2 := rfl
  induction t with
  | zero => simpa [lineEca] using hc
  | succ t ih =>
    rw [if_neg (by omega), lineEca, line_left hR h0 t _ (by omega), line_left hR h0 t _ (by omega),
      show c - ((t + 1 : Nat) : Int) + 1 = c - t by omega, ih]
    split
    · exact hb
    · have : R / 2 % 2 = 0 ∨ R / 2 % 2 = 1 := by omega
      rcases this with h | h
      · rw [h, ecaRule_even hR]
      · rw [h, hb, h]

theorem line_mirror {R : Nat} (hR : R < 256) {s : Int → Nat} (hs : ∀ x, s x < 2) :
    ∀ (t : Nat) (x : Int), lineEca (mirrorRule R) (fun y => s (-y)) t x = lineEca R s t (-x) := by
  intro t
  induction t with
  | zero => intro x; rfl
  | succ t ih =>
    intro x
    rw [lineEca, lineEca, ih, ih, ih, show -(x - 1) = -x + 1 by omega, show -(x + 1) = -x - 1 by omega]
    exact mirror_local ⟨R, hR⟩ ⟨_, lineEca_lt hs t _⟩ ⟨_, lineEca_lt hs t _⟩ ⟨_, lineEca_lt hs t _⟩

theorem mirrorRule_even : ∀ R : Fin 256, mirrorRule R % 2 = R.1 % 2 := by decide +kernel
theorem mirrorRule_edge : ∀ R : Fin 256, mirrorRule R / 2 % 2 = R.1 / 16 % 2 := by decide +kernel

/-- The right diagonals repeat. -/
theorem line_diagonals_right {R : Nat} (hR : R % 2 = 0) (hR' : R < 256) {s : Int → Nat} (hs : ∀ x, s x < 2) {c : Int}
    (h0 : ∀ x, c < x → s x = 0) (k : Nat) (t : Nat) (ht : 2 ^ k ≤ t) :
    lineEca R s (t + 2 ^ k) (c + (t + 2 ^ k : Nat) - k) = lineEca R s t (c + t - k) := by
  have := line_diagonals (R := mirrorRule R) (s := fun y => s (-y)) (c := -c) (by rw [mirrorRule_even ⟨R, hR'⟩]; exact hR)
    (fun x => hs _) (fun x hx => h0 _ (by omega)) k k (Int.le_refl _) t ht
  rw [line_mirror hR' hs, line_mirror hR' hs] at this
  rw [show c + ((t + 2 ^ k : Nat) : Int) - k = -(-c - ((t + 2 ^ k : Nat) : Int) + k) by omega,
    show c + (t : Int) - k = -(-c - (t : Int) + k) by omega]
  exact this

theorem line_edge_right {R : Nat} (hR : R % 2 = 0) (hR' : R < 256) {s : Int → Nat} (hs : ∀ x, s x < 2) {c : Int}
    (h0 : ∀ x, c < x → s x = 0) (hc : s c = 1) (t : Nat) : lineEca R s t (c + t) = if t = 0 then 1 else R / 16 % 2 := by
  have := line_edge (R := mirrorRule R) (s := fun y => s (-y)) (c := -c) (by rw [mirrorRule_even ⟨R, hR'⟩]; exact hR)
    (fun x hx => h0 _ (by omega)) (by simpa using hc) t
  rw [line_mirror hR' hs, mirrorRule_edge ⟨R, hR'⟩] at this
  rw [show c + (t : Int) = -(-c - (t : Int)) by omega]
  exact this

/-! ## The ring -/

theorem unrolled_run {n : Nat} (hn : 0 < n) (R : Nat) (s : Nat → Nat) :
    ∀ (t : Nat) (i : Int), unrolled n (eca n R s t) i = lineEca R (unrolled n s) t i := by
  intro t
  induction t with
  | zero => intro i; rfl
  | succ t ih =>
    intro i
    rw [eca_succ_one, unrolled_step hn, ih, ih, ih, lineEca]

theorem line_congr {R : Nat} {s s' : Int → Nat} : ∀ (t : Nat) (i : Int), (∀ y, i - t ≤ y → y ≤ i + t → s y = s' y) →
    lineEca R s t i = lineEca R s' t i := by
  intro t
  induction t with
  | zero => intro i h; exact h i (by simp) (by simp)
  | succ t ih =>
    intro i h
    rw [lineEca, lineEca, ih (i - 1) (fun y h1 h2 => h y (by omega) (by omega)), ih i (fun y h1 h2 => h y (by omega) (by omega)),
      ih (i + 1) (fun y h1 h2 => h y (by omega) (by omega))]

/-- The `w` cells from cell `c` on, and 0 elsewhere. -/
def cutOut (n c w : Nat) (s : Nat → Nat) (x : Int) : Nat := if (c : Int) ≤ x ∧ x < c + w then unrolled n s x else 0

theorem cutOut_lt {n c w : Nat} {s : Nat → Nat} (hn : 0 < n) (hs : BinaryRow n s) (x : Int) : cutOut n c w s x < 2 := by
  unfold cutOut
  split
  · exact unrolled_lt hn hs x
  · decide

/-- Until the pattern has gone half way around, the ring is the line. -/
theorem ring_cutOut {n R c w : Nat} {s : Nat → Nat} (hw0 : 0 < w) (h0 : ∀ k : Nat, w ≤ k → k < n → s (ringCell n c k) = 0) {t : Nat}
    (ht : w + 2 * t ≤ n) {i : Int} (h1 : -(t : Int) ≤ i) (h2 : i < w + t) :
    eca n R s t (ringCell n c i) = lineEca R (cutOut n c w s) t (c + i) := by
  have hn : 0 < n := by omega
  have : eca n R s t (ringCell n c i) = unrolled n (eca n R s t) (c + i) := rfl
  rw [this, unrolled_run hn]
  apply line_congr
  intro y hy1 hy2
  unfold cutOut
  split
  · rfl
  · by_cases hy : y < c
    · have := h0 (y - c + n).toNat (by omega) (by omega)
      rw [← this, ← unrolled_add s y 1]
      unfold unrolled ringCell
      congr 3
      omega
    · have := h0 (y - c).toNat (by omega) (by omega)
      rw [← this]
      unfold unrolled ringCell
      congr 3
      omega

theorem cutOut_left {n c w : Nat} {s : Nat → Nat} (x : Int) (hx : x < c) : cutOut n c w s x = 0 := if_neg (by omega)
theorem cutOut_right {n c w : Nat} {s : Nat → Nat} (x : Int) (hx : (c : Int) + w - 1 < x) : cutOut n c w s x = 0 := if_neg (by omega)

/-! ## Pascal's triangle -/

theorem rule90_sum : ∀ a b c : Fin 2, ecaRule 90 a b c = (a.1 + c.1) % 2 := by decide
theorem rule60_sum : ∀ a b c : Fin 2, ecaRule 60 a b c = (a.1 + b.1) % 2 := by decide

theorem line_pascal90 {s : Int → Nat} {c : Int} (h0 : ∀ x, x ≠ c → s x = 0) (hc : s c = 1) :
    ∀ (t k : Nat), lineEca 90 s t (c - t + 2 * k) = pascal t k % 2 ∧ lineEca 90 s t (c - t + 2 * k + 1) = 0 := by
  have hs : ∀ x, s x < 2 := by
    intro x
    by_cases h : x = c
    · rw [h, hc]; decide
    · rw [h0 x h]; decide
  have step : ∀ (t : Nat) (x : Int), lineEca 90 s (t + 1) x = (lineEca 90 s t (x - 1) + lineEca 90 s t (x + 1)) % 2 := fun t x =>
    rule90_sum ⟨_, lineEca_lt hs t _⟩ ⟨_, lineEca_lt hs t _⟩ ⟨_, lineEca_lt hs t _⟩
  have left := line_left (R := 90) (by decide) (fun x (hx : x < c) => h0 x (by omega))
  intro t
  induction t with
  | zero =>
    intro k
    refine ⟨?_, h0 _ (by omega)⟩
    cases k with
    | zero => simpa [lineEca, pascal] using hc
    | succ k => exact h0 _ (by omega)
  | succ t ih =>
    intro k
    refine ⟨?_, ?_⟩
    · rw [step]
      cases k with
      | zero =>
        rw [left t _ (by omega), show c - ((t + 1 : Nat) : Int) + 2 * (0 : Nat) + 1 = c - t + 2 * (0 : Nat) by omega, (ih 0).1]
        cases t <;> rfl
      | succ k =>
        rw [show c - ((t + 1 : Nat) : Int) + 2 * (k + 1 : Nat) - 1 = c - t + 2 * (k : Nat) by omega,
          show c - ((t + 1 : Nat) : Int) + 2 * (k + 1 : Nat) + 1 = c - t + 2 * (k + 1 : Nat) by omega, (ih k).1, (ih (k + 1)).1, pascal]
        omega
    · rw [step]
      cases k with
      | zero =>
        rw [left t _ (by omega), show c - ((t + 1 : Nat) : Int) + 2 * (0 : Nat) + 1 + 1 = c - t + 2 * (0 : Nat) + 1 by omega, (ih 0).2]
      | succ k =>
        rw [show c - ((t + 1 : Nat) : Int) + 2 * (k + 1 : Nat) + 1 - 1 = c - t + 2 * (k : Nat) + 1 by omega,
          show c - ((t + 1 : Nat) : Int) + 2 * (k + 1 : Nat) + 1 + 1 = c - t + 2 * (k + 1 : Nat) + 1 by omega, (ih k).2, (ih (k + 1)).2]

theorem line_pascal60 {s : Int → Nat} {c : Int} (h0 : ∀ x, x ≠ c → s x = 0) (hc : s c = 1) :
    ∀ t : Nat, (∀ k : Nat, lineEca 60 s t (c + k) = pascal t k % 2) ∧ ∀ x, x < c → lineEca 60 s t x = 0 := by
  have hs : ∀ x, s x < 2 := by
    intro x
    by_cases h : x = c
    · rw [h, hc]; decide
    · rw [h0 x h]; decide
  have step : ∀ (t : Nat) (x : Int), lineEca 60 s (t + 1) x = (lineEca 60 s t (x - 1) + lineEca 60 s t x) % 2 := fun t x =>
    rule60_sum ⟨_, lineEca_lt hs t _⟩ ⟨_, lineEca_lt hs t _⟩ ⟨_, lineEca_lt hs t _⟩
  intro t
  induction t with
  | zero =>
    refine ⟨fun k => ?_, fun x hx => h0 x (by omega)⟩
    cases k with
    | zero => simpa [lineEca, pascal] using hc
    | succ k => exact h0 _ (by omega)
  | succ t ih =>
    refine ⟨fun k => ?_, fun x hx => ?_⟩
    · rw [step]
      cases k with
      | zero =>
        rw [ih.2 _ (by omega), ih.1 0]
        cases t <;> rfl
      | succ k =>
        rw [show c + ((k + 1 : Nat) : Int) - 1 = c + (k : Nat) by omega, ih.1 k, ih.1 (k + 1), pascal]
        omega
    · rw [step, ih.2 _ (by omega), ih.2 _ hx]

/-! ## Rule 30 -/

/-- The first four diagonals of rule 30 from a single cell. -/
theorem line_rule30 {s : Int → Nat} {c : Int} (h0 : ∀ x, x ≠ c → s x = 0) (hc : s c = 1) :
    ∀ t : Nat, lineEca 30 s (t + 2) (c - (t + 2 : Nat)) = 1 ∧ lineEca 30 s (t + 2) (c - (t + 2 : Nat) + 1) = 1 ∧
      lineEca 30 s (t + 2) (c - (t + 2 : Nat) + 2) = 0 ∧ lineEca 30 s (t + 2) (c - (t + 2 : Nat) + 3) = t % 2 := by
  have left := line_left (R := 30) (by decide) (fun x (hx : x < c) => h0 x (by omega))
  have st : ∀ (t : Nat) (x y : Int), y = x + 1 → lineEca 30 s (t + 1) x =
      ecaRule 30 (lineEca 30 s t (y - 2)) (lineEca 30 s t (y - 1)) (lineEca 30 s t y) := by
    intro t x y hy
    subst hy
    rw [lineEca]
    congr 2 <;> omega
  intro t
  induction t with
  | zero =>
    have z : ∀ x : Int, lineEca 30 s 0 x = if x = c then 1 else 0 := by
      intro x
      by_cases h : x = c
      · rw [if_pos h, h]; exact hc
      · rw [if_neg h]; exact h0 x h
    have o : ∀ x : Int, lineEca 30 s 1 x = if c - 1 ≤ x ∧ x ≤ c + 1 then 1 else 0 := by
      intro x
      rw [lineEca, z, z, z]
      by_cases h1 : x = c - 1
      · rw [if_neg (by omega), if_neg (by omega), if_pos (by omega), if_pos (by omega)]; rfl
      · by_cases h2 : x = c
        · rw [if_neg (by omega), if_pos (by omega), if_neg (by omega), if_pos (by omega)]; rfl
        · by_cases h3 : x = c + 1
          · rw [if_pos (by omega), if_neg (by omega), if_neg (by omega), if_pos (by omega)]; rfl
          · rw [if_neg (by omega), if_neg (by omega), if_neg (by omega), if_neg (by omega)]; rfl
    refine ⟨?_, ?_, ?_, ?_⟩
    · rw [st 1 _ (c - 1) (by omega), o, o, o, if_neg (by omega), if_neg (by omega), if_pos (by omega)]; rfl
    · rw [st 1 _ c (by omega), o, o, o, if_neg (by omega), if_pos (by omega), if_pos (by omega)]; rfl
    · rw [st 1 _ (c + 1) (by omega), o, o, o, if_pos (by omega), if_pos (by omega), if_pos (by omega)]; rfl
    · rw [st 1 _ (c + 2) (by omega), o, o, o, if_pos (by omega), if_pos (by omega), if_neg (by omega)]; rfl
  | succ t ih =>
    obtain ⟨i0, i1, i2, i3⟩ := ih
    have e1 : c - ((t + 2 : Nat) : Int) + 1 - 1 = c - (t + 2 : Nat) := by omega
    have e2 : c - ((t + 2 : Nat) : Int) + 2 - 2 = c - (t + 2 : Nat) := by omega
    have e3 : c - ((t + 2 : Nat) : Int) + 2 - 1 = c - (t + 2 : Nat) + 1 := by omega
    have e4 : c - ((t + 2 : Nat) : Int) + 3 - 2 = c - (t + 2 : Nat) + 1 := by omega
    have e5 : c - ((t + 2 : Nat) : Int) + 3 - 1 = c - (t + 2 : Nat) + 2 := by omega
    refine ⟨?_, ?_, ?_, ?_⟩
    · rw [show t + 1 + 2 = (t + 2) + 1 by omega, st (t + 2) _ (c - (t + 2 : Nat)) (by omega), left _ _ (by omega), left _ _ (by omega), i0]; rfl
    · rw [show t + 1 + 2 = (t + 2) + 1 by omega, st (t + 2) _ (c - (t + 2 : Nat) + 1) (by omega), left _ _ (by omega), e1, i0, i1]; rfl
    · rw [show t + 1 + 2 = (t + 2) + 1 by omega, st (t + 2) _ (c - (t + 2 : Nat) + 2) (by omega), e2, e3, i0, i1, i2]; rfl
    · rw [show t + 1 + 2 = (t + 2) + 1 by omega, st (t + 2) _ (c - (t + 2 : Nat) + 3) (by omega), e4, e5, i1, i2, i3]
      have : t % 2 = 0 ∨ t % 2 = 1 := by omega
      rcases this with h | h
      · rw [h, show (t + 1) % 2 = 1 by omega]; rfl
      · rw [h, show (t + 1) % 2 = 0 by omega]; rfl

end Verif
