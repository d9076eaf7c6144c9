import Verif.Spec.Elementary
import Verif.Props.SecondOrder
/-! # Lemmas about reversible and number conserving elementary cellular automata -/

namespace Verif

theorem ecaRule_lt (R a b c : Nat) : ecaRule R a b c < 2 := Nat.mod_lt _ (by decide)

theorem eca_one (n R : Nat) (s : Nat → Nat) (x : Nat) :
    eca n R s 1 x = ecaRule R (s ((x + n - 1) % n)) (s x) (s ((x + 1) % n)) := rfl

/-! ## Certificates of reversibility

Two rows are read side by side from left to right; the state at a cell is the pair of both rows there and at the next cell.  If the
successors of the rows agree, the rank never rises, so that it is constant around the ring; as long as it is constant, the rows
either agree or the phase advances by one modulo `m` with every cell. -/

/-- Entry of a table for the state `a b / a' b'`. -/
def pairEntry (t : List Nat) (a b a' b' : Nat) : Nat := t.getD (8 * a + 4 * b + 2 * a' + b') 0

/-- What the certificate has to satisfy. -/
def certOk (R m : Nat) (rank phase : List Nat) : Prop :=
  ∀ a b c a' b' c' : Fin 2, ecaRule R a b c = ecaRule R a' b' c' →
    pairEntry rank b c b' c' ≤ pairEntry rank a b a' b' ∧
    (pairEntry rank b c b' c' = pairEntry rank a b a' b' →
      ((a = a' ∧ b = b') ∧ (b = b' ∧ c = c')) ∨
      (¬ (a = a' ∧ b = b') ∧ ¬ (b = b' ∧ c = c') ∧
        pairEntry phase b c b' c' % m = (pairEntry phase a b a' b' + 1) % m))

instance (R m : Nat) (rank phase : List Nat) : Decidable (certOk R m rank phase) := by unfold certOk; infer_instance

theorem antitone_ring {r : Nat → Nat} {n : Nat} (h : ∀ i, r (i + 1) ≤ r i) (hn : r n = r 0) : ∀ i, i < n → r (i + 1) = r i := by
  have mono : ∀ i k, r (i + k) ≤ r i := by
    intro i k
    induction k with
    | zero => exact Nat.le_refl _
    | succ k ih => exact Nat.le_trans (h (i + k)) ih
  intro i hi
  have h1 := mono 0 i
  have h2 := mono (i + 1) (n - (i + 1))
  rw [show i + 1 + (n - (i + 1)) = n by omega] at h2
  rw [Nat.zero_add] at h1
  have := h i
  omega

theorem certified {n R m : Nat} {rank phase : List Nat} (hc : certOk R m rank phase) (hn : 0 < n) (hm : n % m ≠ 0) :
    ReversibleOn n R := by
  intro s s' hs hs' he
  -- the rows continued periodically
  have hb : ∀ i, s (i % n) < 2 := fun i => hs _ (Nat.mod_lt _ hn)
  have hb' : ∀ i, s' (i % n) < 2 := fun i => hs' _ (Nat.mod_lt _ hn)
  have hstep : ∀ i, ecaRule R (s (i % n)) (s ((i + 1) % n)) (s ((i + 2) % n)) =
      ecaRule R (s' (i % n)) (s' ((i + 1) % n)) (s' ((i + 2) % n)) := by
    intro i
    have := he ((i + 1) % n) (Nat.mod_lt _ hn)
    rw [eca_one, eca_one] at this
    have e1 : ((i + 1) % n + n - 1) % n = i % n := by
      rw [show (i + 1) % n + n - 1 = (i + 1) % n + (n - 1) by omega, Nat.mod_add_mod, show i + 1 + (n - 1) = i + n by omega,
        Nat.add_mod_right]
    have e2 : ((i + 1) % n + 1) % n = (i + 2) % n := by rw [Nat.mod_add_mod]
    rw [e1, e2] at this
    exact this
  have hcert := fun i => hc ⟨_, hb i⟩ ⟨_, hb (i + 1)⟩ ⟨_, hb (i + 2)⟩ ⟨_, hb' i⟩ ⟨_, hb' (i + 1)⟩ ⟨_, hb' (i + 2)⟩ (hstep i)
  simp only [Fin.mk.injEq] at hcert
  let rk : Nat → Nat := fun i => pairEntry rank (s (i % n)) (s ((i + 1) % n)) (s' (i % n)) (s' ((i + 1) % n))
  let ph : Nat → Nat := fun i => pairEntry phase (s (i % n)) (s ((i + 1) % n)) (s' (i % n)) (s' ((i + 1) % n))
  have hper : (n + 1) % n = (0 + 1) % n := by rw [show n + 1 = 0 + 1 + n by omega, Nat.add_mod_right]
  have hconst := antitone_ring (r := rk) (n := n) (fun i => (hcert i).1) (by
    show pairEntry _ _ _ _ _ = pairEntry _ _ _ _ _
    rw [hper, Nat.mod_self, Nat.zero_mod])
  have hnext := fun i hi => (hcert i).2 (hconst i hi)
  by_cases h0 : s (0 % n) = s' (0 % n) ∧ s ((0 + 1) % n) = s' ((0 + 1) % n)
  · have hall : ∀ i, i ≤ n → s (i % n) = s' (i % n) ∧ s ((i + 1) % n) = s' ((i + 1) % n) := by
      intro i
      induction i with
      | zero => intro _; exact h0
      | succ i ih =>
        intro hi
        rcases hnext i (by omega) with h | h
        · exact h.2
        · exact absurd (ih (by omega)) h.1
    intro x hx
    have := (hall x (by omega)).1
    rwa [Nat.mod_eq_of_lt hx] at this
  · exfalso
    have hall : ∀ i, i ≤ n → ¬ (s (i % n) = s' (i % n) ∧ s ((i + 1) % n) = s' ((i + 1) % n)) ∧ ph i % m = (ph 0 + i) % m := by
      intro i
      induction i with
      | zero => intro _; exact ⟨h0, rfl⟩
      | succ i ih =>
        intro hi
        obtain ⟨a1, a2⟩ := ih (by omega)
        rcases hnext i (by omega) with h | h
        · exact absurd h.1 a1
        · refine ⟨h.2.1, ?_⟩
          have e : ph (i + 1) % m = (ph i + 1) % m := h.2.2
          rw [e, Nat.add_mod, a2, ← Nat.add_mod, Nat.add_assoc]
    have hn' := (hall n (Nat.le_refl n)).2
    have e0 : ph n = ph 0 := by
      show pairEntry _ _ _ _ _ = pairEntry _ _ _ _ _
      rw [hper, Nat.mod_self, Nat.zero_mod]
    rw [e0] at hn'
    apply hm
    have h1 := Nat.mod_add_div (ph 0) m
    have h2 := Nat.mod_add_div (ph 0 + n) m
    have hle : m * (ph 0 / m) ≤ m * ((ph 0 + n) / m) := Nat.mul_le_mul_left m (Nat.div_le_div_right (Nat.le_add_right _ _))
    have hd : n = m * ((ph 0 + n) / m - ph 0 / m) := by
      rw [Nat.mul_sub]
      omega
    rw [hd]
    exact Nat.mul_mod_right _ _

/-- The certificates: rule, modulus of the phase, ranks, phases. -/
def certificates : List (Nat × Nat × List Nat × List Nat) := [
  (15, 0, [2, 1, 0, 0, 1, 2, 0, 0, 0, 0, 2, 1, 0, 0, 1, 2], [0, 0, 0, 0, 0, 0, 0, 0, 0, 0, 0, 0, 0, 0, 0, 0]),
  (51, 0, [1, 0, 2, 0, 0, 1, 0, 2, 2, 0, 1, 0, 0, 2, 0, 1], [0, 0, 0, 0, 0, 0, 0, 0, 0, 0, 0, 0, 0, 0, 0, 0]),
  (85, 0, [0, 2, 1, 2, 2, 0, 2, 1, 1, 2, 0, 2, 2, 1, 2, 0], [0, 0, 0, 0, 0, 0, 0, 0, 0, 0, 0, 0, 0, 0, 0, 0]),
  (170, 0, [0, 2, 1, 2, 2, 0, 2, 1, 1, 2, 0, 2, 2, 1, 2, 0], [0, 0, 0, 0, 0, 0, 0, 0, 0, 0, 0, 0, 0, 0, 0, 0]),
  (204, 0, [1, 0, 2, 0, 0, 1, 0, 2, 2, 0, 1, 0, 0, 2, 0, 1], [0, 0, 0, 0, 0, 0, 0, 0, 0, 0, 0, 0, 0, 0, 0, 0]),
  (240, 0, [2, 1, 0, 0, 1, 2, 0, 0, 0, 0, 2, 1, 0, 0, 1, 2], [0, 0, 0, 0, 0, 0, 0, 0, 0, 0, 0, 0, 0, 0, 0, 0]),
  (45, 2, [5, 3, 3, 2, 3, 5, 1, 0, 3, 1, 5, 4, 2, 0, 4, 5], [0, 0, 1, 0, 0, 0, 1, 0, 1, 0, 0, 0, 0, 0, 0, 0]),
  (75, 2, [5, 4, 0, 2, 4, 5, 1, 3, 0, 1, 5, 3, 2, 3, 3, 5], [0, 0, 0, 0, 0, 0, 1, 0, 0, 0, 0, 1, 0, 0, 1, 0]),
  (89, 2, [0, 5, 1, 3, 5, 0, 4, 2, 1, 4, 0, 2, 3, 2, 2, 0], [0, 0, 0, 0, 0, 0, 1, 0, 0, 0, 0, 1, 0, 0, 1, 0]),
  (101, 2, [0, 2, 2, 3, 2, 0, 4, 1, 2, 4, 0, 5, 3, 1, 5, 0], [0, 0, 1, 0, 0, 0, 1, 0, 1, 0, 0, 0, 0, 0, 0, 0]),
  (154, 2, [0, 2, 2, 3, 2, 0, 4, 1, 2, 4, 0, 5, 3, 1, 5, 0], [0, 0, 1, 0, 0, 0, 1, 0, 1, 0, 0, 0, 0, 0, 0, 0]),
  (166, 2, [0, 5, 1, 3, 5, 0, 4, 2, 1, 4, 0, 2, 3, 2, 2, 0], [0, 0, 0, 0, 0, 0, 1, 0, 0, 0, 0, 1, 0, 0, 1, 0]),
  (180, 2, [5, 4, 0, 2, 4, 5, 1, 3, 0, 1, 5, 3, 2, 3, 3, 5], [0, 0, 0, 0, 0, 0, 1, 0, 0, 0, 0, 1, 0, 0, 1, 0]),
  (210, 2, [5, 3, 3, 2, 3, 5, 1, 0, 3, 1, 5, 4, 2, 0, 4, 5], [0, 0, 1, 0, 0, 0, 1, 0, 1, 0, 0, 0, 0, 0, 0, 0]),
  (105, 3, [0, 0, 0, 0, 0, 0, 0, 0, 0, 0, 0, 0, 0, 0, 0, 0], [0, 0, 2, 1, 0, 0, 1, 2, 2, 1, 0, 0, 1, 2, 0, 0]),
  (150, 3, [0, 0, 0, 0, 0, 0, 0, 0, 0, 0, 0, 0, 0, 0, 0, 0], [0, 0, 2, 1, 0, 0, 1, 2, 2, 1, 0, 0, 1, 2, 0, 0])]

theorem certificates_ok : ∀ c ∈ certificates, certOk c.1 c.2.1 c.2.2.1 c.2.2.2 := by decide +kernel

/-! ## Rows with the same successor -/

/-- The row with the binary digits of `code` in the first `m` cells and `c` in all others. -/
def patternRow (m c code x : Nat) : Nat := if x < m then code / 2 ^ x % 2 else c

/-- The cells of a pattern with two cells of the background before it. -/
def padded (m c code k : Nat) : Nat := if k < 2 then c else patternRow m c code (k - 2)

theorem patternRow_lt {m c code : Nat} (hc : c < 2) (x : Nat) : patternRow m c code x < 2 := by
  unfold patternRow
  split
  · exact Nat.mod_lt _ (by decide)
  · exact hc

/-- The successor of a pattern on a ring with two more cells at least. -/
theorem pattern_step {n m c code R : Nat} (hn : m + 2 ≤ n) (x : Nat) (hx : x < n) :
    eca n R (patternRow m c code) 1 x =
      if x = n - 1 then ecaRule R (padded m c code 0) (padded m c code 1) (padded m c code 2)
      else ecaRule R (padded m c code (x + 1)) (padded m c code (x + 2)) (padded m c code (x + 3)) := by
  rw [eca_one]
  by_cases h : x = n - 1
  · rw [if_pos h]
    have e1 : (x + n - 1) % n = n - 2 := by
      rw [show x + n - 1 = (n - 2) + n by omega, Nat.add_mod_right, Nat.mod_eq_of_lt (by omega)]
    have e2 : (x + 1) % n = 0 := by rw [show x + 1 = n by omega, Nat.mod_self]
    rw [e1, e2]
    have p1 : patternRow m c code (n - 2) = c := by unfold patternRow; rw [if_neg (by omega)]
    have p2 : patternRow m c code x = c := by unfold patternRow; rw [if_neg (by omega)]
    rw [p1, p2]
    rfl
  · rw [if_neg h]
    have e2 : (x + 1) % n = x + 1 := Nat.mod_eq_of_lt (by omega)
    rw [e2]
    have q2 : padded m c code (x + 2) = patternRow m c code x := by unfold padded; rw [if_neg (by omega)]; rfl
    have q3 : padded m c code (x + 3) = patternRow m c code (x + 1) := by unfold padded; rw [if_neg (by omega)]; rfl
    rw [q2, q3]
    congr 1
    cases x with
    | zero =>
      rw [show 0 + n - 1 = n - 1 by omega, Nat.mod_eq_of_lt (by omega)]
      unfold patternRow padded
      rw [if_neg (by omega), if_pos (by omega)]
    | succ x =>
      rw [show x + 1 + n - 1 = x + n by omega, Nat.add_mod_right, Nat.mod_eq_of_lt (by omega)]
      unfold padded
      rw [if_neg (by omega)]
      rfl

theorem padded_far {m c code k : Nat} (h : m + 2 ≤ k) : padded m c code k = c := by
  unfold padded patternRow
  rw [if_neg (by omega), if_neg (by omega)]

/-- Two patterns whose successors agree, with the background around them. -/
def samePattern (R m c a b : Nat) : Prop :=
  (∃ x : Fin m, a / 2 ^ x.val % 2 ≠ b / 2 ^ x.val % 2) ∧ c < 2 ∧ ∀ k : Fin (m + 2),
    ecaRule R (padded m c a k) (padded m c a (k + 1)) (padded m c a (k + 2)) =
    ecaRule R (padded m c b k) (padded m c b (k + 1)) (padded m c b (k + 2))

instance (R m c a b : Nat) : Decidable (samePattern R m c a b) := by unfold samePattern; infer_instance

theorem not_reversible_pattern {n R m c a b : Nat} (h : samePattern R m c a b) (hn : m + 2 ≤ n) : ¬ ReversibleOn n R := by
  obtain ⟨⟨x0, hx0⟩, hc, hk⟩ := h
  intro hr
  have := hr (patternRow m c a) (patternRow m c b) (fun x _ => patternRow_lt hc x) (fun x _ => patternRow_lt hc x) (by
    intro x hx
    rw [pattern_step hn x hx, pattern_step hn x hx]
    by_cases h : x = n - 1
    · rw [if_pos h, if_pos h]
      exact hk ⟨0, by omega⟩
    · rw [if_neg h, if_neg h]
      by_cases hlt : x + 1 < m + 2
      · exact hk ⟨x + 1, hlt⟩
      · rw [padded_far (by omega), padded_far (by omega), padded_far (by omega), padded_far (by omega), padded_far (by omega),
          padded_far (by omega)]) x0.val (by have := x0.isLt; omega)
  unfold patternRow at this
  rw [if_pos x0.isLt, if_pos x0.isLt] at this
  exact hx0 this

/-- Patterns with the same successor: rule, width, background, both patterns. -/
def collisions : List (Nat × Nat × Nat × Nat × Nat) := [
  (1, 1, 1, 0, 1), (3, 1, 1, 0, 1), (5, 1, 1, 0, 1), (7, 1, 1, 0, 1), (9, 2, 1, 0, 1), (11, 2, 0, 2, 3), (13, 2, 1, 0, 1),
  (17, 1, 1, 0, 1), (19, 1, 1, 0, 1), (21, 1, 1, 0, 1), (23, 1, 0, 0, 1), (25, 3, 1, 2, 3), (27, 2, 0, 2, 3), (29, 3, 0,
  3, 5), (31, 1, 0, 0, 1), (33, 2, 1, 0, 3), (35, 2, 1, 0, 1), (37, 2, 1, 0, 3), (39, 2, 1, 0, 1), (41, 4, 1, 4, 7), (43,
  2, 0, 2, 3), (47, 2, 1, 0, 1), (49, 2, 1, 0, 2), (53, 2, 1, 0, 2), (55, 1, 0, 0, 1), (57, 5, 0, 21, 25), (59, 2, 0, 2,
  3), (61, 3, 0, 1, 5), (63, 1, 0, 0, 1), (65, 2, 1, 0, 2), (67, 3, 1, 2, 6), (69, 2, 1, 0, 2), (71, 3, 0, 5, 6), (73, 4,
  1, 2, 4), (77, 3, 0, 5, 7), (79, 2, 0, 2, 3), (81, 2, 0, 1, 3), (83, 2, 0, 1, 3), (87, 1, 0, 0, 1), (91, 2, 0, 0, 3),
  (93, 2, 0, 1, 3), (95, 1, 0, 0, 1), (97, 4, 1, 2, 14), (99, 5, 0, 19, 21), (103, 3, 0, 4, 5), (107, 4, 0, 8, 11), (109,
  4, 0, 11, 13), (111, 2, 0, 2, 3), (113, 2, 0, 1, 3), (115, 2, 0, 1, 3), (117, 2, 1, 0, 2), (119, 1, 0, 0, 1), (121, 4,
  0, 1, 13), (123, 2, 0, 0, 3), (125, 2, 0, 1, 3), (127, 1, 0, 0, 1), (128, 1, 0, 0, 1), (130, 2, 0, 1, 3), (132, 2, 0, 0,
  3), (134, 4, 0, 1, 13), (136, 1, 0, 0, 1), (138, 2, 1, 0, 2), (140, 2, 0, 1, 3), (142, 2, 0, 1, 3), (144, 2, 0, 2, 3),
  (146, 4, 0, 11, 13), (148, 4, 0, 8, 11), (152, 3, 0, 4, 5), (156, 5, 0, 19, 21), (158, 4, 1, 2, 14), (160, 1, 0, 0, 1),
  (162, 2, 0, 1, 3), (164, 2, 0, 0, 3), (168, 1, 0, 0, 1), (172, 2, 0, 1, 3), (174, 2, 0, 1, 3), (176, 2, 0, 2, 3), (178,
  3, 0, 5, 7), (182, 4, 1, 2, 4), (184, 3, 0, 5, 6), (186, 2, 1, 0, 2), (188, 3, 1, 2, 6), (190, 2, 1, 0, 2), (192, 1, 0,
  0, 1), (194, 3, 0, 1, 5), (196, 2, 0, 2, 3), (198, 5, 0, 21, 25), (200, 1, 0, 0, 1), (202, 2, 1, 0, 2), (206, 2, 1, 0,
  2), (208, 2, 1, 0, 1), (212, 2, 0, 2, 3), (214, 4, 1, 4, 7), (216, 2, 1, 0, 1), (218, 2, 1, 0, 3), (220, 2, 1, 0, 1),
  (222, 2, 1, 0, 3), (224, 1, 0, 0, 1), (226, 3, 0, 3, 5), (228, 2, 0, 2, 3), (230, 3, 1, 2, 3), (232, 1, 0, 0, 1), (234,
  1, 1, 0, 1), (236, 1, 1, 0, 1), (238, 1, 1, 0, 1), (242, 2, 1, 0, 1), (244, 2, 0, 2, 3), (246, 2, 1, 0, 1), (248, 1, 1,
  0, 1), (250, 1, 1, 0, 1), (252, 1, 1, 0, 1), (254, 1, 1, 0, 1)]

theorem collisions_ok : ∀ c ∈ collisions, samePattern c.1 c.2.1 c.2.2.1 c.2.2.2.1 c.2.2.2.2 := by decide +kernel

/-- Two rows of `n` cells, given by their binary digits, with the same successor. -/
def sameRows (R n a b : Nat) : Prop :=
  (∃ x : Fin n, a / 2 ^ x.val % 2 ≠ b / 2 ^ x.val % 2) ∧
    ∀ x : Fin n, eca n R (fun y => a / 2 ^ y % 2) 1 x = eca n R (fun y => b / 2 ^ y % 2) 1 x

instance (R n a b : Nat) : Decidable (sameRows R n a b) := by unfold sameRows; infer_instance

theorem not_reversible_rows {n R a b : Nat} (h : sameRows R n a b) : ¬ ReversibleOn n R := by
  obtain ⟨⟨x0, hx0⟩, hk⟩ := h
  intro hr
  exact hx0 (hr _ _ (fun x _ => Nat.mod_lt _ (by decide)) (fun x _ => Nat.mod_lt _ (by decide)) (fun x hx => hk ⟨x, hx⟩) x0.val x0.isLt)

/-- Rows of few cells with the same successor: rule, number of cells, both rows. -/
def smallCollisions : List (Nat × Nat × Nat × Nat) := [
  (25, 4, 6, 9), (29, 4, 3, 5), (41, 4, 3, 4), (41, 5, 5, 14), (57, 4, 5, 6), (57, 5, 11, 12), (57, 6, 21, 22), (61, 4, 0,
  5), (67, 4, 6, 9), (71, 4, 5, 6), (73, 4, 5, 10), (73, 5, 5, 9), (77, 4, 1, 4), (97, 4, 1, 6), (97, 5, 7, 10), (99, 4,
  3, 5), (99, 5, 7, 9), (99, 6, 13, 19), (103, 4, 0, 5), (107, 4, 7, 9), (107, 5, 6, 11), (109, 4, 1, 4), (109, 5, 3, 8),
  (121, 4, 6, 11), (121, 5, 6, 13), (134, 4, 6, 11), (134, 5, 6, 13), (146, 4, 1, 4), (146, 5, 3, 8), (148, 4, 7, 9),
  (148, 5, 6, 11), (152, 4, 0, 5), (156, 4, 3, 5), (156, 5, 7, 9), (156, 6, 13, 19), (158, 4, 1, 6), (158, 5, 7, 10),
  (178, 4, 1, 4), (182, 4, 5, 10), (182, 5, 5, 9), (184, 4, 5, 6), (188, 4, 6, 9), (194, 4, 0, 5), (198, 4, 5, 6), (198,
  5, 11, 12), (198, 6, 21, 22), (214, 4, 3, 4), (214, 5, 5, 14), (226, 4, 3, 5), (230, 4, 6, 9)]

theorem smallCollisions_ok : ∀ c ∈ smallCollisions, sameRows c.1 c.2.1 c.2.2.1 c.2.2.2 := by decide +kernel

theorem not_reversible_constant {n R : Nat} (hn : 0 < n) (h : ecaRule R 0 0 0 = ecaRule R 1 1 1) : ¬ ReversibleOn n R := by
  intro hr
  have := hr (fun _ => 0) (fun _ => 1) (fun _ _ => Nat.zero_lt_two) (fun _ _ => Nat.one_lt_two) (fun x _ => h) 0 hn
  omega

theorem not_reversible_alternating {n R : Nat} (hn : 0 < n) (h2 : n % 2 = 0) (h : ecaRule R 0 1 0 = ecaRule R 1 0 1) :
    ¬ ReversibleOn n R := by
  intro hr
  have := hr (fun x => x % 2) (fun x => (x + 1) % 2) (fun _ _ => Nat.mod_lt _ Nat.zero_lt_two)
    (fun _ _ => Nat.mod_lt _ Nat.zero_lt_two) (by
    intro x _
    rw [eca_one, eca_one]
    have e1 : (x + n - 1) % n % 2 = (x + 1) % 2 := by rw [Nat.mod_mod_of_dvd _ (Nat.dvd_of_mod_eq_zero h2)]; omega
    have e2 : (x + 1) % n % 2 = (x + 1) % 2 := by rw [Nat.mod_mod_of_dvd _ (Nat.dvd_of_mod_eq_zero h2)]
    have e3 : ((x + n - 1) % n + 1) % 2 = x % 2 := by omega
    have e4 : ((x + 1) % n + 1) % 2 = x % 2 := by omega
    simp only [e1, e2, e3, e4]
    rcases Nat.mod_two_eq_zero_or_one x with h' | h'
    · rw [h', show (x + 1) % 2 = 1 by omega]; exact h.symm
    · rw [h', show (x + 1) % 2 = 0 by omega]; exact h) 0 hn
  simp at this

theorem not_reversible_three {n R : Nat} (hn : 0 < n) (h3 : n % 3 = 0)
    (h : ecaRule R 0 0 0 = ecaRule R 0 1 1 ∧ ecaRule R 0 0 0 = ecaRule R 1 0 1 ∧ ecaRule R 0 0 0 = ecaRule R 1 1 0) :
    ¬ ReversibleOn n R := by
  intro hr
  have := hr (fun _ => 0) (fun x => if x % 3 = 0 then 1 else if x % 3 = 1 then 1 else 0) (fun _ _ => Nat.zero_lt_two)
    (fun x _ => by dsimp only; split; exact Nat.one_lt_two; split; exact Nat.one_lt_two; exact Nat.zero_lt_two) (by
    intro x _
    rw [eca_one, eca_one]
    have e1 : (x + n - 1) % n % 3 = (x + 2) % 3 := by rw [Nat.mod_mod_of_dvd _ (Nat.dvd_of_mod_eq_zero h3)]; omega
    have e2 : (x + 1) % n % 3 = (x + 1) % 3 := by rw [Nat.mod_mod_of_dvd _ (Nat.dvd_of_mod_eq_zero h3)]
    simp only [e1, e2]
    have : x % 3 = 0 ∨ x % 3 = 1 ∨ x % 3 = 2 := by omega
    rcases this with h' | h' | h'
    · rw [h', show (x + 2) % 3 = 2 by omega, show (x + 1) % 3 = 1 by omega]; exact h.1
    · rw [h', show (x + 2) % 3 = 0 by omega, show (x + 1) % 3 = 2 by omega]; exact h.2.2
    · rw [h', show (x + 2) % 3 = 1 by omega, show (x + 1) % 3 = 0 by omega]; exact h.2.1) 0 hn
  simp at this

/-! ## The classification -/

/-- The rules that are reversible on every ring. -/
def alwaysReversible : List Nat := [15, 51, 85, 170, 204, 240]

/-- The rules that are reversible on rings with an odd number of cells. -/
def oddReversible : List Nat := [45, 75, 89, 101, 154, 166, 180, 210]

/-- The rules that are reversible on rings whose number of cells is not a multiple of three. -/
def threeReversible : List Nat := [105, 150]

/-- Where a rule of none of the three lists is handled: by the constant rows or by a pattern. -/
theorem rules_covered : ∀ R : Fin 256, R.val ∈ alwaysReversible ∨ R.val ∈ oddReversible ∨ R.val ∈ threeReversible ∨
    ecaRule R 0 0 0 = ecaRule R 1 1 1 ∨ ∃ c ∈ collisions, c.1 = R.val ∧ c.2.1 ≤ 5 ∧
      ∀ n : Fin 7, 4 ≤ n.val → n.val < c.2.1 + 2 → ∃ d ∈ smallCollisions, d.1 = R.val ∧ d.2.1 = n.val := by decide +kernel

theorem always_certified : ∀ R ∈ alwaysReversible, ∃ c ∈ certificates, c.1 = R ∧ c.2.1 = 0 := by decide
theorem odd_certified : ∀ R ∈ oddReversible, (∃ c ∈ certificates, c.1 = R ∧ c.2.1 = 2) ∧ ecaRule R 0 1 0 = ecaRule R 1 0 1 := by decide
theorem three_certified : ∀ R ∈ threeReversible, (∃ c ∈ certificates, c.1 = R ∧ c.2.1 = 3) ∧
    (ecaRule R 0 0 0 = ecaRule R 0 1 1 ∧ ecaRule R 0 0 0 = ecaRule R 1 0 1 ∧ ecaRule R 0 0 0 = ecaRule R 1 1 0) := by decide

theorem reversible_iff (n R : Nat) (hn : 4 ≤ n) (hR : R < 256) :
    ReversibleOn n R ↔ R ∈ alwaysReversible ∨ (R ∈ oddReversible ∧ n % 2 = 1) ∨ (R ∈ threeReversible ∧ n % 3 ≠ 0) := by
  constructor
  · intro hr
    rcases rules_covered ⟨R, hR⟩ with h | h | h | h | ⟨c, hc, h1, h2, h3⟩
    · exact Or.inl h
    · refine Or.inr (Or.inl ⟨h, ?_⟩)
      rcases Nat.mod_two_eq_zero_or_one n with h2 | h2
      · exact absurd hr (not_reversible_alternating (by omega) h2 (odd_certified R h).2)
      · exact h2
    · refine Or.inr (Or.inr ⟨h, fun h3 => ?_⟩)
      exact not_reversible_three (by omega) h3 (three_certified R h).2 hr
    · exact absurd hr (not_reversible_constant (by omega) h)
    · exfalso
      by_cases hlt : n < c.2.1 + 2
      · obtain ⟨d, hd, d1, d2⟩ := h3 ⟨n, by omega⟩ hn hlt
        have := not_reversible_rows (smallCollisions_ok d hd)
        rw [d1, d2] at this
        exact this hr
      · have := not_reversible_pattern (n := n) (collisions_ok c hc) (by omega)
        rw [h1] at this
        exact this hr
  · rintro (h | ⟨h, h2⟩ | ⟨h, h3⟩)
    · obtain ⟨c, hc, rfl, c2⟩ := always_certified R h
      exact certified (certificates_ok c hc) (by omega) (by rw [c2, Nat.mod_zero]; omega)
    · obtain ⟨⟨c, hc, rfl, c2⟩, _⟩ := odd_certified R h
      exact certified (certificates_ok c hc) (by omega) (by rw [c2]; omega)
    · obtain ⟨⟨c, hc, rfl, c2⟩, _⟩ := three_certified R h
      exact certified (certificates_ok c hc) (by omega) (by rw [c2]; omega)

/-! ## Number conservation -/

theorem onesIn_congr {n : Nat} {s s' : Nat → Nat} (h : ∀ x, x < n → s x = s' x) : onesIn n s = onesIn n s' := by
  unfold onesIn
  congr 1
  exact List.map_congr_left (fun x hx => h x (List.mem_range.1 hx))

theorem onesIn_succ (n : Nat) (s : Nat → Nat) : onesIn (n + 1) s = onesIn n s + s n := by
  unfold onesIn
  rw [List.range_succ, List.map_append, List.sum_append]
  simp

/-- The values around the ring, from the next cell on, add up to the same. -/
theorem onesIn_rotate (n : Nat) (s : Nat → Nat) : onesIn n (fun x => s ((x + 1) % n)) = onesIn n s := by
  cases n with
  | zero => rfl
  | succ n =>
    rw [onesIn_succ]
    have h1 : onesIn n (fun x => s ((x + 1) % (n + 1))) = onesIn n (fun x => s (x + 1)) :=
      onesIn_congr (fun x hx => by rw [Nat.mod_eq_of_lt (by omega)])
    rw [h1, Nat.mod_self]
    have h2 : ∀ m, onesIn m (fun x => s (x + 1)) + s 0 = onesIn (m + 1) s := by
      intro m
      induction m with
      | zero => simp [onesIn]
      | succ m ih => rw [onesIn_succ, onesIn_succ (m + 1), ← ih]; omega
    exact h2 n

theorem onesIn_add (n : Nat) (s s' : Nat → Nat) : onesIn n (fun x => s x + s' x) = onesIn n s + onesIn n s' := by
  induction n with
  | zero => rfl
  | succ n ih => rw [onesIn_succ, onesIn_succ, onesIn_succ, ih]; omega

/-- What flows from a cell to the next: rule, and the flow for the states of the cell and the next one. -/
def flows : List (Nat × List Nat) := [(204, [0, 0, 0, 0]), (240, [0, 0, 1, 1]), (170, [1, 0, 1, 0]), (184, [0, 0, 1, 0]), (226, [1, 0, 1, 1])]


/-- The new state of a cell is its state, what flows in and what flows out. -/
def flowOk (R : Nat) (J : List Nat) : Prop :=
  ∀ a b c : Fin 2, ecaRule R a b c + J.getD (2 * b.val + c) 0 = b + J.getD (2 * a.val + b) 0

instance (R : Nat) (J : List Nat) : Decidable (flowOk R J) := by unfold flowOk; infer_instance

theorem flows_ok : ∀ f ∈ flows, flowOk f.1 f.2 := by decide

theorem flow_conserves {n R : Nat} {J : List Nat} (h : flowOk R J) (hn : 0 < n) : ConservesOn n R := by
  intro s hs
  have hsum : onesIn n (fun x => eca n R s 1 x + J.getD (2 * s x + s ((x + 1) % n)) 0) =
      onesIn n (fun x => s x + J.getD (2 * s ((x + n - 1) % n) + s x) 0) := by
    refine onesIn_congr (fun x hx => ?_)
    have := h ⟨_, hs _ (Nat.mod_lt (x + n - 1) hn)⟩ ⟨_, hs x hx⟩ ⟨_, hs _ (Nat.mod_lt (x + 1) hn)⟩
    exact this
  rw [onesIn_add, onesIn_add, ← onesIn_rotate n (fun x => J.getD (2 * s ((x + n - 1) % n) + s x) 0)] at hsum
  have hrot : onesIn n (fun x => (fun x => J.getD (2 * s ((x + n - 1) % n) + s x) 0) ((x + 1) % n)) =
      onesIn n (fun x => J.getD (2 * s x + s ((x + 1) % n)) 0) := by
    refine onesIn_congr (fun x hx => ?_)
    dsimp only
    have e1 : ((x + 1) % n + n - 1) % n = x := by
      rw [show (x + 1) % n + n - 1 = (x + 1) % n + (n - 1) by omega, Nat.mod_add_mod, show x + 1 + (n - 1) = x + n by omega,
        Nat.add_mod_right, Nat.mod_eq_of_lt hx]
    rw [e1]
  rw [hrot] at hsum
  exact Nat.add_right_cancel hsum

theorem onesIn_const (n c : Nat) : onesIn n (fun _ => c) = n * c := by
  induction n with
  | zero => simp [onesIn]
  | succ n ih => rw [onesIn_succ, ih, Nat.succ_mul]

theorem not_conserves_zero {n R : Nat} (hn : 0 < n) (h : ecaRule R 0 0 0 = 1) : ¬ ConservesOn n R := by
  intro hc
  have := hc (fun _ => 0) (fun _ _ => Nat.zero_lt_two)
  rw [onesIn_congr (s := eca n R (fun _ => 0) 1) (s' := fun _ => 1) (fun x _ => h), onesIn_const, onesIn_const] at this
  omega

theorem not_conserves_one {n R : Nat} (hn : 0 < n) (h : ecaRule R 1 1 1 = 0) : ¬ ConservesOn n R := by
  intro hc
  have := hc (fun _ => 1) (fun _ _ => Nat.one_lt_two)
  rw [onesIn_congr (s := eca n R (fun _ => 1) 1) (s' := fun _ => 0) (fun x _ => h), onesIn_const, onesIn_const] at this
  omega

/-- The successors of the cells of a pattern on background 0, with one cell before and one behind. -/
def patternNext (R m code k : Nat) : Nat := ecaRule R (padded m 0 code k) (padded m 0 code (k + 1)) (padded m 0 code (k + 2))

/-- A pattern on background 0 with another number of cells in state 1 than its successor. -/
def changesPattern (R m code : Nat) : Prop :=
  ecaRule R 0 0 0 = 0 ∧ onesIn (m + 2) (patternNext R m code) ≠ onesIn m (patternRow m 0 code)

instance (R m code : Nat) : Decidable (changesPattern R m code) := by unfold changesPattern; infer_instance

theorem onesIn_tail {m : Nat} {g : Nat → Nat} (h : ∀ k, m ≤ k → g k = 0) (d : Nat) : onesIn (m + d) g = onesIn m g := by
  induction d with
  | zero => rfl
  | succ d ih => rw [← Nat.add_assoc, onesIn_succ, ih, h _ (by omega)]; rfl

theorem not_conserves_pattern {n R m code : Nat} (h : changesPattern R m code) (hn : m + 2 ≤ n) : ¬ ConservesOn n R := by
  intro hc
  obtain ⟨h0, h1⟩ := h
  have h2 := hc (patternRow m 0 code) (fun x _ => patternRow_lt (by decide) x)
  apply h1
  have e1 : onesIn n (eca n R (patternRow m 0 code) 1) = onesIn n (fun x => patternNext R m code ((x + 1) % n)) := by
    refine onesIn_congr (fun x hx => ?_)
    rw [pattern_step hn x hx]
    by_cases h : x = n - 1
    · rw [if_pos h, show x + 1 = n by omega, Nat.mod_self]
      rfl
    · rw [if_neg h, Nat.mod_eq_of_lt (by omega)]
      rfl
  rw [e1, onesIn_rotate] at h2
  have e2 := onesIn_tail (m := m + 2) (g := patternNext R m code) (by
    intro k hk
    unfold patternNext
    rw [padded_far hk, padded_far (by omega), padded_far (by omega)]
    exact h0) (n - (m + 2))
  have e3 := onesIn_tail (m := m) (g := patternRow m 0 code) (by
    intro k hk
    unfold patternRow
    rw [if_neg (by omega)]) (n - m)
  rw [show m + 2 + (n - (m + 2)) = n by omega] at e2
  rw [show m + (n - m) = n by omega] at e3
  rw [← e2, h2, e3]

/-- Patterns whose number of cells in state 1 changes: rule, width, pattern. -/
def changes : List (Nat × Nat × Nat) := [
  (128, 1, 1), (130, 2, 3), (132, 2, 3), (134, 1, 1), (136, 1, 1), (138, 3, 5), (140, 2, 3), (142, 1, 1), (144, 2, 3),
  (146, 1, 1), (148, 1, 1), (150, 1, 1), (152, 3, 5), (154, 1, 1), (156, 1, 1), (158, 1, 1), (160, 1, 1), (162, 2, 3),
  (164, 2, 3), (166, 1, 1), (168, 1, 1), (172, 2, 3), (174, 1, 1), (176, 2, 3), (178, 1, 1), (180, 1, 1), (182, 1, 1),
  (186, 1, 1), (188, 1, 1), (190, 1, 1), (192, 1, 1), (194, 3, 5), (196, 2, 3), (198, 1, 1), (200, 1, 1), (202, 2, 3),
  (206, 1, 1), (208, 3, 5), (210, 1, 1), (212, 1, 1), (214, 1, 1), (216, 2, 3), (218, 1, 1), (220, 1, 1), (222, 1, 1),
  (224, 1, 1), (228, 2, 3), (230, 1, 1), (232, 1, 1), (234, 2, 3), (236, 3, 5), (238, 1, 1), (242, 1, 1), (244, 1, 1),
  (246, 1, 1), (248, 2, 3), (250, 1, 1), (252, 1, 1), (254, 1, 1)]

theorem changes_ok : ∀ c ∈ changes, changesPattern c.1 c.2.1 c.2.2 := by decide +kernel

/-- Rows of few cells whose number of cells in state 1 changes: rule, number of cells, row. -/
def smallChanges : List (Nat × Nat × Nat) := [
  (130, 3, 3), (132, 3, 3), (138, 3, 3), (138, 4, 5), (140, 3, 3), (144, 3, 3), (152, 3, 3), (152, 4, 5), (162, 3, 3),
  (164, 3, 3), (176, 3, 3), (194, 3, 3), (194, 4, 5), (196, 3, 3), (208, 3, 3), (208, 4, 5), (234, 3, 3), (236, 3, 3),
  (236, 4, 5), (248, 3, 3)]

theorem smallChanges_ok : ∀ c ∈ smallChanges,
    onesIn c.2.1 (eca c.2.1 c.1 (fun y => c.2.2 / 2 ^ y % 2) 1) ≠ onesIn c.2.1 (fun y => c.2.2 / 2 ^ y % 2) := by decide +kernel

/-- The rules that keep the number of cells in state 1. -/
def conserving : List Nat := [170, 184, 204, 226, 240]

theorem conserving_covered : ∀ R : Fin 256, R.val ∈ conserving ∨ ecaRule R 0 0 0 = 1 ∨ ecaRule R 1 1 1 = 0 ∨
    ∃ c ∈ changes, c.1 = R.val ∧ c.2.1 ≤ 5 ∧
      ∀ n : Fin 7, 4 ≤ n.val → n.val < c.2.1 + 2 → ∃ d ∈ smallChanges, d.1 = R.val ∧ d.2.1 = n.val := by decide +kernel

theorem conserving_flows : ∀ R ∈ conserving, ∃ f ∈ flows, f.1 = R := by decide

theorem conserves_iff (n R : Nat) (hn : 4 ≤ n) (hR : R < 256) : ConservesOn n R ↔ R ∈ conserving := by
  constructor
  · intro hr
    rcases conserving_covered ⟨R, hR⟩ with h | h | h | ⟨c, hc, h1, h2, h3⟩
    · exact h
    · exact absurd hr (not_conserves_zero (by omega) h)
    · exact absurd hr (not_conserves_one (by omega) h)
    · exfalso
      by_cases hlt : n < c.2.1 + 2
      · obtain ⟨d, hd, d1, d2⟩ := h3 ⟨n, by omega⟩ hn hlt
        have := smallChanges_ok d hd
        rw [d1, d2] at this
        exact this (hr _ (fun x _ => Nat.mod_lt _ (by decide)))
      · have := not_conserves_pattern (n := n) (changes_ok c hc) (by omega)
        rw [h1] at this
        exact this hr
  · intro h
    obtain ⟨f, hf, rfl⟩ := conserving_flows R h
    exact flow_conserves (flows_ok f hf) (by omega)

/-! ## Rings of three cells -/

theorem digits_of_row3 {s : Nat → Nat} (hs : BinaryRow 3 s) : ∃ a : Fin 8, ∀ x, x < 3 → s x = a.val / 2 ^ x % 2 := by
  have h0 := hs 0 (by decide)
  have h1 := hs 1 (by decide)
  have h2 := hs 2 (by decide)
  refine ⟨⟨s 0 + 2 * s 1 + 4 * s 2, by omega⟩, fun x hx => ?_⟩
  match x, hx with
  | 0, _ => show s 0 = _ / 1 % 2; dsimp only; omega
  | 1, _ => show s 1 = _ / 2 % 2; dsimp only; omega
  | 2, _ => show s 2 = _ / 4 % 2; dsimp only; omega

theorem eca_congr {n R : Nat} (hn : 0 < n) {s s' : Nat → Nat} (h : ∀ x, x < n → s x = s' x) :
    ∀ t x, x < n → eca n R s t x = eca n R s' t x := by
  intro t
  induction t with
  | zero => exact h
  | succ t ih =>
    intro x hx
    show ecaRule R _ _ _ = ecaRule R _ _ _
    rw [ih _ (Nat.mod_lt _ hn), ih x hx, ih _ (Nat.mod_lt _ hn)]

theorem reversible3_iff (R : Nat) : ReversibleOn 3 R ↔ ∀ a b : Fin 8,
    (∀ x : Fin 3, eca 3 R (fun y => a.val / 2 ^ y % 2) 1 x = eca 3 R (fun y => b.val / 2 ^ y % 2) 1 x) → a = b := by
  constructor
  · intro hr a b h
    have := hr _ _ (fun x _ => Nat.mod_lt _ (by decide)) (fun x _ => Nat.mod_lt _ (by decide)) (fun x hx => h ⟨x, hx⟩)
    have h0 := this 0 (by decide)
    have h1 := this 1 (by decide)
    have h2 := this 2 (by decide)
    apply Fin.ext
    have := a.isLt
    have := b.isLt
    simp only [Nat.pow_zero, Nat.pow_one, Nat.reducePow, Nat.div_one] at h0 h1 h2
    omega
  · intro h s s' hs hs' he x hx
    obtain ⟨a, ha⟩ := digits_of_row3 hs
    obtain ⟨b, hb⟩ := digits_of_row3 hs'
    have := h a b (fun y => by
      rw [← eca_congr (by decide) ha 1 y.val y.isLt, ← eca_congr (by decide) hb 1 y.val y.isLt]
      exact he y.val y.isLt)
    rw [ha x hx, hb x hx, this]

theorem reversible3 : ∀ R : Fin 256, (∀ a b : Fin 8,
    (∀ x : Fin 3, eca 3 R (fun y => a.val / 2 ^ y % 2) 1 x = eca 3 R (fun y => b.val / 2 ^ y % 2) 1 x) → a = b) ↔
    R.val ∈ [15, 27, 29, 39, 43, 45, 51, 53, 57, 71, 75, 77, 83, 85, 89, 99, 101, 113, 142, 154, 156, 166, 170, 172, 178, 180,
      184, 198, 202, 204, 210, 212, 216, 226, 228, 240] := by decide +kernel

theorem conserves3_iff (R : Nat) : ConservesOn 3 R ↔ ∀ a : Fin 8,
    onesIn 3 (eca 3 R (fun y => a.val / 2 ^ y % 2) 1) = onesIn 3 (fun y => a.val / 2 ^ y % 2) := by
  constructor
  · intro hr a
    exact hr _ (fun x _ => Nat.mod_lt _ (by decide))
  · intro h s hs
    obtain ⟨a, ha⟩ := digits_of_row3 hs
    rw [onesIn_congr ha, onesIn_congr (eca_congr (by decide) ha 1)]
    exact h a

theorem conserves3 : ∀ R : Fin 256, (∀ a : Fin 8,
    onesIn 3 (eca 3 R (fun y => a.val / 2 ^ y % 2) 1) = onesIn 3 (fun y => a.val / 2 ^ y % 2)) ↔
    R.val ∈ [170, 172, 184, 202, 204, 216, 226, 228, 240] := by decide +kernel

/-! ## Reversible, onto, periodic -/

/-- `g` repeated. -/
def iter {α : Type} (g : α → α) : Nat → α → α
  | 0, a => a
  | k + 1, a => g (iter g k a)

theorem iter_inj {α : Type} {g : α → α} (hg : ∀ a b, g a = g b → a = b) : ∀ k a b, iter g k a = iter g k b → a = b
  | 0, _, _, h => h
  | k + 1, a, b, h => iter_inj hg k a b (hg _ _ h)

theorem iter_add {α : Type} (g : α → α) (j k : Nat) (a : α) : iter g (j + k) a = iter g j (iter g k a) := by
  induction j with
  | zero => rw [Nat.zero_add]; rfl
  | succ j ih => rw [Nat.add_right_comm]; show g _ = g _; rw [ih]

theorem injective_periodic {α : Type} {g : α → α} (hg : ∀ a b, g a = g b → a = b) {M : Nat} {e : α → Nat} (he : ∀ a, e a < M)
    (hi : ∀ a b, e a = e b → a = b) (a : α) : ∃ P, 0 < P ∧ P ≤ M ∧ iter g P a = a := by
  obtain ⟨i, j, hij, hj, h⟩ := pigeonhole (M := M) (f := fun k => e (iter g k a)) (fun k => he _)
  refine ⟨j - i, by omega, by omega, ?_⟩
  have h' := hi _ _ h
  rw [show j = i + (j - i) by omega, iter_add] at h'
  exact (iter_inj hg i _ _ h').symm

/-- Rows that are 0 outside of the ring. -/
abbrev NormalRow (n : Nat) : Type := { s : Nat → Nat // BinaryRow n s ∧ ∀ x, n ≤ x → s x = 0 }

/-- A row made 0 outside of the ring. -/
def normalise {n : Nat} (s : Nat → Nat) (hs : BinaryRow n s) : NormalRow n :=
  ⟨fun x => if x < n then s x else 0, fun x hx => by dsimp only; rw [if_pos hx]; exact hs x hx, fun x hx => by
    dsimp only; rw [if_neg (by omega)]⟩

theorem normalise_at {n : Nat} {s : Nat → Nat} (hs : BinaryRow n s) {x : Nat} (hx : x < n) : (normalise s hs).1 x = s x := if_pos hx

theorem normal_ext {n : Nat} {a b : NormalRow n} (h : ∀ x, x < n → a.1 x = b.1 x) : a = b := by
  apply Subtype.ext
  funext x
  by_cases hx : x < n
  · exact h x hx
  · rw [a.2.2 x (by omega), b.2.2 x (by omega)]

theorem normal_code {n : Nat} (a b : NormalRow n) (h : rowCode a.1 n = rowCode b.1 n) : a = b :=
  normal_ext (rowCode_inj a.2.1 b.2.1 h)

theorem eca_binary {n R : Nat} (hn : 0 < n) {s : Nat → Nat} (hs : BinaryRow n s) (t : Nat) : BinaryRow n (eca n R s t) :=
  eca_lt_two hn hs t

/-- The successor of a row. -/
def succRow {n : Nat} (R : Nat) (hn : 0 < n) (a : NormalRow n) : NormalRow n := normalise (eca n R a.1 1) (eca_binary hn a.2.1 1)

theorem eca_shift {n R : Nat} (s : Nat → Nat) (t u : Nat) : eca n R s (t + u) = eca n R (eca n R s t) u := by
  induction u with
  | zero => rfl
  | succ u ih =>
    funext x
    show ecaRule R (eca n R s (t + u) _) (eca n R s (t + u) _) (eca n R s (t + u) _) = _
    rw [ih]
    rfl

theorem iter_succRow {n R : Nat} (hn : 0 < n) (a : NormalRow n) :
    ∀ t x, x < n → (iter (succRow R hn) t a).1 x = eca n R a.1 t x := by
  intro t
  induction t with
  | zero => intro x _; rfl
  | succ t ih =>
    intro x hx
    have e : (iter (succRow R hn) (t + 1) a).1 x = eca n R (iter (succRow R hn) t a).1 1 x :=
      normalise_at (eca_binary hn (iter (succRow R hn) t a).2.1 1) hx
    rw [e, eca_shift a.1 t 1]
    exact eca_congr hn ih 1 x hx

theorem reversible_periodic {n R : Nat} (hn : 0 < n) (h : ReversibleOn n R) {s : Nat → Nat} (hs : BinaryRow n s) :
    ∃ P, 0 < P ∧ P ≤ 2 ^ n ∧ ∀ x, x < n → eca n R s P x = s x := by
  obtain ⟨P, h1, h2, h3⟩ := injective_periodic (g := succRow R hn) (M := 2 ^ n) (e := fun a : NormalRow n => rowCode a.1 n) (by
    intro a b hab
    refine normal_ext (h a.1 b.1 a.2.1 b.2.1 (fun x hx => ?_))
    have := congrArg (fun r : NormalRow n => r.1 x) hab
    unfold succRow at this
    rwa [normalise_at _ hx, normalise_at _ hx] at this) (fun a => rowCode_lt a.2.1) normal_code (normalise s hs)
  refine ⟨P, h1, h2, fun x hx => ?_⟩
  have e := iter_succRow (R := R) hn (normalise s hs) P x hx
  rw [h3, normalise_at hs hx] at e
  rw [e]
  exact eca_congr hn (fun y hy => (normalise_at hs hy).symm) P x hx

theorem reversible_iff_onto {n R : Nat} (hn : 0 < n) : ReversibleOn n R ↔ OntoOn n R := by
  constructor
  · intro h y hy
    obtain ⟨P, h1, _, h3⟩ := reversible_periodic hn h hy
    refine ⟨eca n R y (P - 1), eca_binary hn hy _, fun x hx => ?_⟩
    rw [← eca_shift, show P - 1 + 1 = P by omega]
    exact h3 x hx
  · intro h s s' hs hs' he
    -- a predecessor for every row
    have hpre : ∀ a : NormalRow n, ∃ b : NormalRow n, succRow R hn b = a := by
      intro a
      obtain ⟨b, hb, hb'⟩ := h a.1 a.2.1
      refine ⟨normalise b hb, normal_ext (fun x hx => ?_)⟩
      unfold succRow
      rw [normalise_at _ hx, ← hb' x hx]
      exact eca_congr hn (fun y hy => normalise_at hb hy) 1 x hx
    have hg := fun a => Classical.choose_spec (hpre a)
    have hleft : ∀ a, Classical.choose (hpre (succRow R hn a)) = a := by
      intro a
      obtain ⟨P, h1, _, h3⟩ := injective_periodic (g := fun a => Classical.choose (hpre a)) (M := 2 ^ n)
        (e := fun a : NormalRow n => rowCode a.1 n) (by
          intro a b hab
          have := congrArg (succRow R hn) hab
          rwa [hg, hg] at this) (fun a => rowCode_lt a.2.1) normal_code a
      cases P with
      | zero => omega
      | succ P =>
        have e : Classical.choose (hpre (iter (fun a => Classical.choose (hpre a)) P a)) = a := h3
        have := congrArg (succRow R hn) e
        rw [hg] at this
        rw [← this]
        exact e
    have hss : succRow R hn (normalise s hs) = succRow R hn (normalise s' hs') := by
      refine normal_ext (fun x hx => ?_)
      unfold succRow
      rw [normalise_at _ hx, normalise_at _ hx, eca_congr hn (fun y hy => normalise_at hs hy) 1 x hx,
        eca_congr hn (fun y hy => normalise_at hs' hy) 1 x hx]
      exact he x hx
    have := hleft (normalise s hs)
    rw [hss, hleft] at this
    intro x hx
    rw [← normalise_at hs hx, ← normalise_at hs' hx, this]

theorem reversible_all {n R : Nat} (hn : 0 < n) (h : ReversibleOn n R) {s s' : Nat → Nat} (hs : BinaryRow n s) (hs' : BinaryRow n s') :
    ∀ t, (∀ x, x < n → eca n R s t x = eca n R s' t x) → ∀ x, x < n → s x = s' x := by
  intro t
  induction t with
  | zero => exact fun he => he
  | succ t ih =>
    intro he
    refine ih (h _ _ (eca_binary hn hs t) (eca_binary hn hs' t) ?_)
    rw [← eca_shift, ← eca_shift]
    exact he

theorem conserves_all {n R : Nat} (hn : 0 < n) (h : ConservesOn n R) {s : Nat → Nat} (hs : BinaryRow n s) :
    ∀ t, onesIn n (eca n R s t) = onesIn n s := by
  intro t
  induction t with
  | zero => rfl
  | succ t ih => rw [eca_shift, h _ (eca_binary hn hs t), ih]

end Verif
