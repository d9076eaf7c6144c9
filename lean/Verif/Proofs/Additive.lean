import Verif.Proofs.Elementary
/-! # Lemmas about mirrored, complemented and additive elementary cellular automata -/

namespace Verif

/-! ## Mirrored and complemented rules -/

theorem mirror_local : ∀ R : Fin 256, ∀ a b c : Fin 2, ecaRule (mirrorRule R) a b c = ecaRule R c b a := by decide +kernel

theorem complement_local : ∀ R : Fin 256, ∀ a b c : Fin 2,
    ecaRule (complementRule R) (1 - a.val) (1 - b.val) (1 - c.val) = 1 - ecaRule R a b c := by decide +kernel

theorem mirror_run {n R : Nat} (hn : 0 < n) (hR : R < 256) {s : Nat → Nat} (hs : BinaryRow n s) :
    ∀ t x, x < n → eca n (mirrorRule R) (fun y => s (n - 1 - y)) t x = eca n R s t (n - 1 - x) := by
  intro t
  induction t with
  | zero => intro x _; rfl
  | succ t ih =>
    intro x hx
    show ecaRule (mirrorRule R) _ _ _ = ecaRule R _ _ _
    have hb := eca_binary (R := R) hn hs t
    rw [ih _ (Nat.mod_lt _ hn), ih x hx, ih _ (Nat.mod_lt _ hn)]
    have e1 : (n - 1 - x + n - 1) % n = n - 1 - (x + 1) % n := by
      by_cases h : x = n - 1
      · subst h
        rw [show n - 1 + 1 = n by omega, Nat.mod_self, show n - 1 - (n - 1) + n - 1 = n - 1 by omega, Nat.mod_eq_of_lt (by omega)]
        omega
      · rw [Nat.mod_eq_of_lt (a := x + 1) (by omega), show n - 1 - x + n - 1 = n - 1 - (x + 1) + n by omega, Nat.add_mod_right,
          Nat.mod_eq_of_lt (by omega)]
    have e2 : (n - 1 - x + 1) % n = n - 1 - (x + n - 1) % n := by
      by_cases h : x = 0
      · subst h
        rw [show n - 1 - 0 + 1 = n by omega, Nat.mod_self, show 0 + n - 1 = n - 1 by omega, Nat.mod_eq_of_lt (by omega)]
        omega
      · rw [show x + n - 1 = x - 1 + n by omega, Nat.add_mod_right, Nat.mod_eq_of_lt (a := x - 1) (by omega),
          Nat.mod_eq_of_lt (by omega)]
        omega
    rw [e1, e2]
    have m1 := Nat.mod_lt (x + 1) hn
    have m2 := Nat.mod_lt (x + n - 1) hn
    exact mirror_local ⟨R, hR⟩ ⟨_, hb (n - 1 - (x + n - 1) % n) (by omega)⟩ ⟨_, hb (n - 1 - x) (by omega)⟩
      ⟨_, hb (n - 1 - (x + 1) % n) (by omega)⟩

theorem complement_run {n R : Nat} (hn : 0 < n) (hR : R < 256) {s : Nat → Nat} (hs : BinaryRow n s) :
    ∀ t x, x < n → eca n (complementRule R) (fun y => 1 - s y) t x = 1 - eca n R s t x := by
  intro t
  induction t with
  | zero => intro x _; rfl
  | succ t ih =>
    intro x hx
    show ecaRule (complementRule R) _ _ _ = 1 - ecaRule R _ _ _
    have hb := eca_binary (R := R) hn hs t
    rw [ih _ (Nat.mod_lt _ hn), ih x hx, ih _ (Nat.mod_lt _ hn)]
    exact complement_local ⟨R, hR⟩ ⟨_, hb _ (Nat.mod_lt (x + n - 1) hn)⟩ ⟨_, hb x hx⟩ ⟨_, hb _ (Nat.mod_lt (x + 1) hn)⟩

theorem mirrorRule_lt : ∀ R : Fin 256, mirrorRule R < 256 := by decide +kernel
theorem complementRule_lt : ∀ R : Fin 256, complementRule R < 256 := by decide +kernel

/-! ## Additive rules -/

/-- What a rule adds up modulo 2: its left cell, its own, its right cell. -/
def additiveRules : List (Nat × Nat × Nat × Nat) :=
  [(0, 0, 0, 0), (60, 1, 1, 0), (90, 1, 0, 1), (102, 0, 1, 1), (150, 1, 1, 1), (170, 0, 0, 1), (204, 0, 1, 0), (240, 1, 0, 0)]

theorem additive_local : ∀ c ∈ additiveRules, ∀ a b d : Fin 2,
    ecaRule c.1 a b d = (c.2.1 * a + c.2.2.1 * b + c.2.2.2 * d) % 2 := by decide

theorem additive_covered : ∀ R : Fin 256, (∀ a b c a' b' c' : Fin 2,
    ecaRule R ((a + a') % 2) ((b + b') % 2) ((c + c') % 2) = (ecaRule R a b c + ecaRule R a' b' c') % 2) ↔
      ∃ c ∈ additiveRules, c.1 = R.val := by decide +kernel

theorem linear_step {l c r R n : Nat} (h : ∀ a b d : Fin 2, ecaRule R a b d = (l * a + c * b + r * d) % 2) (hn : 0 < n)
    {s : Nat → Nat} (hs : BinaryRow n s) {x : Nat} (hx : x < n) :
    eca n R s 1 x = (l * s ((x + n - 1) % n) + c * s x + r * s ((x + 1) % n)) % 2 := by
  rw [eca_one]
  exact h ⟨_, hs _ (Nat.mod_lt (x + n - 1) hn)⟩ ⟨_, hs x hx⟩ ⟨_, hs _ (Nat.mod_lt (x + 1) hn)⟩

/-- The cell `d` places to the left on a ring of `n` cells. -/
def leftBy (n d x : Nat) : Nat := (x + (n - d % n)) % n

theorem leftBy_one {n x : Nat} (hn : 0 < n) (hx : x < n) : (x + n - 1) % n = leftBy n 1 x := by
  unfold leftBy
  by_cases h1 : n = 1
  · subst h1; omega
  · rw [Nat.mod_eq_of_lt (a := 1) (by omega)]
    congr 1
    omega

theorem leftBy_lt {n : Nat} (hn : 0 < n) (d x : Nat) : leftBy n d x < n := Nat.mod_lt _ hn

theorem leftBy_leftBy {n d : Nat} (hn : 0 < n) (x : Nat) : leftBy n d (leftBy n d x) = leftBy n (d + d) x := by
  unfold leftBy
  rw [Nat.mod_add_mod]
  have h1 := Nat.mod_lt d hn
  have h2 : (d + d) % n = (d % n + d % n) % n := Nat.add_mod d d n
  rw [h2]
  by_cases h : d % n + d % n < n
  · rw [Nat.mod_eq_of_lt (a := d % n + d % n) h, show x + (n - d % n) + (n - d % n) = x + (n - (d % n + d % n)) + n by omega, Nat.add_mod_right]
  · rw [show d % n + d % n = (d % n + d % n - n) + n by omega, Nat.add_mod_right, Nat.mod_eq_of_lt (a := d % n + d % n - n) (by omega)]
    congr 1
    omega

theorem leftBy_right {n d : Nat} (hn : 0 < n) {x : Nat} (hx : x < n) : leftBy n d ((x + d) % n) = x := by
  unfold leftBy
  rw [Nat.mod_add_mod]
  have h1 := Nat.mod_lt d hn
  have h2 := Nat.mod_add_div d n
  rw [show x + d + (n - d % n) = x + n * (d / n + 1) by rw [Nat.mul_add]; omega, Nat.add_mul_mod_self_left, Nat.mod_eq_of_lt hx]

theorem right_leftBy {n d : Nat} (hn : 0 < n) {x : Nat} (hx : x < n) : (leftBy n d x + d) % n = x := by
  unfold leftBy
  rw [Nat.mod_add_mod]
  have h1 := Nat.mod_lt d hn
  have h2 := Nat.mod_add_div d n
  rw [show x + (n - d % n) + d = x + n * (d / n + 1) by rw [Nat.mul_add]; omega, Nat.add_mul_mod_self_left, Nat.mod_eq_of_lt hx]

theorem bit_combo (l c r a b d e f : Nat) (hl : l < 2) (hc : c < 2) (hr : r < 2) :
    (l * ((l * a + c * b + r * d) % 2) + c * ((l * b + c * d + r * e) % 2) + r * ((l * d + c * e + r * f) % 2)) % 2 =
      (l * a + c * d + r * f) % 2 := by
  have h1 : l = 0 ∨ l = 1 := by omega
  have h2 : c = 0 ∨ c = 1 := by omega
  have h3 : r = 0 ∨ r = 1 := by omega
  rcases h1 with rfl | rfl <;> rcases h2 with rfl | rfl <;> rcases h3 with rfl | rfl <;> omega

/-- A rule that adds up cells modulo 2 does the same after `2^k` steps, with the cells `2^k` places away. -/
theorem linear_power {l c r R n : Nat} (hl : l < 2) (hc : c < 2) (hr : r < 2)
    (h : ∀ a b d : Fin 2, ecaRule R a b d = (l * a + c * b + r * d) % 2) (hn : 0 < n) :
    ∀ k, ∀ s : Nat → Nat, BinaryRow n s → ∀ x, x < n →
      eca n R s (2 ^ k) x = (l * s (leftBy n (2 ^ k) x) + c * s x + r * s ((x + 2 ^ k) % n)) % 2 := by
  intro k
  induction k with
  | zero =>
    intro s hs x hx
    rw [Nat.pow_zero, linear_step h hn hs hx, leftBy_one hn hx]
  | succ k ih =>
    intro s hs x hx
    rw [Nat.pow_succ, Nat.mul_two, eca_shift, ih _ (eca_binary hn hs _) x hx]
    rw [ih s hs _ (leftBy_lt hn _ x), ih s hs x hx, ih s hs _ (Nat.mod_lt _ hn)]
    rw [leftBy_leftBy hn, leftBy_right hn hx, right_leftBy hn hx, Nat.mod_add_mod, ← Nat.add_assoc]
    exact bit_combo l c r _ _ _ _ _ hl hc hr

theorem additive_of_linear {l c r R n : Nat} (h : ∀ a b d : Fin 2, ecaRule R a b d = (l * a + c * b + r * d) % 2) (hl : l < 2)
    (hc : c < 2) (hr : r < 2) (hn : 0 < n) : AdditiveOn n R := by
  intro s s' hs hs' x hx
  have hb : BinaryRow n (fun y => (s y + s' y) % 2) := fun _ _ => Nat.mod_lt _ (by decide)
  rw [linear_step h hn hs hx, linear_step h hn hs' hx, linear_step h hn hb hx]
  have h1 : l = 0 ∨ l = 1 := by omega
  have h2 : c = 0 ∨ c = 1 := by omega
  have h3 : r = 0 ∨ r = 1 := by omega
  rcases h1 with rfl | rfl <;> rcases h2 with rfl | rfl <;> rcases h3 with rfl | rfl <;> omega

theorem additiveRules_bits : ∀ c ∈ additiveRules, c.2.1 < 2 ∧ c.2.2.1 < 2 ∧ c.2.2.2 < 2 := by decide

/-- The row with three given cells, 0 elsewhere. -/
def threeCells (a b c x : Nat) : Nat := if x = 0 then a else if x = 1 then b else if x = 2 then c else 0

theorem threeCells_lt {a b c : Nat} (ha : a < 2) (hb : b < 2) (hc : c < 2) (x : Nat) : threeCells a b c x < 2 := by
  unfold threeCells
  split
  · exact ha
  · split
    · exact hb
    · split
      · exact hc
      · exact Nat.zero_lt_two

theorem threeCells_step {n R : Nat} (hn : 3 ≤ n) (s : Nat → Nat) : eca n R s 1 1 = ecaRule R (s 0) (s 1) (s 2) := by
  rw [eca_one, show 1 + n - 1 = n by omega, Nat.mod_self, Nat.mod_eq_of_lt (by omega)]

theorem additive_iff (n R : Nat) (hn : 3 ≤ n) (hR : R < 256) : AdditiveOn n R ↔ R ∈ [0, 60, 90, 102, 150, 170, 204, 240] := by
  constructor
  · intro h
    have := (additive_covered ⟨R, hR⟩).1 (by
      intro a b c a' b' c'
      have h1 := h (threeCells a b c) (threeCells a' b' c') (fun x _ => threeCells_lt a.isLt b.isLt c.isLt x)
        (fun x _ => threeCells_lt a'.isLt b'.isLt c'.isLt x) 1 (by omega)
      rw [threeCells_step hn, threeCells_step hn, threeCells_step hn] at h1
      exact h1)
    obtain ⟨c, hc, hcR⟩ := this
    have hl : ∀ c ∈ additiveRules, c.1 ∈ [0, 60, 90, 102, 150, 170, 204, 240] := by decide
    have := hl c hc
    rwa [hcR] at this
  · intro h
    have : ∀ R ∈ [0, 60, 90, 102, 150, 170, 204, 240], ∃ c ∈ additiveRules, c.1 = R := by decide
    obtain ⟨c, hc, rfl⟩ := this R h
    obtain ⟨h1, h2, h3⟩ := additiveRules_bits c hc
    exact additive_of_linear (additive_local c hc) h1 h2 h3 (by omega)

theorem additive_all {n R : Nat} (hn : 0 < n) (h : AdditiveOn n R) {s s' : Nat → Nat} (hs : BinaryRow n s) (hs' : BinaryRow n s') :
    ∀ t x, x < n → eca n R (fun y => (s y + s' y) % 2) t x = (eca n R s t x + eca n R s' t x) % 2 := by
  intro t
  induction t with
  | zero => intro x _; rfl
  | succ t ih =>
    intro x hx
    rw [eca_shift, eca_congr hn ih 1 x hx, h _ _ (eca_binary hn hs t) (eca_binary hn hs' t) x hx, ← eca_shift, ← eca_shift]

/-- The row with a single cell in state 1. -/
def pointRow (y x : Nat) : Nat := if x = y then 1 else 0

theorem additive_zero {n R : Nat} (hn : 0 < n) (h : AdditiveOn n R) : ∀ t x, x < n → eca n R (fun _ => 0) t x = 0 := by
  intro t x hx
  have hz : BinaryRow n (fun _ => 0) := fun _ _ => Nat.zero_lt_two
  have := additive_all hn h hz hz t x hx
  have e : (fun _ : Nat => (0 + 0) % 2) = fun _ => 0 := rfl
  rw [e] at this
  omega

/-- Every evolution of an additive rule is the sum modulo 2 of the evolutions from the single cells in state 1. -/
theorem additive_superposition {n R : Nat} (hn : 0 < n) (h : AdditiveOn n R) {s : Nat → Nat} (hs : BinaryRow n s) (t x : Nat) (hx : x < n) :
    eca n R s t x = onesIn n (fun y => s y * eca n R (pointRow y) t x) % 2 := by
  have key : ∀ m, m ≤ n → eca n R (fun y => if y < m then s y else 0) t x = onesIn m (fun y => s y * eca n R (pointRow y) t x) % 2 := by
    intro m
    induction m with
    | zero =>
      intro _
      have e : (fun y => if y < 0 then s y else 0) = fun _ => 0 := by funext y; rw [if_neg (by omega)]
      rw [e, additive_zero hn h t x hx]
      rfl
    | succ m ih =>
      intro hm
      have hp : BinaryRow n (pointRow m) := fun y _ => by unfold pointRow; split <;> decide
      have hcut : BinaryRow n (fun y => if y < m then s y else 0) := fun y hy => by
        dsimp only
        split
        · exact hs y hy
        · exact Nat.zero_lt_two
      have hsm := hs m (by omega)
      rw [onesIn_succ]
      have : s m = 0 ∨ s m = 1 := by omega
      rcases this with h0 | h1
      · rw [h0, Nat.zero_mul, Nat.add_zero (onesIn m _), ← ih (by omega)]
        refine eca_congr hn (fun y _ => ?_) t x hx
        by_cases hy : y = m
        · subst hy
          rw [if_pos (by omega), if_neg (by omega), h0]
        · by_cases hy' : y < m
          · rw [if_pos (by omega), if_pos hy']
          · rw [if_neg (by omega), if_neg hy']
      · rw [h1, Nat.one_mul, Nat.add_mod, ← ih (by omega), Nat.mod_eq_of_lt (eca_binary (R := R) hn hp t x hx),
          ← additive_all hn h hcut hp t x hx]
        refine eca_congr hn (fun y hy0 => ?_) t x hx
        unfold pointRow
        by_cases hy : y = m
        · subst hy
          rw [if_pos (by omega), if_neg (by omega), if_pos rfl, h1]
        · by_cases hy' : y < m
          · rw [if_pos (by omega), if_pos hy', if_neg hy]
            have := hs y hy0
            omega
          · rw [if_neg (by omega), if_neg hy', if_neg hy]
  rw [← key n (Nat.le_refl n)]
  exact eca_congr hn (fun y hy => (if_pos hy).symm) t x hx

/-- Rule 90 on a ring of `2^(k+1)` cells has only cells in state 0 from step `2^k` on. -/
theorem rule90_dies {k : Nat} {s : Nat → Nat} (hs : BinaryRow (2 ^ (k + 1)) s) (t x : Nat) (hx : x < 2 ^ (k + 1)) :
    eca (2 ^ (k + 1)) 90 s (2 ^ k + t) x = 0 := by
  have hn : 0 < 2 ^ (k + 1) := Nat.two_pow_pos _
  have hadd : AdditiveOn (2 ^ (k + 1)) 90 := additive_of_linear (l := 1) (c := 0) (r := 1) (additive_local (90, 1, 0, 1) (by decide))
    (by decide) (by decide) (by decide) hn
  rw [eca_shift, eca_congr hn (s' := fun _ => 0) (fun y hy => ?_) t x hx]
  · exact additive_zero hn hadd t x hx
  · rw [linear_power (l := 1) (c := 0) (r := 1) (by decide) (by decide) (by decide) (additive_local (90, 1, 0, 1) (by decide)) hn k s hs y hy]
    have hp : 2 ^ (k + 1) = 2 ^ k + 2 ^ k := by rw [Nat.pow_succ, Nat.mul_two]
    have h0 : 0 < 2 ^ k := Nat.two_pow_pos _
    have e : leftBy (2 ^ (k + 1)) (2 ^ k) y = (y + 2 ^ k) % 2 ^ (k + 1) := by
      unfold leftBy
      rw [Nat.mod_eq_of_lt (a := 2 ^ k) (by omega)]
      congr 1
      omega
    rw [e]
    omega

end Verif
