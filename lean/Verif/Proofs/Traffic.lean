import Verif.Spec.Traffic
import Verif.Proofs.Elementary
/-! # Lemmas about rules 184 and 232

The ring is unrolled to the integers, so that positions can be shifted in both directions. -/

namespace Verif

/-- The row, repeated in both directions. -/
def unrolled (n : Nat) (s : Nat → Nat) (i : Int) : Nat := s (i % (n : Int)).toNat

theorem unrolled_cell {n : Nat} {s : Nat → Nat} {x : Nat} (hx : x < n) : unrolled n s (x : Int) = s x := by
  unfold unrolled
  rw [Int.emod_eq_of_lt (by omega) (by omega)]
  rfl

theorem cast_pos_emod {n : Nat} (hn : 0 < n) (i : Int) : (((i % (n : Int)).toNat : Nat) : Int) = i % n :=
  Int.toNat_of_nonneg (Int.emod_nonneg _ (by omega))

theorem toNat_ring_lt {n : Nat} (hn : 0 < n) (i : Int) : (i % (n : Int)).toNat < n := by
  have h1 := Int.emod_lt_of_pos i (b := (n : Int)) (by omega)
  have h2 := cast_pos_emod hn i
  omega

theorem unrolled_add {n : Nat} (s : Nat → Nat) (i k : Int) : unrolled n s (i + n * k) = unrolled n s i := by
  unfold unrolled
  rw [Int.add_mul_emod_self_left]

theorem unrolled_next {n : Nat} (hn : 0 < n) (s : Nat → Nat) (i : Int) :
    unrolled n s (i + 1) = s (((i % (n : Int)).toNat + 1) % n) := by
  unfold unrolled
  congr 1
  have h := cast_pos_emod hn i
  have h2 : (((((i % (n : Int)).toNat + 1) % n : Nat)) : Int) = (i + 1) % n := by
    rw [Int.natCast_emod, Int.natCast_add, h]
    simp
  omega

theorem unrolled_prev {n : Nat} (hn : 0 < n) (s : Nat → Nat) (i : Int) :
    unrolled n s (i - 1) = s (((i % (n : Int)).toNat + n - 1) % n) := by
  unfold unrolled
  congr 1
  have h := cast_pos_emod hn i
  have h2 : (((((i % (n : Int)).toNat + n - 1) % n : Nat)) : Int) = (i - 1) % n := by
    rw [Int.natCast_emod, show (((i % (n : Int)).toNat + n - 1 : Nat) : Int) = i % n - 1 + n by omega, Int.add_emod_right]
    simp
  omega

theorem unrolled_lt {n : Nat} (hn : 0 < n) {s : Nat → Nat} (hs : BinaryRow n s) (i : Int) : unrolled n s i < 2 :=
  hs _ (toNat_ring_lt hn i)

theorem unrolled_step {n : Nat} (hn : 0 < n) (R : Nat) (s : Nat → Nat) (i : Int) :
    unrolled n (eca n R s 1) i = ecaRule R (unrolled n s (i - 1)) (unrolled n s i) (unrolled n s (i + 1)) := by
  rw [unrolled_prev hn, unrolled_next hn]
  rfl

theorem eca_succ_one {n R : Nat} (s : Nat → Nat) (t : Nat) : eca n R s (t + 1) = eca n R (eca n R s t) 1 := eca_shift s t 1

theorem paired_iff {n v : Nat} (hn : 0 < n) (s : Nat → Nat) :
    Paired n v s ↔ ∃ i : Int, unrolled n s i = v ∧ unrolled n s (i + 1) = v := by
  constructor
  · rintro ⟨x, hx, h1, h2⟩
    refine ⟨x, by rw [unrolled_cell hx, h1], ?_⟩
    rw [unrolled_next hn, show ((x : Int) % (n : Int)).toNat = x by rw [Int.emod_eq_of_lt (by omega) (by omega)]; rfl]
    exact h2
  · rintro ⟨i, h1, h2⟩
    exact ⟨_, toNat_ring_lt hn i, h1, (unrolled_next hn s i).symm.trans h2⟩

/-! ## Rule 184 -/

theorem traffic_table : ∀ a b c : Fin 2, ecaRule 184 a b c = if b.val = 1 then c.val else a.val := by decide

theorem rule184 {a b c : Nat} (ha : a < 2) (hb : b < 2) (hc : c < 2) : ecaRule 184 a b c = if b = 1 then c else a :=
  traffic_table ⟨a, ha⟩ ⟨b, hb⟩ ⟨c, hc⟩

/-- Two ones come from two ones one cell to the right, two zeros from two zeros one cell to the left. -/
theorem jam_back {n : Nat} (hn : 0 < n) {s : Nat → Nat} (hs : BinaryRow n s) {i : Int} (h1 : unrolled n (eca n 184 s 1) i = 1)
    (h2 : unrolled n (eca n 184 s 1) (i + 1) = 1) : unrolled n s (i + 1) = 1 ∧ unrolled n s (i + 1 + 1) = 1 := by
  have b := unrolled_lt hn hs
  rw [unrolled_step hn, rule184 (b _) (b _) (b _)] at h1 h2
  rw [show i + 1 - 1 = i by omega] at h2
  have := b i
  have := b (i + 1)
  grind

theorem gap_back {n : Nat} (hn : 0 < n) {s : Nat → Nat} (hs : BinaryRow n s) {i : Int} (h1 : unrolled n (eca n 184 s 1) i = 0)
    (h2 : unrolled n (eca n 184 s 1) (i + 1) = 0) : unrolled n s (i - 1) = 0 ∧ unrolled n s (i - 1 + 1) = 0 := by
  have b := unrolled_lt hn hs
  rw [unrolled_step hn, rule184 (b _) (b _) (b _)] at h1 h2
  rw [show i + 1 - 1 = i by omega] at h2
  have := b i
  have := b (i + 1)
  grind

theorem jams_back {n : Nat} (hn : 0 < n) {s : Nat → Nat} (hs : BinaryRow n s) {t : Nat} {i : Int}
    (h1 : unrolled n (eca n 184 s t) i = 1) (h2 : unrolled n (eca n 184 s t) (i + 1) = 1) (k : Nat) (hk : k ≤ t) :
    unrolled n (eca n 184 s (t - k)) (i + k) = 1 ∧ unrolled n (eca n 184 s (t - k)) (i + k + 1) = 1 := by
  induction k with
  | zero => simpa using ⟨h1, h2⟩
  | succ k ih =>
    obtain ⟨e1, e2⟩ := ih (by omega)
    rw [show t - k = (t - (k + 1)) + 1 by omega, eca_succ_one] at e1 e2
    have := jam_back hn (eca_binary hn hs _) e1 e2
    rwa [show i + ((k + 1 : Nat) : Int) = i + k + 1 by omega]

theorem gaps_back {n : Nat} (hn : 0 < n) {s : Nat → Nat} (hs : BinaryRow n s) {t : Nat} {i : Int}
    (h1 : unrolled n (eca n 184 s t) i = 0) (h2 : unrolled n (eca n 184 s t) (i + 1) = 0) (k : Nat) (hk : k ≤ t) :
    unrolled n (eca n 184 s (t - k)) (i - k) = 0 ∧ unrolled n (eca n 184 s (t - k)) (i - k + 1) = 0 := by
  induction k with
  | zero => simpa using ⟨h1, h2⟩
  | succ k ih =>
    obtain ⟨e1, e2⟩ := ih (by omega)
    rw [show t - k = (t - (k + 1)) + 1 by omega, eca_succ_one] at e1 e2
    have := gap_back hn (eca_binary hn hs _) e1 e2
    rwa [show i - ((k + 1 : Nat) : Int) = i - k - 1 by omega]

/-- Jams and gaps run into each other: after `(n - 2) / 2` steps one of the two kinds is used up. -/
theorem traffic_settles {n : Nat} (hn : 3 ≤ n) {s : Nat → Nat} (hs : BinaryRow n s) {t : Nat} (ht : n ≤ 2 * t + 3) :
    ¬ (Paired n 1 (eca n 184 s t) ∧ Paired n 0 (eca n 184 s t)) := by
  have hn0 : 0 < n := by omega
  rintro ⟨hj, hg⟩
  obtain ⟨i, i1, i2⟩ := (paired_iff hn0 _).1 hj
  obtain ⟨j, j1, j2⟩ := (paired_iff hn0 _).1 hg
  -- `d` is the distance from the gap to the jam, `k` the number of steps back to where they overlap
  have hd0 := Int.emod_nonneg (i - j) (b := (n : Int)) (by omega)
  have hd1 := Int.emod_lt_of_pos (i - j) (b := (n : Int)) (by omega)
  have hdm := Int.emod_add_mul_ediv (i - j) n
  generalize hq : (i - j) / (n : Int) = q at hdm
  generalize hd : (i - j) % (n : Int) = d at *
  clear hq hd
  have hi : i = j + d + n * q := by omega
  have key : ∀ (k : Nat) (m : Int), k ≤ t → (d + 2 * k = n * m ∨ d + 2 * k = n * m + 1 ∨ d + 2 * k = n * m - 1) → False := by
    intro k m hk hm
    obtain ⟨a1, a2⟩ := jams_back hn0 hs i1 i2 k hk
    obtain ⟨b1, b2⟩ := gaps_back hn0 hs j1 j2 k hk
    have hmul : (n : Int) * (q + m) = n * q + n * m := Int.mul_add _ _ _
    rcases hm with hm | hm | hm
    · rw [show i + (k : Int) = (j - k) + n * (q + m) by omega, unrolled_add] at a1
      omega
    · rw [show i + (k : Int) = (j - k + 1) + n * (q + m) by omega, unrolled_add] at a1
      omega
    · rw [show i + (k : Int) + 1 = (j - k) + n * (q + m) by omega, unrolled_add] at a2
      omega
  by_cases h0 : d = 0
  · exact key 0 0 (by omega) (by omega)
  by_cases h1 : d = 1
  · exact key 0 0 (by omega) (by omega)
  exact key ((n - d).toNat / 2) 1 (by omega) (by omega)

/-! ## Counting -/

theorem onesIn_le_of {n : Nat} {s s' : Nat → Nat} (h : ∀ x, x < n → s x ≤ s' x) : onesIn n s ≤ onesIn n s' := by
  induction n with
  | zero => exact Nat.le_refl _
  | succ n ih =>
    rw [onesIn_succ, onesIn_succ]
    exact Nat.add_le_add (ih (fun x hx => h x (by omega))) (h n (by omega))

theorem onesIn_lt_of {n : Nat} {s s' : Nat → Nat} (h : ∀ x, x < n → s x ≤ s' x) {y : Nat} (hy : y < n) (hlt : s y < s' y) :
    onesIn n s < onesIn n s' := by
  induction n with
  | zero => omega
  | succ n ih =>
    rw [onesIn_succ, onesIn_succ]
    have hle := onesIn_le_of (n := n) (s := s) (s' := s') (fun x hx => h x (by omega))
    have hln := h n (by omega)
    by_cases hyn : y = n
    · subst hyn
      omega
    · have := ih (fun x hx => h x (by omega)) (by omega)
      omega

theorem onesIn_twice (n : Nat) (s : Nat → Nat) : onesIn n (fun x => s x + s ((x + 1) % n)) = 2 * onesIn n s := by
  rw [onesIn_add n s (fun x => s ((x + 1) % n)), onesIn_rotate]
  omega

/-- Without two neighbouring ones at most half of the cells are ones, and fewer if there are two neighbouring zeros. -/
theorem few_ones {n : Nat} (hn : 0 < n) {s : Nat → Nat} (hs : BinaryRow n s) (h : ¬ Paired n 1 s) : 2 * onesIn n s ≤ n ∧
    (Paired n 0 s → 2 * onesIn n s < n) := by
  have hp : ∀ x, x < n → s x + s ((x + 1) % n) ≤ 1 := by
    intro x hx
    have h1 := hs x hx
    have h2 := hs _ (Nat.mod_lt (x + 1) hn)
    have : ¬ (s x = 1 ∧ s ((x + 1) % n) = 1) := fun e => h ⟨x, hx, e⟩
    omega
  have hc := onesIn_const n 1
  rw [← onesIn_twice]
  refine ⟨by have := onesIn_le_of hp; omega, ?_⟩
  rintro ⟨y, hy, h1, h2⟩
  have := onesIn_lt_of hp hy (by omega)
  omega

theorem many_ones {n : Nat} (hn : 0 < n) {s : Nat → Nat} (hs : BinaryRow n s) (h : ¬ Paired n 0 s) : n ≤ 2 * onesIn n s ∧
    (Paired n 1 s → n < 2 * onesIn n s) := by
  have hp : ∀ x, x < n → 1 ≤ s x + s ((x + 1) % n) := by
    intro x hx
    have h1 := hs x hx
    have h2 := hs _ (Nat.mod_lt (x + 1) hn)
    have : ¬ (s x = 0 ∧ s ((x + 1) % n) = 0) := fun e => h ⟨x, hx, e⟩
    omega
  have hc := onesIn_const n 1
  rw [← onesIn_twice]
  refine ⟨by have := onesIn_le_of hp; omega, ?_⟩
  rintro ⟨y, hy, h1, h2⟩
  have := onesIn_lt_of hp hy (by omega)
  omega

theorem traffic_conserves {n : Nat} (hn : 0 < n) {s : Nat → Nat} (hs : BinaryRow n s) (t : Nat) :
    onesIn n (eca n 184 s t) = onesIn n s := by
  obtain ⟨f, hf, he⟩ := conserving_flows 184 (by decide)
  exact conserves_all hn (he ▸ flow_conserves (flows_ok f hf) hn) hs t

/-- Which of the two kinds is used up is decided by the majority. -/
theorem no_jam {n : Nat} (hn : 3 ≤ n) {s : Nat → Nat} (hs : BinaryRow n s) {t : Nat} (ht : n ≤ 2 * t + 3) (h : 2 * onesIn n s ≤ n) :
    ¬ Paired n 1 (eca n 184 s t) := by
  intro hj
  have hg : ¬ Paired n 0 (eca n 184 s t) := fun hg => traffic_settles hn hs ht ⟨hj, hg⟩
  have := (many_ones (by omega) (eca_binary (by omega) hs t) hg).2 hj
  rw [traffic_conserves (by omega) hs] at this
  omega

theorem no_gap {n : Nat} (hn : 3 ≤ n) {s : Nat → Nat} (hs : BinaryRow n s) {t : Nat} (ht : n ≤ 2 * t + 3) (h : n ≤ 2 * onesIn n s) :
    ¬ Paired n 0 (eca n 184 s t) := by
  intro hg
  have hj : ¬ Paired n 1 (eca n 184 s t) := fun hj => traffic_settles hn hs ht ⟨hj, hg⟩
  have := (few_ones (by omega) (eca_binary (by omega) hs t) hj).2 hg
  rw [traffic_conserves (by omega) hs] at this
  omega

/-! ## Rule 232 -/

theorem majority_table : ∀ a b c : Fin 2, ecaRule 232 a b c = if a.val = c.val then a.val else b.val := by decide

theorem rule232 {a b c : Nat} (ha : a < 2) (hb : b < 2) (hc : c < 2) : ecaRule 232 a b c = if a = c then a else b :=
  majority_table ⟨a, ha⟩ ⟨b, hb⟩ ⟨c, hc⟩

/-- Without two neighbouring cells in state `v`, a cell in state `v` has two neighbours that were in state `v`. -/
theorem vote_back {n v : Nat} (hn : 0 < n) {s : Nat → Nat} (hs : BinaryRow n s) (hv : v < 2) (hp : ¬ Paired n v s) {i : Int}
    (h : unrolled n (eca n 232 s 1) i = v) : unrolled n s (i - 1) = v ∧ unrolled n s (i + 1) = v := by
  have b := unrolled_lt hn hs
  rw [unrolled_step hn, rule232 (b _) (b _) (b _)] at h
  have p1 : ¬ (unrolled n s (i - 1) = v ∧ unrolled n s i = v) := fun e =>
    hp ((paired_iff hn s).2 ⟨i - 1, e.1, by rw [show i - 1 + 1 = i by omega]; exact e.2⟩)
  have p2 : ¬ (unrolled n s i = v ∧ unrolled n s (i + 1) = v) := fun e => hp ((paired_iff hn s).2 ⟨i, e⟩)
  have := b i
  have := b (i + 1)
  have := b (i - 1)
  grind

theorem vote_pair {n v : Nat} (hn : 0 < n) {s : Nat → Nat} (hs : BinaryRow n s) (hv : v < 2) (hp : ¬ Paired n v s) (t : Nat) :
    ¬ Paired n v (eca n 232 s t) := by
  induction t with
  | zero => exact hp
  | succ t ih =>
    intro h
    rw [eca_succ_one] at h
    obtain ⟨i, h1, h2⟩ := (paired_iff hn _).1 h
    have e1 := vote_back hn (eca_binary hn hs t) hv ih h1
    have e2 := vote_back hn (eca_binary hn hs t) hv ih h2
    rw [show i + 1 - 1 = i by omega] at e2
    exact ih ((paired_iff hn _).2 ⟨i, e2.1, e1.2⟩)

theorem votes_back {n v : Nat} (hn : 0 < n) {s : Nat → Nat} (hs : BinaryRow n s) (hv : v < 2) (hp : ¬ Paired n v s) (t : Nat) :
    ∀ i : Int, unrolled n (eca n 232 s t) i = v → ∀ k : Nat, k ≤ t → unrolled n s (i - t + 2 * k) = v := by
  induction t with
  | zero =>
    intro i h k hk
    rw [show i - ((0 : Nat) : Int) + 2 * k = i by omega]
    exact h
  | succ t ih =>
    intro i h k hk
    rw [eca_succ_one] at h
    obtain ⟨e1, e2⟩ := vote_back hn (eca_binary hn hs t) hv (vote_pair hn hs hv hp t) h
    by_cases hkt : k ≤ t
    · have := ih _ e1 k hkt
      rwa [show i - 1 - (t : Int) + 2 * k = i - ((t + 1 : Nat) : Int) + 2 * k by omega] at this
    · have := ih _ e2 t (Nat.le_refl t)
      rwa [show i + 1 - (t : Int) + 2 * (t : Int) = i - ((t + 1 : Nat) : Int) + 2 * k by omega] at this

/-- A row without two neighbours in state `v`, but with two in the other state, turns uniform. -/
theorem vote_settles {n v w : Nat} (hn : 3 ≤ n) {s : Nat → Nat} (hs : BinaryRow n s) (hv : v < 2) (hw : w < 2) (hvw : v ≠ w)
    (hp : ¬ Paired n v s) (hq : Paired n w s) {t : Nat} (ht : n ≤ 2 * t + 2) : Uniform n w (eca n 232 s t) := by
  have hn0 : 0 < n := by omega
  intro x hx
  have hb := eca_binary (R := 232) hn0 hs t x hx
  refine Classical.byContradiction (fun hne => ?_)
  have hxv : unrolled n (eca n 232 s t) (x : Int) = v := by
    rw [unrolled_cell hx]
    omega
  have hback := votes_back hn0 hs hv hp t _ hxv
  obtain ⟨j, j1, j2⟩ := (paired_iff hn0 _).1 hq
  generalize hi : (x : Int) - t = i at hback
  clear hi hxv hne hb
  have hd0 := Int.emod_nonneg (j - i) (b := (n : Int)) (by omega)
  have hd1 := Int.emod_lt_of_pos (j - i) (b := (n : Int)) (by omega)
  have hdm := Int.emod_add_mul_ediv (j - i) n
  generalize (j - i) / (n : Int) = q at hdm
  generalize (j - i) % (n : Int) = d at *
  by_cases h2 : d % 2 = 0
  · have := hback (d.toNat / 2) (by omega)
    rw [show i + 2 * ((d.toNat / 2 : Nat) : Int) = j + n * (-q) by rw [Int.mul_neg]; omega, unrolled_add] at this
    omega
  · by_cases hl : d = n - 1
    · have := hback 0 (by omega)
      rw [show i + 2 * ((0 : Nat) : Int) = j + 1 + n * (-(q + 1)) by rw [Int.mul_neg, Int.mul_add]; omega, unrolled_add] at this
      omega
    · have := hback ((d.toNat + 1) / 2) (by omega)
      rw [show i + 2 * (((d.toNat + 1) / 2 : Nat) : Int) = j + 1 + n * (-q) by rw [Int.mul_neg]; omega, unrolled_add] at this
      omega

/-! ## Moving cells -/

/-- Without jams every one moves a cell to the right, without gaps every zero a cell to the left. -/
theorem free_flow {n : Nat} (hn : 0 < n) {s : Nat → Nat} (hs : BinaryRow n s) (h : ¬ Paired n 1 s) (x : Nat) (hx : x < n) :
    eca n 184 s 1 ((x + 1) % n) = s x := by
  have b := unrolled_lt hn hs
  have e := unrolled_step hn 184 s ((x : Int) + 1)
  rw [unrolled_next hn, rule184 (b _) (b _) (b _), show (x : Int) + 1 - 1 = x by omega, unrolled_cell hx,
    show ((x : Int) % (n : Int)).toNat = x by rw [Int.emod_eq_of_lt (by omega) (by omega)]; rfl] at e
  have p1 : ¬ (unrolled n s x = 1 ∧ unrolled n s (x + 1) = 1) := fun e => h ((paired_iff hn s).2 ⟨x, e⟩)
  have p2 : ¬ (unrolled n s (x + 1) = 1 ∧ unrolled n s (x + 1 + 1) = 1) := fun e => h ((paired_iff hn s).2 ⟨x + 1, e⟩)
  rw [unrolled_cell hx] at p1
  have := b (x + 1 + 1)
  have := hs x hx
  rw [e]
  split <;> omega

theorem jammed_flow {n : Nat} (hn : 0 < n) {s : Nat → Nat} (hs : BinaryRow n s) (h : ¬ Paired n 0 s) (x : Nat) (hx : x < n) :
    eca n 184 s 1 x = s ((x + 1) % n) := by
  have b := unrolled_lt hn hs
  have e := unrolled_step hn 184 s (x : Int)
  have hm : ((x : Int) % (n : Int)).toNat = x := by rw [Int.emod_eq_of_lt (by omega) (by omega)]; rfl
  rw [unrolled_cell hx, rule184 (b _) (b _) (b _)] at e
  have hnext := unrolled_next hn s x
  rw [hm] at hnext
  rw [← hnext]
  have p1 : ¬ (unrolled n s x = 0 ∧ unrolled n s (x + 1) = 0) := fun e => h ((paired_iff hn s).2 ⟨x, e⟩)
  have p2 : ¬ (unrolled n s (x - 1) = 0 ∧ unrolled n s (x - 1 + 1) = 0) := fun e => h ((paired_iff hn s).2 ⟨x - 1, e⟩)
  rw [show (x : Int) - 1 + 1 = x by omega] at p2
  have := b (x + 1)
  have := b (x - 1)
  have := b x
  rw [e]
  split <;> omega

/-- A row in which neighbours always differ changes every cell under rule 232. -/
theorem vote_tie {n : Nat} (hn : 0 < n) {s : Nat → Nat} (hs : BinaryRow n s) (h1 : ¬ Paired n 1 s) (h0 : ¬ Paired n 0 s) (t : Nat) :
    ∀ x, x < n → eca n 232 s t x ≠ eca n 232 s t ((x + 1) % n) := by
  intro x hx he
  have a := vote_pair hn hs (v := 1) (by decide) h1 t
  have c := vote_pair hn hs (v := 0) (by decide) h0 t
  have hb := eca_binary (R := 232) hn hs t x hx
  have : eca n 232 s t x = 0 ∨ eca n 232 s t x = 1 := by omega
  rcases this with e | e
  · exact c ⟨x, hx, e, by rw [← he]; exact e⟩
  · exact a ⟨x, hx, e, by rw [← he]; exact e⟩

/-! ## The longest jam -/

/-- A row with the jam as far behind the gap as possible, and its successors. -/
def farRow (n t x : Nat) : Nat := if x ≤ t ∨ n - 2 - t < x then (x + t) % 2 else (x + t + 1) % 2

theorem farRow_step {n : Nat} (hn : 4 ≤ n) (h2 : n % 2 = 0) {t : Nat} (ht : 2 * t + 4 ≤ n) (x : Nat) (hx : x < n) :
    ecaRule 184 (farRow n t ((x + n - 1) % n)) (farRow n t x) (farRow n t ((x + 1) % n)) = farRow n (t + 1) x := by
  have b : ∀ y, farRow n t y < 2 := by
    intro y
    unfold farRow
    split <;> omega
  rw [rule184 (b _) (b _) (b _)]
  have hl : (x + n - 1) % n = if x = 0 then n - 1 else x - 1 := by
    split
    · next h => subst h; rw [Nat.mod_eq_of_lt (by omega)]; omega
    · rw [show x + n - 1 = x - 1 + n by omega, Nat.add_mod_right, Nat.mod_eq_of_lt (by omega)]
  have hr : (x + 1) % n = if x = n - 1 then 0 else x + 1 := by
    split
    · next h => rw [h, show n - 1 + 1 = n by omega, Nat.mod_self]
    · exact Nat.mod_eq_of_lt (by omega)
  rw [hl, hr]
  unfold farRow
  grind

theorem farRow_eca {n : Nat} (hn : 4 ≤ n) (h2 : n % 2 = 0) (t : Nat) (ht : 2 * t + 2 ≤ n) :
    ∀ x, x < n → eca n 184 (farRow n 0) t x = farRow n t x := by
  induction t with
  | zero => exact fun x _ => rfl
  | succ t ih =>
    intro x hx
    have hl := Nat.mod_lt (x + n - 1) (show 0 < n by omega)
    have hr := Nat.mod_lt (x + 1) (show 0 < n by omega)
    show ecaRule 184 _ _ _ = _
    rw [ih (by omega) x hx, ih (by omega) _ hl, ih (by omega) _ hr]
    exact farRow_step hn h2 (by omega) x hx

theorem farRow_pairs {n : Nat} (hn : 4 ≤ n) (h2 : n % 2 = 0) (t : Nat) (ht : 2 * t + 4 ≤ n) :
    Paired n 0 (farRow n t) ∧ Paired n 1 (farRow n t) := by
  refine ⟨⟨t, by omega, ?_, ?_⟩, ⟨n - 2 - t, by omega, ?_, ?_⟩⟩ <;> (try rw [Nat.mod_eq_of_lt (by omega)]) <;> unfold farRow <;>
    split <;> omega

end Verif
