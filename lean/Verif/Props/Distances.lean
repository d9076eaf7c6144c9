import Verif.Props.Matrix
import Verif.Props.Topology
import Verif.Spec.Functional
import Verif.Proofs.Requests
/-! # Property C151: how far apart the nodes of the regular networks are

`Within N S t x` (`Spec/Functional.lean`): `x` can be reached from a node of `S` along at most `t` edges of the network. -/

namespace Verif
open Spec

/-! ## Offsets -/

theorem split_offset (a b : Nat) (d : Int) (h : d.natAbs ≤ a + b) : ∃ d1 d2 : Int, d = d1 + d2 ∧ d1.natAbs ≤ a ∧ d2.natAbs ≤ b :=
  ⟨d - max (-(b : Int)) (min b d), max (-(b : Int)) (min b d), by omega, by omega, by omega⟩

theorem split_diamond (a b : Nat) (x y : Int) (h : x.natAbs + y.natAbs ≤ a + b) :
    ∃ x1 x2 y1 y2 : Int, x = x1 + x2 ∧ y = y1 + y2 ∧ x1.natAbs + y1.natAbs ≤ a ∧ x2.natAbs + y2.natAbs ≤ b := by
  obtain ⟨c, hc⟩ : ∃ c : Nat, c = b - x.natAbs := ⟨_, rfl⟩
  exact ⟨x - max (-(b : Int)) (min b x), max (-(b : Int)) (min b x), y - max (-(c : Int)) (min c y), max (-(c : Int)) (min c y),
    by omega, by omega, by omega, by omega⟩

/-- A cell is at most `d` steps away on the ring if an offset of at most `d` leads to it. -/
theorem circDist_le_iff {n i j d : Nat} (hi : i < n) (hj : j < n) :
    circDist n i j ≤ d ↔ ∃ k : Int, k.natAbs ≤ d ∧ ((i : Int) + k) % (n : Int) = (j : Int) := by
  have hn : (0 : Int) < n := by omega
  constructor
  · intro h
    unfold circDist at h
    by_cases c : max i j - min i j ≤ d
    · refine ⟨(j : Int) - i, by omega, ?_⟩
      rw [show (i : Int) + ((j : Int) - i) = j by omega]
      exact Int.emod_eq_of_lt (by omega) (by omega)
    · by_cases hij : i ≤ j
      · refine ⟨(j : Int) - i - n, by omega, ?_⟩
        rw [show (i : Int) + ((j : Int) - i - n) = j + n * (-1) by omega, Int.add_mul_emod_self_left]
        exact Int.emod_eq_of_lt (by omega) (by omega)
      · refine ⟨(j : Int) - i + n, by omega, ?_⟩
        rw [show (i : Int) + ((j : Int) - i + n) = j + n * 1 by omega, Int.add_mul_emod_self_left]
        exact Int.emod_eq_of_lt (by omega) (by omega)
  · rintro ⟨k, hk, h⟩
    have e := Int.emod_add_mul_ediv ((i : Int) + k) n
    rw [h] at e
    generalize ((i : Int) + k) / n = q at e
    unfold circDist
    rcases Int.lt_trichotomy q 0 with hq | rfl | hq
    · have := Int.mul_le_mul_of_nonneg_left (show q ≤ -1 by omega) (Int.le_of_lt hn)
      omega
    · omega
    · have := Int.mul_le_mul_of_nonneg_left (show 1 ≤ q by omega) (Int.le_of_lt hn)
      omega

theorem circDist_le_half {n i j : Nat} (hi : i < n) (hj : j < n) : circDist n i j ≤ n / 2 := by unfold circDist; omega

theorem circDist_half {n : Nat} (hn : 0 < n) : circDist n 0 (n / 2) = n / 2 := by unfold circDist; omega

theorem circDist_step {n i j a b : Nat} (hi : i < n) (hj : j < n) :
    circDist n i j ≤ a + b ↔ ∃ k, k < n ∧ circDist n i k ≤ a ∧ circDist n k j ≤ b := by
  have hn : (0 : Int) < n := by omega
  constructor
  · intro h
    obtain ⟨d, h1, h2⟩ := (circDist_le_iff hi hj).1 h
    obtain ⟨d1, d2, rfl, h3, h4⟩ := split_offset a b d h1
    have hk : ((((i : Int) + d1) % n).toNat : Int) = ((i : Int) + d1) % n := Int.toNat_of_nonneg (Int.emod_nonneg _ (by omega))
    have hlt := Int.emod_lt_of_pos ((i : Int) + d1) hn
    refine ⟨(((i : Int) + d1) % n).toNat, by omega, (circDist_le_iff hi (by omega)).2 ⟨d1, h3, hk.symm⟩,
      (circDist_le_iff (by omega) hj).2 ⟨d2, h4, ?_⟩⟩
    rw [hk, Int.emod_add_emod, ← h2]
    congr 1
    omega
  · rintro ⟨k, hk, h1, h2⟩
    obtain ⟨d1, a1, a2⟩ := (circDist_le_iff hi hk).1 h1
    obtain ⟨d2, b1, b2⟩ := (circDist_le_iff hk hj).1 h2
    refine (circDist_le_iff hi hj).2 ⟨d1 + d2, by omega, ?_⟩
    rw [← b2, ← a2, Int.emod_add_emod]
    congr 1
    omega

/-! ## Networks -/

/-- The edges of the network that is made of a matrix: with or without a rotation system. -/
theorem parallel_of_matrix {M : List (List Int)} {N : Net Nat Int} {ordered : Bool}
    (h : (if ordered then orderNetwork (fromAdjacencyMatrix M) else .ok (fromAdjacencyMatrix M)) = .ok N) (i j : Nat) :
    parallel N i j ≠ [] ↔ ∃ v, v ≠ 0 ∧ (M[i]?).bind (fun r => r[j]?) = some v := by
  have hn : N.nodes = (fromAdjacencyMatrix M).nodes := by
    cases ordered with
    | false => simp only [Bool.false_eq_true, if_false, Except.ok.injEq] at h; rw [← h]
    | true =>
      simp only [if_true] at h
      unfold orderNetwork at h
      split at h
      · cases h
      · unfold Net.setRotation at h
        split at h
        · cases h
        · next heq =>
          split at heq
          · cases heq; cases h; rfl
          · cases heq
  have he : N.edge i j = (fromAdjacencyMatrix M).edge i j := by unfold Net.edge; rw [hn]
  unfold parallel
  rw [he, (C09_from_adjacency_matrix M).1 i j]
  cases (M[i]?).bind (fun r => r[j]?) with
  | none => simp
  | some v => by_cases hv : v = 0 <;> simp [hv]

section
variable {L A : Type} [DecidableEq L]

theorem hops_zero {N : Net L A} {S : L → Prop} {x : L} : Within N S 0 x ↔ S x :=
  ⟨fun h => by cases h; assumption, .start⟩

theorem hops_more {N : Net L A} {S : L → Prop} {t : Nat} {x : L} (h : Within N S t x) : Within N S (t + 1) x := by
  induction h with
  | start hs => exact .start hs
  | step _ he ih => exact .step ih he

theorem hops_succ {N : Net L A} {S : L → Prop} {t : Nat} {x : L} :
    Within N S (t + 1) x ↔ Within N S t x ∨ ∃ y, Within N S t y ∧ parallel N y x ≠ [] := by
  constructor
  · intro h
    cases h with
    | start hs => exact Or.inl (.start hs)
    | step h he => exact Or.inr ⟨_, h, he⟩
  · rintro (h | ⟨y, h, he⟩)
    · exact hops_more h
    · exact .step h he

end

/-- C151.  On the ring of radius `r` a cell can be reached along at most `t` edges if and only if it is at most `t * r` cells away. -/
theorem C151_ring {n r : Nat} {ordered : Bool} {N : Net Nat Int} (h : cellularAutomaton n r ordered = .ok N) {i : Nat} (hi : i < n)
    (t j : Nat) : Within N (· = i) t j ↔ j < n ∧ circDist n i j ≤ t * r := by
  unfold cellularAutomaton at h
  have hn : 3 ≤ n := by
    refine Classical.byContradiction fun hc => ?_
    obtain ⟨_, h'⟩ := C40_raises n r "periodic" (Or.inl (by omega)); rw [h'] at h; cases h
  have hr : r ≤ n := by
    refine Classical.byContradiction fun hc => ?_
    rw [C40_radius_too_large n r hn (by omega)] at h; cases h
  obtain ⟨M, h1, h2, h2', h3⟩ := C40_ring n r hn hr
  rw [h1] at h
  have hp : ∀ x y, parallel N x y ≠ [] ↔ x < n ∧ y < n ∧ circDist n x y ≤ r := by
    intro x y
    rw [parallel_of_matrix h]
    constructor
    · rintro ⟨v, hv, he⟩
      obtain ⟨hx, hy⟩ := entry_lt (M := M) ⟨h2, h2'⟩ he
      refine ⟨hx, hy, ?_⟩
      rw [h3 x y hx hy] at he
      by_cases c : circDist n x y ≤ r
      · exact c
      · rw [if_neg c] at he; cases he; exact absurd rfl hv
    · rintro ⟨hx, hy, c⟩
      exact ⟨1, by decide, by rw [h3 x y hx hy, if_pos c]⟩
  induction t generalizing j with
  | zero =>
    rw [hops_zero]
    constructor
    · rintro rfl; exact ⟨hi, by rw [circDist_self]; omega⟩
    · rintro ⟨hj, hc⟩; unfold circDist at hc; omega
  | succ t ih =>
    refine hops_succ.trans ?_
    rw [Nat.succ_mul]
    constructor
    · rintro (hw | ⟨y, hy, he⟩)
      · obtain ⟨hj, hc⟩ := (ih j).1 hw
        exact ⟨hj, by omega⟩
      · obtain ⟨hy1, hy2⟩ := (ih y).1 hy
        obtain ⟨_, hj, hc⟩ := (hp y j).1 he
        exact ⟨hj, (circDist_step hi hj).2 ⟨y, hy1, hy2, hc⟩⟩
    · rintro ⟨hj, hc⟩
      obtain ⟨k, hk, k1, k2⟩ := (circDist_step hi hj).1 hc
      exact Or.inr ⟨k, (ih k).2 ⟨hk, k1⟩, (hp k j).2 ⟨hk, hj, k2⟩⟩

/-- C151.  So every cell can be reached from every cell along at most `t` edges if and only if there are at most `2 t r + 1` cells. -/
theorem C151_ring_all {n r : Nat} {ordered : Bool} {N : Net Nat Int} (h : cellularAutomaton n r ordered = .ok N) (t : Nat) :
    (∀ i j, i < n → j < n → Within N (· = i) t j) ↔ n ≤ 2 * (t * r) + 1 := by
  constructor
  · intro ha
    refine Classical.byContradiction fun hc => ?_
    have := ((C151_ring h (i := 0) (by omega) t (n / 2)).1 (ha 0 (n / 2) (by omega) (by omega))).2
    rw [circDist_half (by omega)] at this
    omega
  · intro hn i j hi hj
    have := circDist_le_half hi hj
    exact (C151_ring h hi t j).2 ⟨hj, by omega⟩

/-! ## Tori -/

/-- Offsets that can be composed of `t` offsets of radius `r`. -/
private structure Layered (P : Nat → Int → Int → Prop) : Prop where
  zero : ∀ dx dy, P 0 dx dy ↔ dx = 0 ∧ dy = 0
  add : ∀ a b x1 y1 x2 y2, P a x1 y1 → P b x2 y2 → P (a + b) (x1 + x2) (y1 + y2)
  split : ∀ a b x y, P (a + b) x y → ∃ x1 x2 y1 y2, x = x1 + x2 ∧ y = y1 + y2 ∧ P a x1 y1 ∧ P b x2 y2
  mono : ∀ a b x y, P a x y → P (a + b) x y

private theorem moore_layered : Layered MooreOffset := by
  unfold MooreOffset
  refine ⟨by omega, by omega, ?_, by omega⟩
  rintro a b x y ⟨hx, hy⟩
  obtain ⟨x1, x2, e1, e2, e3⟩ := split_offset a b x hx
  obtain ⟨y1, y2, f1, f2, f3⟩ := split_offset a b y hy
  exact ⟨x1, x2, y1, y2, e1, f1, ⟨e2, f2⟩, e3, f3⟩

private theorem vonNeumann_layered : Layered VonNeumannOffset := by
  unfold VonNeumannOffset
  exact ⟨by omega, by omega, split_diamond, by omega⟩

private theorem torus_within {P : Nat → Int → Int → Prop} (hP : Layered P) {rows cols r : Nat} {M : List (List Int)}
    (hM : GridMatrix rows cols (fun _ => P r) M) {N : Net Nat Int} {ordered : Bool}
    (h : (if ordered then orderNetwork (fromAdjacencyMatrix M) else .ok (fromAdjacencyMatrix M)) = .ok N) {a b : Nat} (ha : a < rows)
    (hb : b < cols) (t : Nat) : ∀ c d, c < rows → d < cols →
      (Within N (· = a * cols + b) t (c * cols + d) ↔ TorusReach rows cols (P (t * r)) (a, b) (c, d)) := by
  obtain ⟨hM1, hM2, hM3⟩ := hM
  have hrows : (0 : Int) < rows := by omega
  have hcols : (0 : Int) < cols := by omega
  have cell : ∀ {x}, x < rows * cols → ∃ c d, c < rows ∧ d < cols ∧ x = c * cols + d := by
    intro x hx
    have hc : 0 < cols := by omega
    refine ⟨x / cols, x % cols, ?_, Nat.mod_lt _ hc, ?_⟩
    · rw [Nat.div_lt_iff_lt_mul hc]; exact hx
    · rw [Nat.mul_comm]; exact (Nat.div_add_mod x cols).symm
  have hp : ∀ e f c d, e < rows → f < cols → c < rows → d < cols →
      (parallel N (e * cols + f) (c * cols + d) ≠ [] ↔ TorusReach rows cols (P r) (e, f) (c, d)) := by
    intro e f c d he hf hc hd
    rw [parallel_of_matrix h]
    have h1 := hM3 e f c d he hf hc hd
    constructor
    · rintro ⟨v, hv, h2⟩
      refine Classical.byContradiction fun hn => ?_
      rw [h1.2 hn] at h2
      cases h2
      exact hv rfl
    · intro h2
      exact ⟨1, by decide, h1.1 h2⟩
  induction t with
  | zero =>
    intro c d hc hd
    rw [hops_zero, Nat.zero_mul]
    constructor
    · intro he
      have hd' : d = b := by
        have := congrArg (· % cols) he
        simpa [Nat.add_mod, Nat.mod_eq_of_lt hb, Nat.mod_eq_of_lt hd] using this
      subst hd'
      have hc' : c = a := by
        have h1 : c * cols = a * cols := by omega
        exact Nat.eq_of_mul_eq_mul_right (by omega) h1
      subst hc'
      exact ⟨0, 0, (hP.zero _ _).2 ⟨rfl, rfl⟩, by simpa using Int.emod_eq_of_lt (a := (c : Int)) (by omega) (by omega),
        by simpa using Int.emod_eq_of_lt (a := (d : Int)) (by omega) (by omega)⟩
    · rintro ⟨dx, dy, h1, h2, h3⟩
      obtain ⟨rfl, rfl⟩ := (hP.zero _ _).1 h1
      simp only [Int.add_zero] at h2 h3
      rw [Int.emod_eq_of_lt (by omega) (by omega)] at h2 h3
      rw [show c = a by omega, show d = b by omega]
  | succ t ih =>
    intro c d hc hd
    rw [hops_succ, ih c d hc hd, Nat.succ_mul]
    constructor
    · rintro (⟨dx, dy, h1, h2⟩ | ⟨y, hy, he⟩)
      · exact ⟨dx, dy, hP.mono _ _ _ _ h1, h2⟩
      · obtain ⟨v, _, hv⟩ := (parallel_of_matrix h _ _).1 he
        obtain ⟨e, f, he1, hf1, rfl⟩ := cell (entry_lt (M := M) ⟨hM1, hM2⟩ hv).1
        obtain ⟨x1, y1, p1, p2, p3⟩ := (ih e f he1 hf1).1 hy
        obtain ⟨x2, y2, q1, q2, q3⟩ := (hp e f c d he1 hf1 hc hd).1 he
        refine ⟨x1 + x2, y1 + y2, hP.add _ _ _ _ _ _ p1 q1, ?_, ?_⟩
        · simp only at p2 q2 ⊢
          rw [← q2, ← p2, Int.emod_add_emod]; congr 1; omega
        · simp only at p3 q3 ⊢
          rw [← q3, ← p3, Int.emod_add_emod]; congr 1; omega
    · rintro ⟨dx, dy, h1, h2, h3⟩
      obtain ⟨x1, x2, y1, y2, rfl, rfl, s1, s2⟩ := hP.split _ _ _ _ h1
      right
      simp only at h2 h3
      have k1 : ((((a : Int) + x1) % rows).toNat : Int) = ((a : Int) + x1) % rows := Int.toNat_of_nonneg (Int.emod_nonneg _ (by omega))
      have k2 : ((((b : Int) + y1) % cols).toNat : Int) = ((b : Int) + y1) % cols := Int.toNat_of_nonneg (Int.emod_nonneg _ (by omega))
      have l1 := Int.emod_lt_of_pos ((a : Int) + x1) hrows
      have l2 := Int.emod_lt_of_pos ((b : Int) + y1) hcols
      refine ⟨(((a : Int) + x1) % rows).toNat * cols + (((b : Int) + y1) % cols).toNat,
        (ih _ _ (by omega) (by omega)).2 ⟨x1, y1, s1, k1.symm, k2.symm⟩,
        (hp _ _ c d (by omega) (by omega) hc hd).2 ⟨x2, y2, s2, ?_, ?_⟩⟩
      · simp only
        rw [k1, Int.emod_add_emod, ← h2]; congr 1; omega
      · simp only
        rw [k2, Int.emod_add_emod, ← h3]; congr 1; omega

theorem torusReach_moore {rows cols r a b c d : Nat} (ha : a < rows) (hb : b < cols) (hc : c < rows) (hd : d < cols) :
    TorusReach rows cols (MooreOffset r) (a, b) (c, d) ↔ circDist rows a c ≤ r ∧ circDist cols b d ≤ r := by
  rw [circDist_le_iff ha hc, circDist_le_iff hb hd]
  constructor
  · rintro ⟨dx, dy, ⟨h1, h2⟩, h3, h4⟩
    exact ⟨⟨dx, h1, h3⟩, dy, h2, h4⟩
  · rintro ⟨⟨dx, h1, h3⟩, dy, h2, h4⟩
    exact ⟨dx, dy, ⟨h1, h2⟩, h3, h4⟩

theorem torusReach_vonNeumann {rows cols r a b c d : Nat} (ha : a < rows) (hb : b < cols) (hc : c < rows) (hd : d < cols) :
    TorusReach rows cols (VonNeumannOffset r) (a, b) (c, d) ↔ circDist rows a c + circDist cols b d ≤ r := by
  constructor
  · rintro ⟨dx, dy, h, h3, h4⟩
    unfold VonNeumannOffset at h
    have h1 := (circDist_le_iff (d := dx.natAbs) ha hc).2 ⟨dx, Nat.le_refl _, h3⟩
    have h2 := (circDist_le_iff (d := dy.natAbs) hb hd).2 ⟨dy, Nat.le_refl _, h4⟩
    omega
  · intro h
    obtain ⟨dx, h1, h3⟩ := (circDist_le_iff ha hc).1 (Nat.le_refl (circDist rows a c))
    obtain ⟨dy, h2, h4⟩ := (circDist_le_iff hb hd).1 (Nat.le_refl (circDist cols b d))
    exact ⟨dx, dy, by unfold VonNeumannOffset; omega, h3, h4⟩

private theorem torus_size {rows cols r : Nat} {nb : String} {ordered : Bool} {N : Net Nat Int}
    (h : cellularAutomaton2d rows cols r nb ordered = .ok N) : 9 ≤ rows * cols := by
  refine Classical.byContradiction fun hc => ?_
  obtain ⟨e, he⟩ := (C41_raises_iff rows cols r nb "periodic").2 (Or.inl (by omega))
  unfold cellularAutomaton2d at h
  rw [he] at h
  cases h

/-- C151.  On the torus with Moore neighbourhoods of radius `r` a cell can be reached along at most `t` edges if and only if it is at most
`t * r` rows and at most `t * r` columns away. -/
theorem C151_moore {rows cols r : Nat} {ordered : Bool} {N : Net Nat Int} (h : cellularAutomaton2d rows cols r "Moore" ordered = .ok N)
    {a b c d : Nat} (ha : a < rows) (hb : b < cols) (hc : c < rows) (hd : d < cols) (t : Nat) :
    Within N (· = a * cols + b) t (c * cols + d) ↔ circDist rows a c ≤ t * r ∧ circDist cols b d ≤ t * r := by
  have h9 := torus_size h
  obtain ⟨M, h1, h2⟩ := C41_moore rows cols r h9
  unfold cellularAutomaton2d at h
  rw [h1] at h
  rw [torus_within moore_layered h2 h ha hb t c d hc hd, torusReach_moore ha hb hc hd]

/-- C151.  With von Neumann neighbourhoods: if and only if the rows and the columns that it is away are at most `t * r` together. -/
theorem C151_von_neumann {rows cols r : Nat} {ordered : Bool} {N : Net Nat Int}
    (h : cellularAutomaton2d rows cols r "von Neumann" ordered = .ok N)
    {a b c d : Nat} (ha : a < rows) (hb : b < cols) (hc : c < rows) (hd : d < cols) (t : Nat) :
    Within N (· = a * cols + b) t (c * cols + d) ↔ circDist rows a c + circDist cols b d ≤ t * r := by
  have h9 := torus_size h
  obtain ⟨M, h1, h2⟩ := C41_von_neumann rows cols r h9
  unfold cellularAutomaton2d at h
  rw [h1] at h
  rw [torus_within vonNeumann_layered h2 h ha hb t c d hc hd, torusReach_vonNeumann ha hb hc hd]

/-- C151.  Every cell can be reached from every cell along at most `t` edges if and only if the torus has at most `2 t r + 1` rows and
columns (Moore) or half its rows and half its columns, rounded down, are at most `t * r` together (von Neumann). -/
theorem C151_torus_all {rows cols r : Nat} {ordered : Bool} {N : Net Nat Int} (t : Nat) :
    (cellularAutomaton2d rows cols r "Moore" ordered = .ok N →
      ((∀ a b c d, a < rows → b < cols → c < rows → d < cols → Within N (· = a * cols + b) t (c * cols + d)) ↔
        rows ≤ 2 * (t * r) + 1 ∧ cols ≤ 2 * (t * r) + 1)) ∧
    (cellularAutomaton2d rows cols r "von Neumann" ordered = .ok N →
      ((∀ a b c d, a < rows → b < cols → c < rows → d < cols → Within N (· = a * cols + b) t (c * cols + d)) ↔
        rows / 2 + cols / 2 ≤ t * r)) := by
  have pos : 9 ≤ rows * cols → 0 < rows ∧ 0 < cols := by
    intro h9
    constructor
    · rcases Nat.eq_zero_or_pos rows with rfl | h0
      · omega
      · exact h0
    · rcases Nat.eq_zero_or_pos cols with rfl | h0
      · omega
      · exact h0
  constructor
  · intro h
    obtain ⟨hr, hc⟩ := pos (torus_size h)
    constructor
    · intro hall
      have h1 := (C151_moore h (a := 0) (b := 0) hr hc (c := rows / 2) (d := cols / 2) (by omega) (by omega) t).1
        (hall 0 0 _ _ hr hc (by omega) (by omega))
      rw [circDist_half hr, circDist_half hc] at h1
      omega
    · rintro ⟨h1, h2⟩ a b c d ha hb hc hd
      have := circDist_le_half ha hc
      have := circDist_le_half hb hd
      exact (C151_moore h ha hb hc hd t).2 ⟨by omega, by omega⟩
  · intro h
    obtain ⟨hr, hc⟩ := pos (torus_size h)
    constructor
    · intro hall
      have h1 := (C151_von_neumann h (a := 0) (b := 0) hr hc (c := rows / 2) (d := cols / 2) (by omega) (by omega) t).1
        (hall 0 0 _ _ hr hc (by omega) (by omega))
      rw [circDist_half hr, circDist_half hc] at h1
      exact h1
    · intro h1 a b c d ha hb hc hd
      have := circDist_le_half ha hc
      have := circDist_le_half hb hd
      exact (C151_von_neumann h ha hb hc hd t).2 (by omega)

private theorem torus_unordered {rows cols r : Nat} {nb : String} {M : List (List Int)} (h : caAdjacency2d rows cols r nb "periodic" = .ok M) :
    cellularAutomaton2d rows cols r nb false = .ok (fromAdjacencyMatrix M) := by
  unfold cellularAutomaton2d
  rw [h]
  rfl

/-! ## Hexagons -/

theorem hex_matrices : ∃ M1 M2, caAdjacency2d 6 6 1 "Hex" "periodic" = .ok M1 ∧ caAdjacency2d 6 6 2 "Hex" "periodic" = .ok M2 ∧
    (M2[0]?).bind (fun r => r[14]?) = some 1 ∧ (M1[0]?).bind (fun r => r[14]?) = some 0 ∧
    ∀ k : Fin 36, (M1[0]?).bind (fun r => r[k.1]?) = some 0 ∨ (M1[k.1]?).bind (fun r => r[14]?) = some 0 := by
  obtain ⟨M1, h1, _, _, h3⟩ := C41_hex 6 6 1 (by decide)
  obtain ⟨M2, g1, _, _, g3⟩ := C41_hex 6 6 2 (by decide)
  refine ⟨M1, M2, h1, g1, ?_, ?_, ?_⟩
  · exact (g3 0 0 2 2 (by decide) (by decide) (by decide) (by decide)).1 ⟨2, 2, ⟨by decide, by decide, Or.inr (by decide)⟩, by decide, by decide⟩
  · refine (h3 0 0 2 2 (by decide) (by decide) (by decide) (by decide)).2 ?_
    rintro ⟨dx, dy, h, e1, e2⟩
    unfold HexOffset at h
    simp only at e1 e2
    omega
  · intro k
    have hk : k.1 / 6 * 6 + k.1 % 6 = k.1 := by omega
    by_cases c : TorusReach 6 6 (HexOffset 0 1) (0, 0) (k.1 / 6, k.1 % 6)
    · right
      have := (h3 (k.1 / 6) (k.1 % 6) 2 2 (by omega) (by omega) (by decide) (by decide)).2 ?_
      · rwa [hk] at this
      · rintro ⟨dx', dy', h', e1', e2'⟩
        obtain ⟨dx, dy, h, e1, e2⟩ := c
        unfold HexOffset at h h'
        simp only at e1 e2 e1' e2'
        have x1 : dx = 1 := by omega
        have x2 : dx' = 1 := by omega
        subst x1 x2
        have hodd : k.1 / 6 = 1 := by omega
        rw [hodd] at h'
        simp at h h'
        omega
    · left
      have := (h3 0 0 (k.1 / 6) (k.1 % 6) (by decide) (by decide) (by omega) (by omega)).2 c
      rwa [hk] at this

/-- C151.  With Hex neighbourhoods it is not so: an edge of radius 2 leads two rows down and two columns to the right, where two edges of
radius 1 do not lead. -/
theorem C151_hex_radius_two : ∃ N1 N2, cellularAutomaton2d 6 6 1 "Hex" false = .ok N1 ∧ cellularAutomaton2d 6 6 2 "Hex" false = .ok N2 ∧
    Within N2 (· = 0) 1 (2 * 6 + 2) ∧ ¬ Within N1 (· = 0) 2 (2 * 6 + 2) := by
  obtain ⟨M1, M2, h1, h2, h3, h4, h5⟩ := hex_matrices
  have e1 : (if false then orderNetwork (fromAdjacencyMatrix M1) else .ok (fromAdjacencyMatrix M1)) = .ok (fromAdjacencyMatrix M1) := rfl
  have e2 : (if false then orderNetwork (fromAdjacencyMatrix M2) else .ok (fromAdjacencyMatrix M2)) = .ok (fromAdjacencyMatrix M2) := rfl
  refine ⟨fromAdjacencyMatrix M1, fromAdjacencyMatrix M2, torus_unordered h1, torus_unordered h2, ?_, ?_⟩
  · exact hops_succ.2 (Or.inr ⟨0, hops_zero.2 rfl, (parallel_of_matrix (ordered := false) e2 _ _).2 ⟨1, by decide, h3⟩⟩)
  · have hno : ∀ y, parallel (fromAdjacencyMatrix M1) 0 y ≠ [] → parallel (fromAdjacencyMatrix M1) y 14 ≠ [] → False := by
      intro y ha hb
      obtain ⟨v, hv, hv'⟩ := (parallel_of_matrix (ordered := false) e1 _ _).1 ha
      obtain ⟨u, hu, hu'⟩ := (parallel_of_matrix (ordered := false) e1 _ _).1 hb
      obtain ⟨M, m1, m2, m3, _⟩ := C41_hex 6 6 1 (by decide)
      rw [h1] at m1
      cases m1
      have hy := (entry_lt (M := M1) ⟨m2, m3⟩ hv').2
      rcases h5 ⟨y, hy⟩ with h6 | h6
      · rw [show (M1[0]?).bind (fun r => r[y]?) = some 0 from h6] at hv'; cases hv'; exact hv rfl
      · rw [show (M1[y]?).bind (fun r => r[14]?) = some 0 from h6] at hu'; cases hu'; exact hu rfl
    have hdir : parallel (fromAdjacencyMatrix M1) 0 14 = [] := by
      refine Classical.byContradiction fun hc => ?_
      obtain ⟨v, hv, hv'⟩ := (parallel_of_matrix (ordered := false) e1 _ _).1 hc
      rw [h4] at hv'; cases hv'; exact hv rfl
    intro hw
    rcases hops_succ.1 hw with hw | ⟨y, hy, hy'⟩
    · rcases hops_succ.1 hw with hw | ⟨z, hz, hz'⟩
      · have := hops_zero.1 hw; omega
      · have := hops_zero.1 hz; subst this; exact hz' hdir
    · rcases hops_succ.1 hy with hw | ⟨z, hz, hz'⟩
      · have := hops_zero.1 hw; subst this; exact hy' hdir
      · have := hops_zero.1 hz; subst this; exact hno y hz' hy'

/-- The hypotheses are met: the ring of the elementary automata demos, and a torus. -/
example : (∃ N, cellularAutomaton 200 1 true = .ok N) ∧ circDist 200 3 198 = 5 ∧ 200 ≤ 2 * (100 * 1) + 1 ∧ ¬ 200 ≤ 2 * (99 * 1) + 1 := by
  obtain ⟨N, _, h, _⟩ := C43_left_to_right 200 1 (by omega) (by omega)
  exact ⟨⟨N, h⟩, by decide, by decide, by decide⟩
example : ∃ N, cellularAutomaton2d 60 60 1 "von Neumann" false = .ok N := by
  obtain ⟨M, h, _⟩ := C41_von_neumann 60 60 1 (by decide)
  exact ⟨fromAdjacencyMatrix M, torus_unordered h⟩

end Verif
