import Verif.Spec.LifePlane
import Verif.Spec.CA
/-! # Patterns of the Game of Life on a torus -/

namespace Verif
open Spec

theorem conway_dead {n : Nat} (h : conway false n = true) : n = 3 := by simpa [conway] using h

/-- A live cell after a step was alive or has a live neighbour. -/
theorem mem_planeStep (L : List (Int × Int)) (p : Int × Int) : p ∈ planeStep L ↔ aliveNext L p = true := by
  unfold planeStep
  rw [List.mem_filter, List.mem_eraseDups, and_iff_right_iff_imp]
  intro h
  by_cases hp : p ∈ L
  · exact List.mem_flatMap.2 ⟨p, hp, by simp⟩
  · unfold aliveNext at h
    rw [show decide (p ∈ L) = false by simp [hp]] at h
    have h3 := conway_dead h
    have hpos : 0 < aliveAround L p := by omega
    obtain ⟨d, hd, hm⟩ := List.countP_pos_iff.1 hpos
    refine List.mem_flatMap.2 ⟨(p.1 + d.1, p.2 + d.2), by simpa using hm, ?_⟩
    refine List.mem_cons_of_mem _ (List.mem_map.2 ⟨(-d.1, -d.2), ?_, ?_⟩)
    · simp only [moore8, List.mem_cons, List.not_mem_nil, or_false] at hd
      rcases hd with rfl | rfl | rfl | rfl | rfl | rfl | rfl | rfl <;> decide
    · ext <;> simp <;> omega

theorem aliveNext_congr {L L' : List (Int × Int)} (h : SameCells L L') (p : Int × Int) : aliveNext L p = aliveNext L' p := by
  have e : ∀ q, decide (q ∈ L) = decide (q ∈ L') := fun q => decide_eq_decide.2 (h q)
  unfold aliveNext aliveAround
  simp only [e]

theorem planeStep_congr {L L' : List (Int × Int)} (h : SameCells L L') : SameCells (planeStep L) (planeStep L') := by
  intro p
  rw [mem_planeStep, mem_planeStep, aliveNext_congr h]

theorem mem_movedBy {k : Int} {v : Int × Int} {L : List (Int × Int)} {p : Int × Int} :
    p ∈ movedBy k v L ↔ (p.1 - k * v.1, p.2 - k * v.2) ∈ L := by
  unfold movedBy
  rw [List.mem_map]
  constructor
  · rintro ⟨c, hc, rfl⟩
    simpa using hc
  · intro h
    exact ⟨_, h, by ext <;> simp⟩

theorem aliveNext_moved (k : Int) (v : Int × Int) (L : List (Int × Int)) (p : Int × Int) :
    aliveNext (movedBy k v L) p = aliveNext L (p.1 - k * v.1, p.2 - k * v.2) := by
  unfold aliveNext aliveAround
  have e : ∀ q : Int × Int, decide (q ∈ movedBy k v L) = decide ((q.1 - k * v.1, q.2 - k * v.2) ∈ L) :=
    fun q => decide_eq_decide.2 mem_movedBy
  simp only [e]
  congr 1
  apply List.countP_congr
  intro d _
  rw [show p.1 + d.1 - k * v.1 = p.1 - k * v.1 + d.1 by omega, show p.2 + d.2 - k * v.2 = p.2 - k * v.2 + d.2 by omega]

theorem planeStep_moved (k : Int) (v : Int × Int) (L : List (Int × Int)) :
    SameCells (planeStep (movedBy k v L)) (movedBy k v (planeStep L)) := by
  intro p
  rw [mem_planeStep, mem_movedBy, mem_planeStep, aliveNext_moved]

theorem movedBy_congr {L L' : List (Int × Int)} (h : SameCells L L') (k : Int) (v : Int × Int) :
    SameCells (movedBy k v L) (movedBy k v L') := by
  intro p
  rw [mem_movedBy, mem_movedBy]
  exact h _

theorem onTorus_congr {rows cols : Nat} {L L' : List (Int × Int)} (h : SameCells L L') {s : Nat → Nat → Bool} (hs : OnTorus rows cols L s) :
    OnTorus rows cols L' s := by
  intro a b ha hb
  rw [hs a b ha hb]
  exact ⟨fun ⟨c, hc, hh⟩ => ⟨c, (h c).1 hc, hh⟩, fun ⟨c, hc, hh⟩ => ⟨c, (h c).2 hc, hh⟩⟩

theorem fitsIn_congr {rows cols : Nat} {L L' : List (Int × Int)} (h : SameCells L L') (hf : FitsIn rows cols L) : FitsIn rows cols L' := by
  obtain ⟨i, j, hij⟩ := hf
  exact ⟨i, j, fun c hc => hij c ((h c).2 hc)⟩

theorem fitsIn_moved {rows cols : Nat} {L : List (Int × Int)} (hf : FitsIn rows cols L) (k : Int) (v : Int × Int) :
    FitsIn rows cols (movedBy k v L) := by
  obtain ⟨i, j, hij⟩ := hf
  refine ⟨i + k * v.1, j + k * v.2, fun c hc => ?_⟩
  have := hij _ (mem_movedBy.1 hc)
  simp only at this
  omega

/-- Numbers that leave the same remainder and are less than `n` apart are equal. -/
theorem eq_of_close {x y n : Int} (hn : 0 < n) (h : x % n = y % n) (h1 : x - y < n) (h2 : y - x < n) : x = y := by
  have h3 : (x - y) % n = 0 := Int.emod_eq_emod_iff_emod_sub_eq_zero.1 h
  obtain ⟨k, hk⟩ := Int.dvd_of_emod_eq_zero h3
  have hk1 : k < 1 := by
    refine Int.lt_of_not_ge (fun hge => ?_)
    have := Int.mul_le_mul_of_nonneg_left hge (Int.le_of_lt hn)
    omega
  have hk2 : -1 < k := by
    refine Int.lt_of_not_ge (fun hge => ?_)
    have := Int.mul_le_mul_of_nonneg_left hge (Int.le_of_lt hn)
    omega
  have : k = 0 := by omega
  subst this
  omega

/-- The representative of a cell near the rectangle. -/
theorem exists_rep (n : Nat) (hn : 0 < n) (i : Int) (a : Nat) (ha : a < n) : ∃ p : Int, i - 1 ≤ p ∧ p < i - 1 + n ∧ p % (n : Int) = a := by
  have hn' : (0 : Int) < n := by omega
  refine ⟨i - 1 + ((a : Int) - (i - 1)) % n, ?_, ?_, ?_⟩
  · have := Int.emod_nonneg ((a : Int) - (i - 1)) (by omega : (n : Int) ≠ 0); omega
  · have := Int.emod_lt_of_pos ((a : Int) - (i - 1)) hn'; omega
  · rw [Int.add_emod, Int.emod_emod, ← Int.add_emod, show i - 1 + ((a : Int) - (i - 1)) = a by omega]
    exact Int.emod_eq_of_lt (by omega) (by omega)

theorem around_rep {rows cols : Nat} (hr : 3 ≤ rows) (hc : 3 ≤ cols) {a b : Nat} {p : Int × Int} (h1 : p.1 % (rows : Int) = a)
    (h2 : p.2 % (cols : Int) = b) :
    around rows cols a b = moore8.map (fun d => (((p.1 + d.1) % (rows : Int)).toNat, ((p.2 + d.2) % (cols : Int)).toNat)) := by
  have key : ∀ (n : Nat) (x : Int) (c : Nat), 3 ≤ n → x % (n : Int) = c →
      (c + n - 1) % n = ((x + -1) % (n : Int)).toNat ∧ c = ((x + 0) % (n : Int)).toNat ∧ (c + 1) % n = ((x + 1) % (n : Int)).toNat := by
    intro n x c hn h
    have hx := Int.mul_ediv_add_emod x n
    refine ⟨?_, by rw [Int.add_zero, h]; omega, ?_⟩
    · have e : (x + -1) % (n : Int) = ((c : Int) + n - 1) % n := by
        rw [show (c : Int) + n - 1 = (c + -1) + n by omega, Int.add_emod_right, show x + -1 = (c + -1) + n * (x / n) by omega, Int.add_mul_emod_self_left]
      rw [e, show ((c : Int) + n - 1) = ((c + n - 1 : Nat) : Int) by omega, ← Int.natCast_emod]
      omega
    · have e : (x + 1) % (n : Int) = ((c : Int) + 1) % n := by
        rw [show x + 1 = (c + 1) + n * (x / n) by omega, Int.add_mul_emod_self_left]
      rw [e, show ((c : Int) + 1) = ((c + 1 : Nat) : Int) by omega, ← Int.natCast_emod]
      omega
  obtain ⟨k1, k2, k3⟩ := key rows p.1 a hr h1
  obtain ⟨m1, m2, m3⟩ := key cols p.2 b hc h2
  simp only [around, moore8, List.map_cons, List.map_nil, ← k1, ← k2, ← k3, ← m1, ← m2, ← m3]

/-- A step on the torus is a step on the plane, for patterns that leave two rows and columns free. -/
theorem torus_step {rows cols : Nat} (hr : 3 ≤ rows) (hc : 3 ≤ cols) {L : List (Int × Int)} (hf : FitsIn rows cols L)
    {s : Nat → Nat → Bool} (hs : OnTorus rows cols L s) :
    OnTorus rows cols (planeStep L) (fun a b => conway (s a b) ((around rows cols a b).countP (fun p => s p.1 p.2))) := by
  obtain ⟨i, j, hij⟩ := hf
  -- the value of a cell near the rectangle
  have hval : ∀ q : Int × Int, i - 2 ≤ q.1 → q.1 < i + rows → j - 2 ≤ q.2 → q.2 < j + cols →
      s (q.1 % (rows : Int)).toNat (q.2 % (cols : Int)).toNat = decide (q ∈ L) := by
    intro q h1 h2 h3 h4
    have e1 := Int.emod_nonneg q.1 (by omega : (rows : Int) ≠ 0)
    have e2 := Int.emod_lt_of_pos q.1 (by omega : (0 : Int) < rows)
    have e3 := Int.emod_nonneg q.2 (by omega : (cols : Int) ≠ 0)
    have e4 := Int.emod_lt_of_pos q.2 (by omega : (0 : Int) < cols)
    rw [Bool.eq_iff_iff, hs _ _ (by omega) (by omega), decide_eq_true_iff]
    constructor
    · rintro ⟨c, hcL, g1, g2⟩
      obtain ⟨b1, b2, b3, b4⟩ := hij c hcL
      have x1 : c.1 = q.1 := eq_of_close (n := rows) (by omega) (by omega) (by omega) (by omega)
      have x2 : c.2 = q.2 := eq_of_close (n := cols) (by omega) (by omega) (by omega) (by omega)
      rw [show q = c from Prod.ext x1.symm x2.symm]
      exact hcL
    · intro hq
      exact ⟨q, hq, by omega, by omega⟩
  intro a b ha hb
  obtain ⟨p1, u1, u2, u3⟩ := exists_rep rows (by omega) i a ha
  obtain ⟨p2, v1, v2, v3⟩ := exists_rep cols (by omega) j b hb
  have hcur : s a b = decide ((p1, p2) ∈ L) := by
    rw [← hval (p1, p2) (by simp only; omega) (by simp only; omega) (by simp only; omega) (by simp only; omega)]
    simp only [u3, v3, Int.toNat_natCast]
  have hcnt : (around rows cols a b).countP (fun p => s p.1 p.2) = aliveAround L (p1, p2) := by
    rw [around_rep hr hc (p := (p1, p2)) u3 v3, List.countP_map]
    unfold aliveAround
    apply List.countP_congr
    intro d hd
    have hd' : -1 ≤ d.1 ∧ d.1 ≤ 1 ∧ -1 ≤ d.2 ∧ d.2 ≤ 1 := by
      simp only [moore8, List.mem_cons, List.not_mem_nil, or_false] at hd
      rcases hd with rfl | rfl | rfl | rfl | rfl | rfl | rfl | rfl <;> decide
    simp only [Function.comp]
    rw [hval (p1 + d.1, p2 + d.2) (by simp only; omega) (by simp only; omega) (by simp only; omega) (by simp only; omega)]
  simp only [hcur, hcnt]
  constructor
  · intro h
    exact ⟨(p1, p2), (mem_planeStep L _).2 h, u3, v3⟩
  · rintro ⟨c, hcL, g1, g2⟩
    have halive := (mem_planeStep L c).1 hcL
    -- a live cell of the next generation lies at most one cell outside the rectangle
    have hbox : i - 1 ≤ c.1 ∧ c.1 < i + rows - 1 ∧ j - 1 ≤ c.2 ∧ c.2 < j + cols - 1 := by
      unfold planeStep at hcL
      rw [List.mem_filter, List.mem_eraseDups] at hcL
      obtain ⟨c', hc', hm⟩ := List.mem_flatMap.1 hcL.1
      obtain ⟨b1, b2, b3, b4⟩ := hij c' hc'
      rcases List.mem_cons.1 hm with rfl | hm
      · omega
      · obtain ⟨d, hd, rfl⟩ := List.mem_map.1 hm
        have hd' : -1 ≤ d.1 ∧ d.1 ≤ 1 ∧ -1 ≤ d.2 ∧ d.2 ≤ 1 := by
          simp only [moore8, List.mem_cons, List.not_mem_nil, or_false] at hd
          rcases hd with rfl | rfl | rfl | rfl | rfl | rfl | rfl | rfl <;> decide
        simp only
        omega
    have x1 : c.1 = p1 := eq_of_close (n := rows) (by omega) (by rw [g1, u3]) (by omega) (by omega)
    have x2 : c.2 = p2 := eq_of_close (n := cols) (by omega) (by rw [g2, v3]) (by omega) (by omega)
    rw [show c = (p1, p2) from Prod.ext x1 x2] at halive
    exact halive

theorem movedBy_movedBy (k l : Int) (v : Int × Int) (L : List (Int × Int)) : SameCells (movedBy k v (movedBy l v L)) (movedBy (k + l) v L) := by
  intro p
  rw [mem_movedBy, mem_movedBy, mem_movedBy]
  simp only
  rw [show p.1 - k * v.1 - l * v.1 = p.1 - (k + l) * v.1 by rw [Int.add_mul]; omega,
    show p.2 - k * v.2 - l * v.2 = p.2 - (k + l) * v.2 by rw [Int.add_mul]; omega]

/-- A pattern that comes back moved by `v` after `p` steps: all its generations on the torus. -/
theorem pattern_run {rows cols : Nat} (hr : 3 ≤ rows) (hc : 3 ≤ cols) {L : List (Int × Int)} {p : Nat} (hp : 0 < p) {v : Int × Int}
    (hback : SameCells (planeLife L p) (movedBy 1 v L)) (hf : ∀ q, q < p → FitsIn rows cols (planeLife L q)) {s : Nat → Nat → Bool}
    (hs : OnTorus rows cols L s) : ∀ t : Nat, OnTorus rows cols (movedBy ((t / p : Nat) : Int) v (planeLife L (t % p))) (life rows cols s t) := by
  intro t
  induction t with
  | zero =>
    rw [Nat.zero_div, Nat.zero_mod]
    refine onTorus_congr ?_ hs
    intro q
    rw [mem_movedBy]
    simp [planeLife]
  | succ t ih =>
    have hstep := torus_step hr hc (fitsIn_moved (hf (t % p) (Nat.mod_lt _ hp)) _ v) ih
    have hnext : SameCells (planeStep (movedBy ((t / p : Nat) : Int) v (planeLife L (t % p))))
        (movedBy (((t + 1) / p : Nat) : Int) v (planeLife L ((t + 1) % p))) := by
      intro q
      rw [planeStep_moved _ _ _ q]
      have e : planeStep (planeLife L (t % p)) = planeLife L (t % p + 1) := rfl
      rw [e]
      by_cases hlast : t % p + 1 = p
      · have e1 : (t + 1) % p = 0 := by
          rw [Nat.add_mod]
          rcases Nat.lt_or_ge 1 p with h1 | h1
          · rw [Nat.mod_eq_of_lt h1, hlast, Nat.mod_self]
          · have : p = 1 := by omega
            subst this; omega
        have e2 : (t + 1) / p = t / p + 1 := by
          have h1 := Nat.div_add_mod t p
          have h2 := Nat.div_add_mod (t + 1) p
          rw [e1] at h2
          have h3 : p * ((t + 1) / p) = p * (t / p + 1) := by rw [Nat.mul_add]; omega
          exact Nat.eq_of_mul_eq_mul_left hp h3
        rw [e1, e2, hlast, movedBy_congr hback _ v q, movedBy_movedBy _ _ _ _ q]
        simp only [Int.natCast_add, Int.natCast_one]
        rfl
      · have hlt : t % p + 1 < p := by have := Nat.mod_lt t hp; omega
        have h1 := Nat.div_add_mod t p
        have e2 : (t + 1) / p = t / p := by
          rw [show t + 1 = p * (t / p) + (t % p + 1) by omega, Nat.mul_add_div hp, Nat.div_eq_of_lt hlt]; omega
        have e1 : (t + 1) % p = t % p + 1 := by
          rw [show t + 1 = p * (t / p) + (t % p + 1) by omega, Nat.mul_add_mod, Nat.mod_eq_of_lt hlt]
        rw [e1, e2]
    exact onTorus_congr hnext hstep

end Verif
