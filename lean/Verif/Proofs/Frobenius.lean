import Mathlib.Algebra.CharP.Lemmas
import Mathlib.Algebra.Module.LinearMap.End
import Verif.Spec.TorusCA
/-! # Powers of a sum of translations modulo a prime -/

namespace Verif
open Spec

/-- Translation by `d` on the integer-valued functions on the plane. -/
def shiftBy (d : Int × Int) : Module.End ℤ (Int × Int → Int) where
  toFun u := fun x => u (x + d)
  map_add' _ _ := rfl
  map_smul' _ _ := rfl

theorem shiftBy_commute (d e : Int × Int) : Commute (shiftBy d) (shiftBy e) := by
  apply LinearMap.ext
  intro u
  funext x
  show u (x + d + e) = u (x + e + d)
  rw [add_right_comm]

theorem shiftBy_pow (d : Int × Int) (n : Nat) (u : Int × Int → Int) (x : Int × Int) :
    ((shiftBy d) ^ n) u x = u (x + ((n : Int) * d.1, (n : Int) * d.2)) := by
  induction n generalizing x with
  | zero =>
    show u x = _
    congr 1
    ext <;> simp
  | succ n ih =>
    rw [pow_succ']
    show ((shiftBy d) ^ n) u (x + d) = _
    rw [ih]
    congr 1
    ext <;> simp <;> ring

/-- The sum of the translations by the elements of `D`. -/
def shiftSum (D : List (Int × Int)) : Module.End ℤ (Int × Int → Int) := (D.map shiftBy).sum

theorem shiftSum_apply (D : List (Int × Int)) (u : Int × Int → Int) (x : Int × Int) :
    shiftSum D u x = (D.map (fun d => u (x + d))).sum := by
  induction D with
  | nil => rfl
  | cons d D ih =>
    unfold shiftSum at ih ⊢
    simp only [List.map_cons, List.sum_cons, LinearMap.add_apply, Pi.add_apply, ih]
    rfl

/-- Modulo a prime, the power with exponent `p ^ n` of the sum is the sum of the powers. -/
theorem shiftSum_pow {p : Nat} (hp : p.Prime) (n : Nat) (D : List (Int × Int)) :
    ∃ r : Module.End ℤ (Int × Int → Int),
      (shiftSum D) ^ p ^ n = (D.map (fun d => (shiftBy d) ^ p ^ n)).sum + (p : Module.End ℤ (Int × Int → Int)) * r := by
  induction D with
  | nil => exact ⟨0, by simp [shiftSum, hp.ne_zero]⟩
  | cons d D ih =>
    obtain ⟨r, hr⟩ := ih
    have hcomm : Commute (shiftBy d) (shiftSum D) := by
      apply Commute.list_sum_right
      intro e he
      obtain ⟨d', _, rfl⟩ := List.mem_map.1 he
      exact shiftBy_commute d d'
    obtain ⟨r', hr'⟩ := hcomm.exists_add_pow_prime_pow_eq hp n
    refine ⟨r + shiftBy d * shiftSum D * r', ?_⟩
    show (((d :: D).map shiftBy).sum) ^ p ^ n = _
    rw [List.map_cons, List.sum_cons]
    show (shiftBy d + shiftSum D) ^ p ^ n = _
    rw [hr', hr, List.map_cons, List.sum_cons, mul_add, add_assoc, add_assoc, add_assoc]
    simp only [mul_assoc]

/-- What `shiftSum_pow` says about values. -/
theorem shiftSum_pow_apply {p : Nat} (hp : p.Prime) (n : Nat) (D : List (Int × Int)) (u : Int × Int → Int) (x : Int × Int) :
    (((shiftSum D) ^ p ^ n) u x) % (p : Int) =
      (D.map (fun d => u (x + (((p : Int) ^ n) * d.1, ((p : Int) ^ n) * d.2)))).sum % (p : Int) := by
  obtain ⟨r, hr⟩ := shiftSum_pow hp n D
  rw [hr]
  have h1 : ∀ D : List (Int × Int), (D.map (fun d => (shiftBy d) ^ p ^ n)).sum u x =
      (D.map (fun d => u (x + (((p : Int) ^ n) * d.1, ((p : Int) ^ n) * d.2)))).sum := by
    intro D
    induction D with
    | nil => rfl
    | cons d D ih =>
      simp only [List.map_cons, List.sum_cons, LinearMap.add_apply, Pi.add_apply, ih, shiftBy_pow]
      push_cast
      rfl
  have h2 : ((p : Module.End ℤ (Int × Int → Int)) * r) u x = (p : Int) * (r u x) := by
    rw [Module.End.mul_apply, Module.End.natCast_apply]
    simp
  rw [LinearMap.add_apply, Pi.add_apply, h1, h2, Int.add_mul_emod_self_left]

/-- The automaton that adds up the neighbours modulo `p`, in terms of the translations. -/
theorem fredkin_pow {rows cols : Nat} (hr : 0 < rows) (hc : 0 < cols) (p : Nat) (D : List (Int × Int)) (s : Nat → Nat → Int) (t : Nat)
    (x : Int × Int) :
    (torusAt rows cols (torusCA rows cols D (fun _ l => l.sum % (p : Int)) s t) x.1 x.2) % (p : Int) =
      (((shiftSum D) ^ t) (fun y => torusAt rows cols s y.1 y.2) x) % (p : Int) := by
  induction t generalizing x with
  | zero => simp [torusAt, torusCA]
  | succ t ih =>
    rw [pow_succ', Module.End.mul_apply, shiftSum_apply]
    have hcell : ∀ (i d : Int) (n : Nat), 0 < n → ((((i % (n : Int)).toNat : Nat) : Int) + d) % (n : Int) = (i + d) % (n : Int) := by
      intro i d n hn
      rw [Int.toNat_of_nonneg (Int.emod_nonneg _ (by omega)), Int.emod_add_emod]
    have hsum : ∀ E : List (Int × Int),
        (E.map (fun d => torusAt rows cols (torusCA rows cols D (fun _ l => l.sum % (p : Int)) s t) (x.1 + d.1) (x.2 + d.2))).sum
          % (p : Int) =
        (E.map (fun d => ((shiftSum D) ^ t) (fun y => torusAt rows cols s y.1 y.2) (x + d))).sum % (p : Int) := by
      intro E
      induction E with
      | nil => rfl
      | cons d E ihE =>
        simp only [List.map_cons, List.sum_cons]
        rw [Int.add_emod, ihE, Int.add_emod (((shiftSum D) ^ t) _ (x + d))]
        congr 2
        exact ih (x + d)
    rw [← hsum D]
    show ((torusNbrs rows cols D _ _ _).sum % (p : Int)) % (p : Int) = _
    rw [Int.emod_emod_of_dvd _ (dvd_refl _)]
    congr 2
    unfold torusNbrs
    apply List.map_congr_left
    intro d _
    unfold torusAt
    rw [hcell _ _ _ hr, hcell _ _ _ hc]

/-- After `p ^ k` steps, `p` a prime, every cell holds the sum modulo `p` of the initial values at the distance `p ^ k` in
the directions `D`. -/
theorem fredkin_replicates {rows cols : Nat} (hr : 0 < rows) (hc : 0 < cols) {p : Nat} (hp : p.Prime) (k : Nat)
    (D : List (Int × Int)) (s : Nat → Nat → Int) {a b : Nat} (ha : a < rows) (hb : b < cols) :
    torusCA rows cols D (fun _ l => l.sum % (p : Int)) s (p ^ k) a b =
      (D.map (fun d => torusAt rows cols s ((a : Int) + (p : Int) ^ k * d.1) ((b : Int) + (p : Int) ^ k * d.2))).sum
        % (p : Int) := by
  have h := fredkin_pow hr hc p D s (p ^ k) ((a : Int), (b : Int))
  rw [shiftSum_pow_apply hp] at h
  have hab : torusAt rows cols (torusCA rows cols D (fun _ l => l.sum % (p : Int)) s (p ^ k)) (a : Int) (b : Int) =
      torusCA rows cols D (fun _ l => l.sum % (p : Int)) s (p ^ k) a b := by
    unfold torusAt
    rw [Int.emod_eq_of_lt (by omega) (by omega), Int.emod_eq_of_lt (by omega) (by omega)]
    rfl
  simp only at h
  rw [hab] at h
  obtain ⟨m, hm⟩ : ∃ m, p ^ k = m + 1 := ⟨p ^ k - 1, by have := pow_pos hp.pos k; omega⟩
  refine Eq.trans ?_ h
  rw [hm]
  show _ = ((torusNbrs rows cols D _ _ _).sum % (p : Int)) % (p : Int)
  rw [Int.emod_emod_of_dvd _ (dvd_refl _)]
  rfl

end Verif
