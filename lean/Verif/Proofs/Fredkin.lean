import Verif.Model.Fredkin
import Verif.Proofs.TorusCA
import Verif.Proofs.Frobenius
/-! # The copies made by Fredkin's automaton -/

namespace Verif
open Spec

theorem fredkin_rule {A I : Type} (p : Nat) (c : NodeCtx Nat A Int I) (l : List Int)
    (h : c.neighbourActs.Perm (c.current :: l)) : fredkinRule p c = .ok (l.sum % (p : Int)) := by
  unfold fredkinRule
  rw [h.sum_eq, List.sum_cons, add_sub_cancel_left]

theorem sum_single {α : Type} [DecidableEq α] {D : List α} (hD : D.Nodup) {d : α} (hd : d ∈ D) (f : α → Int)
    (h : ∀ e ∈ D, e ≠ d → f e = 0) : (D.map f).sum = f d := by
  induction D with
  | nil => cases hd
  | cons e D ih =>
    rw [List.nodup_cons] at hD
    rw [List.map_cons, List.sum_cons]
    by_cases he : e = d
    · subst he
      have : (D.map f).sum = 0 := by
        apply List.sum_eq_zero
        intro x hx
        obtain ⟨y, hy, rfl⟩ := List.mem_map.1 hx
        exact h y (List.mem_cons_of_mem _ hy) (fun hc => hD.1 (hc ▸ hy))
      rw [this, add_zero]
    · rw [h e (List.mem_cons_self ..) he, zero_add]
      exact ih hD.2 ((List.mem_cons.1 hd).resolve_left (fun hc => he hc.symm)) (fun y hy => h y (List.mem_cons_of_mem _ hy))

/-- Two different multiples of `q` lead from no cell to cells of the same interval of length `q`. -/
theorem interval_once {n q i0 : Nat} (hq : 0 < q) (hn : 3 * q ≤ n) {x d e : Int} (hd : d.natAbs ≤ 1) (he : e.natAbs ≤ 1)
    (h1 : i0 ≤ ((x + q * d) % (n : Int)).toNat ∧ ((x + q * d) % (n : Int)).toNat < i0 + q)
    (h2 : i0 ≤ ((x + q * e) % (n : Int)).toNat ∧ ((x + q * e) % (n : Int)).toNat < i0 + q) : d = e := by
  have hn0 : (n : Int) ≠ 0 := by omega
  have a1 := Int.emod_nonneg (x + q * d) hn0
  have a2 := Int.emod_nonneg (x + q * e) hn0
  have b1 := Int.mul_ediv_add_emod (x + q * d) n
  have b2 := Int.mul_ediv_add_emod (x + q * e) n
  generalize (x + q * d) % (n : Int) = u at *
  generalize (x + q * e) % (n : Int) = v at *
  generalize (x + q * d) / (n : Int) = k at *
  generalize (x + q * e) / (n : Int) = m at *
  -- the difference of the two places is `q * (d - e) - n * (k - m)`
  have key : u - v = q * (d - e) - n * (k - m) := by ring_nf; ring_nf at b1 b2; omega
  have hd' : d = -1 ∨ d = 0 ∨ d = 1 := by omega
  have he' : e = -1 ∨ e = 0 ∨ e = 1 := by omega
  have huv : u - v < q ∧ -(q : Int) < u - v := by omega
  have hz : k - m = 0 ∨ 1 ≤ k - m ∨ k - m ≤ -1 := by omega
  have hle : (q : Int) * (d - e) ≤ 2 * q ∧ -(2 * (q : Int)) ≤ q * (d - e) := by
    rcases hd' with rfl | rfl | rfl <;> rcases he' with rfl | rfl | rfl <;> constructor <;> omega
  have hk : k - m = 0 := by
    rcases hz with h | h | h
    · exact h
    · have : (n : Int) * 1 ≤ n * (k - m) := Int.mul_le_mul_of_nonneg_left h (by omega)
      omega
    · have : (n : Int) * (k - m) ≤ n * (-1) := Int.mul_le_mul_of_nonneg_left h (by omega)
      omega
  rw [hk] at key
  rcases hd' with rfl | rfl | rfl <;> rcases he' with rfl | rfl | rfl <;> first | rfl | omega

end Verif
