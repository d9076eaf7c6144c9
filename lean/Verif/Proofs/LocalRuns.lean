import Verif.Spec.LocalRuns
import Verif.Proofs.Density
/-! # Local rules on a ring: mirror images, backgrounds -/

namespace Verif
open Spec

theorem mod_below_three {n a : Nat} (h : a < 3 * n) : a % n = a ∨ a % n + n = a ∨ a % n + 2 * n = a := by
  have h1 := Nat.div_add_mod a n
  have h2 : a / n < 3 := Nat.div_lt_of_lt_mul (by rw [Nat.mul_comm]; exact h)
  generalize a % n = m at *
  generalize a / n = q at *
  rcases (by omega : q = 0 ∨ q = 1 ∨ q = 2) with rfl | rfl | rfl
  · left; omega
  · right; left; omega
  · right; right; omega

theorem reflectCell_lt {n m x : Nat} (hn : 0 < n) : reflectCell n m x < n := Nat.mod_lt _ hn

theorem reflect_place {n r m x k : Nat} (hn : 2 * r + 1 ≤ n) (hm : m < n) (hx : x < n) (hk : k < 2 * r + 1) :
    reflectCell n m ((x + n - r + k) % n) = (reflectCell n m x + n - r + (2 * r - k)) % n := by
  unfold reflectCell
  have a1 := mod_below_three (n := n) (a := x + n - r + k) (by omega)
  have b1 := Nat.mod_lt (x + n - r + k) (by omega : 0 < n)
  generalize (x + n - r + k) % n = y at *
  have a2 := mod_below_three (n := n) (a := m + n - y) (by omega)
  have b2 := Nat.mod_lt (m + n - y) (by omega : 0 < n)
  have a3 := mod_below_three (n := n) (a := m + n - x) (by omega)
  have b3 := Nat.mod_lt (m + n - x) (by omega : 0 < n)
  generalize (m + n - y) % n = u at *
  generalize (m + n - x) % n = v at *
  have a4 := mod_below_three (n := n) (a := v + n - r + (2 * r - k)) (by omega)
  have b4 := Nat.mod_lt (v + n - r + (2 * r - k)) (by omega : 0 < n)
  generalize (v + n - r + (2 * r - k)) % n = z at *
  omega

theorem reverse_map_range {α : Type} (g : Nat → α) (n : Nat) :
    ((List.range (n + 1)).map g).reverse = (List.range (n + 1)).map (fun k => g (n - k)) := by
  apply List.ext_getElem?
  intro i
  by_cases hi : i < n + 1
  · rw [List.getElem?_reverse (by simpa using hi)]
    simp [hi, show n - i < n + 1 by omega]
  · rw [List.getElem?_eq_none (by simp; omega), List.getElem?_eq_none (by simp; omega)]

theorem reflect_window {n r m x : Nat} {s s' : Nat → Nat} (hn : 2 * r + 1 ≤ n) (hm : m < n) (hx : x < n)
    (hs : ∀ y, y < n → s' y = s (reflectCell n m y)) :
    ringWindow n r s' x = (ringWindow n r s (reflectCell n m x)).reverse := by
  unfold ringWindow
  rw [reverse_map_range]
  refine List.map_congr_left ?_
  intro k hk
  rw [List.mem_range] at hk
  rw [hs _ (Nat.mod_lt _ (by omega)), reflect_place hn hm hx hk]

theorem localCA_range {n r k : Nat} {f : List Nat → Nat} (hn : 0 < n)
    (hf : ∀ l : List Nat, l.length = 2 * r + 1 → (∀ v ∈ l, v < k) → f l < k) {s : Nat → Nat} (hs : ∀ x, x < n → s x < k) :
    ∀ t x, x < n → localCA n r f s t x < k := by
  intro t
  induction t with
  | zero => exact hs
  | succ t ih =>
    intro x _
    refine hf _ (by simp [ringWindow]) ?_
    intro v hv
    obtain ⟨j, _, rfl⟩ := List.mem_map.1 hv
    exact ih _ (Nat.mod_lt _ hn)

theorem window_range {n r k : Nat} (hn : 0 < n) {s : Nat → Nat} (hs : ∀ x, x < n → s x < k) (x : Nat) :
    (ringWindow n r s x).length = 2 * r + 1 ∧ ∀ v ∈ ringWindow n r s x, v < k := by
  refine ⟨by simp [ringWindow], ?_⟩
  intro v hv
  obtain ⟨j, _, rfl⟩ := List.mem_map.1 hv
  exact hs _ (Nat.mod_lt _ hn)

/-- A rule that does not tell a window from its mirror image. -/
theorem localCA_reflect {n r k m : Nat} {f : List Nat → Nat} (hn : 2 * r + 1 ≤ n) (hm : m < n)
    (hf : ∀ l : List Nat, l.length = 2 * r + 1 → (∀ v ∈ l, v < k) → f l < k)
    (hrev : ∀ l : List Nat, l.length = 2 * r + 1 → (∀ v ∈ l, v < k) → f l.reverse = f l) {s s' : Nat → Nat}
    (hs : ∀ x, x < n → s x < k) (hs' : ∀ x, x < n → s' x = s (reflectCell n m x)) :
    ∀ t x, x < n → localCA n r f s' t x = localCA n r f s t (reflectCell n m x) := by
  intro t
  induction t with
  | zero => exact hs'
  | succ t ih =>
    intro x hx
    show f _ = f _
    rw [reflect_window hn hm hx ih]
    obtain ⟨h1, h2⟩ := window_range (r := r) (by omega) (localCA_range (r := r) (by omega) hf hs t) (reflectCell n m x)
    exact hrev _ h1 h2

/-- A rule that never tells a window from its mirror image. -/
theorem localCA_mirror {n r m : Nat} {f : List Nat → Nat} (hn : 2 * r + 1 ≤ n) (hm : m < n) (hrev : ∀ l : List Nat, f l.reverse = f l)
    {s s' : Nat → Nat} (hs' : ∀ x, x < n → s' x = s (reflectCell n m x)) :
    ∀ t x, x < n → localCA n r f s' t x = localCA n r f s t (reflectCell n m x) := by
  intro t
  induction t with
  | zero => exact hs'
  | succ t ih =>
    intro x hx
    show f _ = f _
    rw [reflect_window hn hm hx ih]
    exact hrev _

theorem ringCell_add {n x : Nat} (hn : 0 < n) (i j : Int) : ringCell n (ringCell n x i) j = ringCell n x (i + j) := by
  unfold ringCell
  have h1 := Int.emod_nonneg ((x : Int) + i) (by omega : (n : Int) ≠ 0)
  rw [Int.toNat_of_nonneg h1]
  congr 1
  rw [Int.emod_add_emod]
  congr 1
  omega

theorem ringCell_place {n r x k : Nat} (hn : 2 * r + 1 ≤ n) :
    (x + n - r + k) % n = ringCell n x ((k : Int) - (r : Int)) := by
  unfold ringCell
  have : ((x : Int) + ((k : Int) - (r : Int))) % (n : Int) = (((x + n - r + k) % n : Nat) : Int) := by
    rw [Int.natCast_emod, ← Int.add_emod_right]
    congr 1
    omega
  rw [this]; rfl

/-- A state that windows of itself keep spreads no more slowly than `r` cells per step are taken from it. -/
theorem localCA_quiet {n r v : Nat} {f : List Nat → Nat} (hn : 2 * r + 1 ≤ n) (hf : f (List.replicate (2 * r + 1) v) = v) {s : Nat → Nat} :
    ∀ t x, x < n → QuietAround n s v x (r * t) → localCA n r f s t x = v := by
  intro t
  induction t with
  | zero =>
    intro x hx h
    have := h 0 (by simp) (by simp)
    have e : ringCell n x 0 = x := by
      unfold ringCell
      rw [Int.add_zero, Int.emod_eq_of_lt (by omega) (by omega)]
      rfl
    rw [e] at this
    exact this
  | succ t ih =>
    intro x hx h
    show f _ = v
    have : ringWindow n r (localCA n r f s t) x = List.replicate (2 * r + 1) v := by
      unfold ringWindow
      refine map_const _ _ v ?_
      intro k hk
      refine ih _ (Nat.mod_lt _ (by omega)) ?_
      intro j h1 h2
      rw [ringCell_place hn, ringCell_add (by omega)]
      refine h _ ?_ ?_
      all_goals
        rw [Nat.mul_succ]
        push_cast
        push_cast at h1 h2
        generalize (r : Int) * (t : Int) = q at *
        omega
    rw [this, hf]

end Verif
