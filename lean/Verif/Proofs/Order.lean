import Verif.Spec.Order
/-! # Lemmas for C160 -/

namespace Verif
open Spec
section
variable {L : Type}

theorem map_sum_le (ls : List L) {p q : L → Int} (h : ∀ x ∈ ls, p x ≤ q x) : (ls.map p).sum ≤ (ls.map q).sum := by
  induction ls with
  | nil => exact Int.le_refl _
  | cons a l ih =>
    rw [List.map_cons, List.map_cons, List.sum_cons, List.sum_cons]
    have h1 := h a (List.mem_cons_self ..)
    have h2 := ih fun x hx => h x (List.mem_cons_of_mem _ hx)
    omega

theorem map_sum_eq (ls : List L) {p q : L → Int} (h : ∀ x ∈ ls, p x ≤ q x) (he : (ls.map q).sum ≤ (ls.map p).sum) : ∀ x ∈ ls, p x = q x := by
  induction ls with
  | nil => intro x hx; cases hx
  | cons a l ih =>
    rw [List.map_cons, List.map_cons, List.sum_cons, List.sum_cons] at he
    have h1 := h a (List.mem_cons_self ..)
    have h2 := map_sum_le l fun x hx => h x (List.mem_cons_of_mem _ hx)
    intro x hx
    rcases List.mem_cons.1 hx with rfl | hx
    · omega
    · exact ih (fun x hx => h x (List.mem_cons_of_mem _ hx)) (by omega) x hx

theorem map_sum_bound (ls : List L) {p : L → Int} {K : Nat} (h : ∀ x ∈ ls, 0 ≤ p x ∧ p x ≤ K) :
    0 ≤ (ls.map p).sum ∧ (ls.map p).sum ≤ ((ls.length * K : Nat) : Int) := by
  induction ls with
  | nil => simp
  | cons a l ih =>
    rw [List.map_cons, List.sum_cons, List.length_cons, Nat.succ_mul]
    have h1 := h a (List.mem_cons_self ..)
    have h2 := ih fun x hx => h x (List.mem_cons_of_mem _ hx)
    omega

/-- A sequence of rows with values from 0 to `K` that keeps its order and starts upwards goes upwards, and has come to rest after `K` times the
number of nodes. -/
theorem chain_up (ls : List L) (K : Nat) (f : Nat → L → Int) (hb : ∀ t, ∀ x ∈ ls, 0 ≤ f t x ∧ f t x ≤ K)
    (hm : ∀ t u, (∀ x ∈ ls, f t x ≤ f u x) → ∀ x ∈ ls, f (t + 1) x ≤ f (u + 1) x) (h0 : ∀ x ∈ ls, f 0 x ≤ f 1 x) :
    (∀ t, ∀ x ∈ ls, f t x ≤ f (t + 1) x) ∧ ∀ t, ls.length * K ≤ t → ∀ x ∈ ls, f t x = f (ls.length * K) x := by
  have up : ∀ t, ∀ x ∈ ls, f t x ≤ f (t + 1) x := by
    intro t
    induction t with
    | zero => exact h0
    | succ t ih => exact hm _ _ ih
  refine ⟨up, ?_⟩
  have stay : ∀ u, (∀ x ∈ ls, f u x = f (u + 1) x) → ∀ d, ∀ x ∈ ls, f (u + d) x = f u x := by
    intro u hu d
    induction d with
    | zero => intro x _; rfl
    | succ d ih =>
      intro x hx
      have a := hm (u + d) u (fun x hx => Int.le_of_eq (ih x hx)) x hx
      have b := hm u (u + d) (fun x hx => Int.le_of_eq (ih x hx).symm) x hx
      have c := hu x hx
      show f (u + d + 1) x = f u x
      omega
  have ex : ∃ u, u ≤ ls.length * K ∧ ∀ x ∈ ls, f u x = f (u + 1) x := by
    apply Classical.byContradiction
    intro hno
    have grow : ∀ t, t ≤ ls.length * K + 1 → (t : Int) ≤ (ls.map (f t)).sum := by
      intro t
      induction t with
      | zero => intro _; exact (map_sum_bound ls (hb 0)).1
      | succ t ih =>
        intro ht
        have h1 := ih (by omega)
        have h2 : (ls.map (f t)).sum < (ls.map (f (t + 1))).sum := by
          apply Classical.byContradiction
          intro hge
          exact hno ⟨t, by omega, map_sum_eq ls (up t) (by omega)⟩
        omega
    have h1 := grow _ (Nat.le_refl _)
    have h2 := (map_sum_bound ls (hb (ls.length * K + 1))).2
    omega
  obtain ⟨u, hu, hst⟩ := ex
  intro t ht x hx
  have h1 := stay u hst (t - u) x hx
  have h2 := stay u hst (ls.length * K - u) x hx
  rw [show u + (t - u) = t by omega] at h1
  rw [show u + (ls.length * K - u) = ls.length * K by omega] at h2
  rw [h1, h2]

/-- The same downwards. -/
theorem chain_down (ls : List L) (K : Nat) (f : Nat → L → Int) (hb : ∀ t, ∀ x ∈ ls, 0 ≤ f t x ∧ f t x ≤ K)
    (hm : ∀ t u, (∀ x ∈ ls, f t x ≤ f u x) → ∀ x ∈ ls, f (t + 1) x ≤ f (u + 1) x) (h0 : ∀ x ∈ ls, f 1 x ≤ f 0 x) :
    (∀ t, ∀ x ∈ ls, f (t + 1) x ≤ f t x) ∧ ∀ t, ls.length * K ≤ t → ∀ x ∈ ls, f t x = f (ls.length * K) x := by
  obtain ⟨h1, h2⟩ := chain_up ls K (fun t x => (K : Int) - f t x) (fun t x hx => by have := hb t x hx; omega)
    (fun t u h x hx => by
      have := hm u t (fun y hy => by have := h y hy; omega) x hx
      omega) (fun x hx => by have := h0 x hx; omega)
  refine ⟨fun t x hx => ?_, fun t ht x hx => ?_⟩
  · have := h1 t x hx
    omega
  · have := h2 t ht x hx
    omega

end

/-- The table of `R` keeps the order of neighbourhoods. -/
def tableUp (R : Nat) : Bool :=
  (List.range 8).all fun i => (List.range 8).all fun j =>
    !(decide (i / 4 ≤ j / 4) && decide (i / 2 % 2 ≤ j / 2 % 2) && decide (i % 2 ≤ j % 2)) || decide (R / 2 ^ i % 2 ≤ R / 2 ^ j % 2)

theorem tableUp_list : ∀ R : Fin 256, tableUp R.1 = true ↔
    R.1 ∈ [0, 128, 136, 160, 168, 170, 192, 200, 204, 224, 232, 234, 236, 238, 240, 248, 250, 252, 254, 255] := by decide +kernel

theorem tableUp_iff (R : Nat) : tableUp R = true ↔ ∀ a b c a' b' c', a' < 2 → b' < 2 → c' < 2 → a ≤ a' → b ≤ b' → c ≤ c' →
    ecaRule R a b c ≤ ecaRule R a' b' c' := by
  unfold tableUp
  simp only [List.all_eq_true, List.mem_range, Bool.or_eq_true, Bool.not_eq_true', decide_eq_true_eq, Bool.and_eq_false_iff,
    decide_eq_false_iff_not]
  constructor
  · intro h a b c a' b' c' ha hb hc h1 h2 h3
    have := h (4 * a + 2 * b + c) (by omega) (4 * a' + 2 * b' + c') (by omega)
    rcases this with hh | hh
    · omega
    · exact hh
  · intro h i hi j hj
    by_cases hc : (i / 4 ≤ j / 4 ∧ i / 2 % 2 ≤ j / 2 % 2) ∧ i % 2 ≤ j % 2
    · right
      have := h (i / 4) (i / 2 % 2) (i % 2) (j / 4) (j / 2 % 2) (j % 2) (by omega) (by omega) (by omega) hc.1.1 hc.1.2 hc.2
      unfold ecaRule at this
      rw [show 4 * (i / 4) + 2 * (i / 2 % 2) + i % 2 = i by omega, show 4 * (j / 4) + 2 * (j / 2 % 2) + j % 2 = j by omega] at this
      exact this
    · left; omega

/-- A row with given states of the last, the first and the second cell. -/
def corner (n a b c x : Nat) : Nat := if x = n - 1 then a else if x = 0 then b else if x = 1 then c else 0

theorem corner_step (n R a b c : Nat) (hn : 3 ≤ n) : eca n R (corner n a b c) 1 0 = ecaRule R a b c := by
  show ecaRule R (corner n a b c ((0 + n - 1) % n)) (corner n a b c 0) (corner n a b c ((0 + 1) % n)) = _
  rw [show (0 + n - 1) % n = n - 1 by rw [Nat.zero_add]; exact Nat.mod_eq_of_lt (by omega), show (0 + 1) % n = 1 from Nat.mod_eq_of_lt (by omega)]
  unfold corner
  rw [if_pos rfl, if_neg (by omega), if_pos rfl, if_neg (by omega), if_neg (by omega), if_pos rfl]

theorem keepsOrder_iff (n R : Nat) (hn : 3 ≤ n) : KeepsOrder n R ↔ tableUp R = true := by
  rw [tableUp_iff]
  constructor
  · intro h a b c a' b' c' ha hb hc h1 h2 h3
    have := h (corner n a b c) (corner n a' b' c') (fun x _ => by unfold corner; split; omega; split; omega; split <;> omega)
      (fun x _ => by unfold corner; split; omega; split; omega; split <;> omega)
      (fun x _ => by unfold corner; split; omega; split; omega; split <;> omega) 0 (by omega)
    rw [corner_step n R _ _ _ hn, corner_step n R _ _ _ hn] at this
    exact this
  · intro h s s' hs hs' hle x hx
    have hn0 : 0 < n := by omega
    exact h _ _ _ _ _ _ (hs' _ (Nat.mod_lt _ hn0)) (hs' x hx) (hs' _ (Nat.mod_lt _ hn0)) (hle _ (Nat.mod_lt _ hn0)) (hle x hx)
      (hle _ (Nat.mod_lt _ hn0))

end Verif
