import Verif.Spec.Majority
import Verif.Props.Perturb
/-! # The energy of the majority vote -/

namespace Verif
open Spec

variable {L : Type}

/-- Sum of `f` over a list. -/
def over (ls : List L) (f : L → Int) : Int := (ls.map f).sum

theorem over_cons (x : L) (ls : List L) (f : L → Int) : over (x :: ls) f = f x + over ls f := by
  simp [over]

theorem over_add (ls : List L) (f g : L → Int) : over ls (fun x => f x + g x) = over ls f + over ls g := by
  induction ls with
  | nil => rfl
  | cons x ls ih => rw [over_cons, over_cons, over_cons, ih]; omega

theorem over_mul (ls : List L) (a : Int) (f : L → Int) : over ls (fun x => a * f x) = a * over ls f := by
  induction ls with
  | nil => simp [over]
  | cons x ls ih => rw [over_cons, over_cons, ih, Int.mul_add]

theorem over_congr {ls : List L} {f g : L → Int} (h : ∀ x ∈ ls, f x = g x) : over ls f = over ls g := by
  unfold over
  rw [List.map_congr_left h]

theorem over_le {ls : List L} {f g : L → Int} (h : ∀ x ∈ ls, f x ≤ g x) : over ls f ≤ over ls g := by
  induction ls with
  | nil => exact Int.le_refl _
  | cons x ls ih =>
    rw [over_cons, over_cons]
    have := ih (fun y hy => h y (List.mem_cons_of_mem _ hy))
    have := h x (List.mem_cons_self ..)
    omega

theorem over_gap {ls : List L} {f : L → Int} {c : Int} (h : ∀ x ∈ ls, 0 ≤ f x) {x : L} (hx : x ∈ ls) (hc : c ≤ f x) : c ≤ over ls f := by
  induction ls with
  | nil => cases hx
  | cons y ls ih =>
    rw [over_cons]
    have h0 : 0 ≤ over ls f := by
      have := over_le (f := fun _ => 0) (g := f) (fun z hz => h z (List.mem_cons_of_mem y hz))
      have e : over ls (fun _ => (0 : Int)) = 0 := by
        have := over_mul ls 0 (fun _ => (0 : Int))
        simpa using this
      omega
    have hy := h y (List.mem_cons_self ..)
    rcases List.mem_cons.1 hx with rfl | hx
    · omega
    · have := ih (fun z hz => h z (List.mem_cons_of_mem y hz)) hx
      omega

theorem over_comm (ls ks : List L) (f : L → L → Int) : over ls (fun x => over ks (f x)) = over ks (fun y => over ls (fun x => f x y)) := by
  induction ls with
  | nil =>
    have := over_mul ks 0 (fun _ => (0 : Int))
    simp only [Int.zero_mul] at this
    exact this.symm
  | cons x ls ih =>
    rw [over_cons, ih, ← over_add]
    refine over_congr (fun y _ => ?_)
    rw [over_cons]

variable [DecidableEq L]

theorem over_filter (ls : List L) (p : L → Prop) [DecidablePred p] (f : L → Int) :
    over (ls.filter (fun x => decide (p x))) f = over ls (fun x => if p x then f x else 0) := by
  induction ls with
  | nil => rfl
  | cons x ls ih =>
    rw [over_cons, List.filter_cons, ← ih]
    by_cases h : p x
    · rw [if_pos (by simpa using h), over_cons, if_pos h]
    · rw [if_neg (by simpa using h), if_neg h]; omega

/-- Sum over a neighbourhood as a sum over all nodes. -/
theorem over_nb {ls : List L} {nb : L → List L} (h : OddUndirected ls nb) {x : L} (hx : x ∈ ls) (f : L → Int) :
    over (nb x) f = over ls (fun y => if y ∈ nb x then f y else 0) := by
  rw [← over_filter ls (fun y => y ∈ nb x) f]
  unfold over
  refine int_sum_perm (List.Perm.map f ?_)
  refine (List.perm_ext_iff_of_nodup (h.once x hx) (h.nodup.filter _)).2 (fun y => ?_)
  simp only [List.mem_filter, decide_eq_true_eq]
  exact ⟨fun hy => ⟨h.closed x hx y hy, hy⟩, fun hy => hy.2⟩

/-- In an undirected network the two ways of summing over the pairs of neighbours agree. -/
theorem over_swap {ls : List L} {nb : L → List L} (h : OddUndirected ls nb) (f g : L → Int) :
    over ls (fun x => f x * over (nb x) g) = over ls (fun x => g x * over (nb x) f) := by
  have e1 : over ls (fun x => f x * over (nb x) g) = over ls (fun x => over ls (fun y => if y ∈ nb x then f x * g y else 0)) := by
    refine over_congr (fun x hx => ?_)
    rw [over_nb h hx, ← over_mul]
    refine over_congr (fun y _ => ?_)
    split <;> simp
  have e2 : over ls (fun x => g x * over (nb x) f) = over ls (fun x => over ls (fun y => if y ∈ nb x then g x * f y else 0)) := by
    refine over_congr (fun x hx => ?_)
    rw [over_nb h hx, ← over_mul]
    refine over_congr (fun y _ => ?_)
    split <;> simp
  rw [e1, e2, over_comm]
  refine over_congr (fun y hy => over_congr (fun x hx => ?_))
  by_cases hxy : y ∈ nb x
  · rw [if_pos hxy, if_pos ((h.symm x hx y hy).1 hxy), Int.mul_comm]
  · rw [if_neg hxy, if_neg (fun hc => hxy ((h.symm x hx y hy).2 hc))]

/-- The vote as a sign. -/
def sgn (v : Int) : Int := 2 * v - 1

omit [DecidableEq L] in
theorem over_sgn (ls : List L) (f : L → Int) : over ls (fun x => sgn (f x)) = 2 * over ls f - ls.length := by
  induction ls with
  | nil => rfl
  | cons x ls ih =>
    rw [over_cons, over_cons, ih, List.length_cons]
    unfold sgn
    push_cast
    omega

section
variable {ls : List L} {nb : L → List L} {s : L → Int}

/-- What the neighbours of `x` say at time `t`. -/
def field (nb : L → List L) (s : L → Int) (t : Nat) (x : L) : Int := over (nb x) (fun y => sgn (votes nb s t y))

/-- Agreement of consecutive states. -/
def agreement (ls : List L) (nb : L → List L) (s : L → Int) (t : Nat) : Int :=
  over ls (fun x => sgn (votes nb s (t + 1) x) * field nb s t x)

omit [DecidableEq L] in
theorem votes_binary (h : ∀ x ∈ ls, s x = 0 ∨ s x = 1) : ∀ t, ∀ x ∈ ls, votes nb s t x = 0 ∨ votes nb s t x = 1
  | 0, x, hx => h x hx
  | t + 1, x, hx => by
    unfold votes
    split
    · exact Or.inr rfl
    · exact Or.inl rfl

omit [DecidableEq L] in
/-- The vote follows the sign of the field, which is never zero. -/
theorem votes_sign (h : OddUndirected ls nb) (t : Nat) {x : L} (hx : x ∈ ls) :
    (sgn (votes nb s (t + 1) x) = 1 ∧ 1 ≤ field nb s t x) ∨ (sgn (votes nb s (t + 1) x) = -1 ∧ field nb s t x ≤ -1) := by
  have hf : field nb s t x = 2 * over (nb x) (votes nb s t) - (nb x).length := over_sgn _ _
  have ho := h.odd x hx
  have hv : votes nb s (t + 1) x = if ((nb x).length : Int) < 2 * over (nb x) (votes nb s t) then 1 else 0 := rfl
  rw [hv, hf]
  generalize over (nb x) (votes nb s t) = z
  generalize (nb x).length = m at *
  by_cases hc : (m : Int) < 2 * z
  · rw [if_pos hc]; left; exact ⟨rfl, by omega⟩
  · rw [if_neg hc]; right; exact ⟨rfl, by omega⟩

omit [DecidableEq L] in
theorem over_bound {ks : List L} {f : L → Int} (h : ∀ x ∈ ks, f x = 0 ∨ f x = 1) : 0 ≤ over ks f ∧ over ks f ≤ ks.length := by
  induction ks with
  | nil => exact ⟨Int.le_refl _, Int.le_refl _⟩
  | cons x ks ih =>
    rw [over_cons, List.length_cons]
    have := ih (fun y hy => h y (List.mem_cons_of_mem _ hy))
    have := h x (List.mem_cons_self ..)
    push_cast
    omega

omit [DecidableEq L] in
/-- The agreement is at least the number of voters and at most the number of pairs of neighbours. -/
theorem agreement_bound (h : OddUndirected ls nb) (hs : ∀ x ∈ ls, s x = 0 ∨ s x = 1) (t : Nat) :
    (ls.length : Int) ≤ agreement ls nb s t ∧ agreement ls nb s t ≤ pairsOf ls nb := by
  have key : ∀ x ∈ ls, 1 ≤ sgn (votes nb s (t + 1) x) * field nb s t x ∧ sgn (votes nb s (t + 1) x) * field nb s t x ≤ (nb x).length := by
    intro x hx
    have hf : field nb s t x = 2 * over (nb x) (votes nb s t) - (nb x).length := over_sgn _ _
    have hb := over_bound (ks := nb x) (f := votes nb s t) (fun y hy => votes_binary hs t y (h.closed x hx y hy))
    rcases votes_sign (s := s) h t hx with ⟨h1, h2⟩ | ⟨h1, h2⟩ <;> rw [h1] <;> omega
  constructor
  · have := over_le (f := fun _ => 1) (fun x hx => (key x hx).1)
    have e : over ls (fun _ => (1 : Int)) = ls.length := by
      clear key h hs this
      induction ls with
      | nil => rfl
      | cons x ls ih => rw [over_cons, ih, List.length_cons]; push_cast; omega
    unfold agreement
    omega
  · refine Int.le_trans (over_le (fun x hx => (key x hx).2)) ?_
    unfold over pairsOf
    clear key h hs
    induction ls with
    | nil => exact Int.le_refl _
    | cons x ls ih => simp only [List.map_cons, List.sum_cons]; push_cast; omega

/-- The agreement grows by at least two while some voter differs from two timesteps before. -/
theorem agreement_grows (h : OddUndirected ls nb) (hs : ∀ x ∈ ls, s x = 0 ∨ s x = 1) (t : Nat) {x : L} (hx : x ∈ ls)
    (hne : votes nb s (t + 2) x ≠ votes nb s t x) : agreement ls nb s t + 2 ≤ agreement ls nb s (t + 1) := by
  have e : agreement ls nb s t = over ls (fun x => sgn (votes nb s t x) * field nb s (t + 1) x) := over_swap h _ _
  have d : agreement ls nb s (t + 1) = over ls (fun x => sgn (votes nb s t x) * field nb s (t + 1) x) +
      over ls (fun x => (sgn (votes nb s (t + 2) x) - sgn (votes nb s t x)) * field nb s (t + 1) x) := by
    rw [← over_add]
    refine over_congr (fun y _ => ?_)
    show sgn (votes nb s (t + 2) y) * field nb s (t + 1) y = _
    rw [Int.sub_mul]
    omega
  rw [d, ← e]
  have key : ∀ y ∈ ls, 0 ≤ (sgn (votes nb s (t + 2) y) - sgn (votes nb s t y)) * field nb s (t + 1) y ∧
      (votes nb s (t + 2) y ≠ votes nb s t y → 2 ≤ (sgn (votes nb s (t + 2) y) - sgn (votes nb s t y)) * field nb s (t + 1) y) := by
    intro y hy
    have hb := votes_binary (nb := nb) hs t y hy
    have hb2 := votes_binary (nb := nb) hs (t + 2) y hy
    have hv : sgn (votes nb s t y) = 2 * votes nb s t y - 1 := rfl
    have hv2 : sgn (votes nb s (t + 2) y) = 2 * votes nb s (t + 2) y - 1 := rfl
    rcases votes_sign (s := s) h (t + 1) hy with ⟨h1, h2⟩ | ⟨h1, h2⟩
    · have h1' : sgn (votes nb s (t + 2) y) = 1 := h1
      rcases hb with hb | hb
      · rw [h1', hv, hb]
        exact ⟨by omega, fun _ => by omega⟩
      · rw [h1', hv, hb]
        exact ⟨by omega, fun hn => by omega⟩
    · have h1' : sgn (votes nb s (t + 2) y) = -1 := h1
      rcases hb with hb | hb
      · rw [h1', hv, hb]
        exact ⟨by omega, fun hn => by omega⟩
      · rw [h1', hv, hb]
        exact ⟨by omega, fun _ => by omega⟩
  have := over_gap (fun y hy => (key y hy).1) hx ((key x hx).2 hne)
  omega

omit [DecidableEq L] in
/-- Equal states have equal successors. -/
theorem votes_next (h : OddUndirected ls nb) {t u : Nat} (he : ∀ x ∈ ls, votes nb s t x = votes nb s u x) :
    ∀ x ∈ ls, votes nb s (t + 1) x = votes nb s (u + 1) x := by
  intro x hx
  unfold votes
  rw [List.map_congr_left (fun y hy => he y (h.closed x hx y hy))]

/-- The vote repeats with period two once twice the number of timesteps reaches the number of pairs of neighbours less the
number of voters. -/
theorem votes_period (h : OddUndirected ls nb) (hs : ∀ x ∈ ls, s x = 0 ∨ s x = 1) (t : Nat)
    (ht : pairsOf ls nb ≤ ls.length + 2 * t) : ∀ x ∈ ls, votes nb s (t + 2) x = votes nb s t x := by
  have claim : ∀ t, (∀ x ∈ ls, votes nb s (t + 2) x = votes nb s t x) ∨ agreement ls nb s 0 + 2 * ((t : Int) + 1) ≤ agreement ls nb s (t + 1) := by
    intro t
    induction t with
    | zero =>
      by_cases hx : ∃ x ∈ ls, votes nb s 2 x ≠ votes nb s 0 x
      · obtain ⟨x, hx, hne⟩ := hx
        right
        have := agreement_grows h hs 0 hx hne
        simpa using this
      · left
        intro x hm
        exact Decidable.byContradiction (fun hc => hx ⟨x, hm, hc⟩)
    | succ t ih =>
      rcases ih with ih | ih
      · left
        exact votes_next h ih
      · by_cases hx : ∃ x ∈ ls, votes nb s (t + 1 + 2) x ≠ votes nb s (t + 1) x
        · obtain ⟨x, hx, hne⟩ := hx
          right
          have := agreement_grows h hs (t + 1) hx hne
          push_cast
          omega
        · left
          intro x hm
          exact Decidable.byContradiction (fun hc => hx ⟨x, hm, hc⟩)
  rcases claim t with hc | hc
  · exact hc
  · have h1 := (agreement_bound h hs 0).1
    have h2 := (agreement_bound h hs (t + 1)).2
    omega

end
end Verif
