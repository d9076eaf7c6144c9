import Verif.Spec.Cycles
import Verif.Proofs.StaticRun
import Verif.Props.SecondOrder
/-! # Automata with finitely many states repeat -/

namespace Verif
open Spec
section
variable {L V : Type}

/-- A list of digits as a number. -/
def digitsCode (k : Nat) : List Nat → Nat
  | [] => 0
  | d :: l => d + k * digitsCode k l

theorem digitsCode_lt {k : Nat} : ∀ (l : List Nat), (∀ d ∈ l, d < k) → digitsCode k l < k ^ l.length
  | [], _ => by simp [digitsCode]
  | d :: l, h => by
    have h1 := digitsCode_lt l (fun e he => h e (List.mem_cons_of_mem _ he))
    have h2 := h d (List.mem_cons_self ..)
    have h3 := Nat.mul_le_mul_left k (Nat.succ_le_of_lt h1)
    rw [digitsCode, List.length_cons, Nat.pow_succ, Nat.mul_comm (k ^ l.length)]
    rw [Nat.mul_succ] at h3
    omega

theorem digitsCode_inj {k : Nat} : ∀ (l l' : List Nat), l.length = l'.length → (∀ d ∈ l, d < k) → (∀ d ∈ l', d < k) →
    digitsCode k l = digitsCode k l' → l = l'
  | [], [], _, _, _, _ => rfl
  | d :: l, d' :: l', hl, h, h', he => by
    have a := h d (List.mem_cons_self ..)
    have b := h' d' (List.mem_cons_self ..)
    rw [digitsCode, digitsCode] at he
    have e1 := congrArg (fun v => v % k) he
    have e2 := congrArg (fun v => v / k) he
    simp only [Nat.add_mul_mod_self_left, Nat.mod_eq_of_lt a, Nat.mod_eq_of_lt b] at e1
    simp only [Nat.add_mul_div_left _ _ (Nat.lt_of_le_of_lt (Nat.zero_le _) a), Nat.div_eq_of_lt a, Nat.div_eq_of_lt b, Nat.zero_add] at e2
    rw [e1, digitsCode_inj l l' (by simpa using hl) (fun e he => h e (List.mem_cons_of_mem _ he)) (fun e he => h' e (List.mem_cons_of_mem _ he)) e2]

variable [DecidableEq V]

/-- Among the first `k ^ n + 1` rows of values from a list of `k`, for `n` nodes, two are equal. -/
theorem rows_repeat (ls : List L) (vals : List V) (f : Nat → L → V) (h : ∀ t, ∀ x ∈ ls, f t x ∈ vals) :
    ∃ i j, i < j ∧ j ≤ vals.length ^ ls.length ∧ ∀ x ∈ ls, f i x = f j x := by
  have hd : ∀ t, ∀ d ∈ ls.map (fun x => vals.idxOf (f t x)), d < vals.length := by
    intro t d hd
    obtain ⟨x, hx, rfl⟩ := List.mem_map.1 hd
    exact List.idxOf_lt_length_of_mem (h t x hx)
  obtain ⟨i, j, hij, hj, he⟩ := pigeonhole (M := vals.length ^ ls.length)
    (f := fun t => digitsCode vals.length (ls.map (fun x => vals.idxOf (f t x)))) (fun t => by
      have := digitsCode_lt _ (hd t)
      rwa [List.length_map] at this)
  refine ⟨i, j, hij, hj, fun x hx => ?_⟩
  have h1 := digitsCode_inj _ _ (by simp) (hd i) (hd j) he
  have h2 := List.map_inj_left.1 h1 x hx
  have e1 := List.getElem_idxOf (List.idxOf_lt_length_of_mem (h i x hx))
  have e2 := List.getElem_idxOf (List.idxOf_lt_length_of_mem (h j x hx))
  rw [← e1, ← e2]
  congr 1

omit [DecidableEq V] in
/-- Equal rows have equal futures. -/
theorem localRun_future {ls : List L} {nb : L → List L} (hc : ∀ x ∈ ls, ∀ y ∈ nb x, y ∈ ls) {g : L → V → List V → V} {s : L → V} {i j : Nat}
    (h : ∀ x ∈ ls, localRun nb g s i x = localRun nb g s j x) (d : Nat) : ∀ x ∈ ls, localRun nb g s (i + d) x = localRun nb g s (j + d) x := by
  induction d with
  | zero => exact h
  | succ d ih =>
    intro x hx
    rw [← Nat.add_assoc, ← Nat.add_assoc, localRun, localRun, ih x hx]
    congr 1
    exact List.map_congr_left fun y hy => ih y (hc x hx y hy)

omit [DecidableEq V] in
theorem localRun_mem {ls : List L} {nb : L → List L} (hc : ∀ x ∈ ls, ∀ y ∈ nb x, y ∈ ls) {g : L → V → List V → V} {s : L → V} {vals : List V}
    (hs : ∀ x ∈ ls, s x ∈ vals) (hg : ∀ x ∈ ls, ∀ v ∈ vals, ∀ l : List V, l.length = (nb x).length → (∀ u ∈ l, u ∈ vals) → g x v l ∈ vals) :
    ∀ t, ∀ x ∈ ls, localRun nb g s t x ∈ vals := by
  intro t
  induction t with
  | zero => exact hs
  | succ t ih =>
    intro x hx
    refine hg x hx _ (ih x hx) _ (by simp) ?_
    intro u hu
    obtain ⟨y, hy, rfl⟩ := List.mem_map.1 hu
    exact ih y (hc x hx y hy)

end
end Verif
