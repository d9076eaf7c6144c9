import Verif.Props.Machines
import Verif.Props.RunRows
/-! # Property C161: the Collatz demos with a fixed number of timesteps, and what they draw -/

namespace Verif
open Spec

theorem collatz_pos {n : Int} (hn : 1 ≤ n) : ∀ t, 1 ≤ Spec.collatzSeq n t
  | 0 => hn
  | t + 1 => by
    have h := collatz_pos hn t
    show 1 ≤ Spec.collatz (Spec.collatzSeq n t)
    unfold Spec.collatz
    split <;> omega

section
variable {σ κ : Type} [DecidableEq κ]

/-- C161.  With a fixed number of timesteps the states are the numbers of the Collatz sequence, whether or not it reaches 1. -/
theorem C161_steps (cfg : Config Nat Int Int Int σ κ) (T : Nat) (hT : 1 ≤ T)
    (h : MachineCall cfg (pureRule (fun ctx => .ok (collatzRule ctx))) (.timesteps T)) (n : Int) (r : Nat) (w : World Nat Int σ)
    (hr : w.heap[r]? = some singleNode) (fuel : Nat) (hf : T ≤ fuel) :
    ∃ res, evolve fuel cfg (some (.list [n])) r w = .ok res ∧ ShowsRun cfg res T 1 (fun t _ => Spec.collatzSeq n t) := by
  obtain ⟨i1, i2⟩ := machine_init h n
  obtain ⟨hl, _, hsz, hnb⟩ := singleNode_spec
  have h0 : ∀ x ∈ singleNode.labels, (initDict cfg (some (.list [n]))).get? x = some (Spec.collatzSeq n 0) := by
    intro x hx
    rw [hl, List.mem_singleton] at hx
    subst hx
    exact i2
  obtain ⟨res, _, e1, _, e3⟩ := evolve_pure (cfg := cfg) (G := fun ctx => .ok (collatzRule ctx)) h.rule h.pert h.top h.packOk (by rw [hl]; simp)
    (nb := fun _ => [0]) (by
      intro x hx
      rw [hl, List.mem_singleton] at hx
      subst hx
      exact ⟨hnb, by rw [hl]; simp⟩) (init := some (.list [n])) (f := fun t _ => Spec.collatzSeq n t) (by rw [i1, hsz]) h0 (T := T)
    (fun t _ x _ => rfl) (fun hc => by rw [h.memo] at hc; cases hc) hT h.input hr hf
  exact ⟨res, e1, shows_plain_of (T := T) (n := 1) h.persist h.compression (by omega)
      (by rw [hl]; exact List.Perm.refl _) i1 (f := fun t _ => Spec.collatzSeq n t) (by
        intro x hx
        exact h0 x (by rw [hl]; simpa using hx)) e3⟩

/-- C161.  Once at 1, the sequence goes round 1, 4, 2 for ever. -/
theorem C161_loop (n : Int) (K : Nat) (hK : Spec.collatzSeq n K = 1) (j : Nat) :
    Spec.collatzSeq n (K + 3 * j) = 1 ∧ Spec.collatzSeq n (K + 3 * j + 1) = 4 ∧ Spec.collatzSeq n (K + 3 * j + 2) = 2 := by
  have step : ∀ t, Spec.collatzSeq n t = 1 → Spec.collatzSeq n (t + 1) = 4 ∧ Spec.collatzSeq n (t + 2) = 2 ∧ Spec.collatzSeq n (t + 3) = 1 := by
    intro t ht
    have h1 : Spec.collatzSeq n (t + 1) = 4 := by
      show Spec.collatz (Spec.collatzSeq n t) = 4
      rw [ht]; decide
    have h2 : Spec.collatzSeq n (t + 2) = 2 := by
      show Spec.collatz (Spec.collatzSeq n (t + 1)) = 2
      rw [h1]; decide
    have h3 : Spec.collatzSeq n (t + 3) = 1 := by
      show Spec.collatz (Spec.collatzSeq n (t + 2)) = 1
      rw [h2]; decide
    exact ⟨h1, h2, h3⟩
  have one : Spec.collatzSeq n (K + 3 * j) = 1 := by
    induction j with
    | zero => exact hK
    | succ j ih => exact (step _ ih).2.2
  exact ⟨one, (step _ one).1, (step _ one).2.1⟩

omit [DecidableEq κ] in
/-- C161.  What both demos print and draw, from a result with `T` states that are the numbers of the Collatz sequence from `n ≥ 1`
(`C161_steps`, `C92_reaches_one`): the list of one-element lists of these numbers, and an image with a row for each number, which holds the
binary digits of the number, filled up with zeros on the left to the length of the greatest. -/
theorem C161_drawn {cfg : Config Nat Int Int Int σ κ} {res : Evolved Nat Int Int σ} {T : Nat} (hT : 1 ≤ T) {n : Int} (hn : 1 ≤ n)
    (h : ShowsRun cfg res T 1 (fun t _ => Spec.collatzSeq n t)) :
    activitiesOverTime (fun a b => decide (a ≤ b)) ((List.range T).map (res.acts cfg)) = (List.range T).map (fun t => [Spec.collatzSeq n t]) ∧
    ∃ image w, binarizeForPlotting (activitiesOverTime (fun a b => decide (a ≤ b)) ((List.range T).map (res.acts cfg))) = .ok image ∧
      image.length = T ∧ (∀ t, t < T → ∃ row, image[t]? = some row ∧ row.length = w ∧ Binary row ∧ numeral row = Spec.collatzSeq n t) ∧
      (∀ t, t < T → Spec.collatzSeq n t < 2 ^ w) ∧ ∃ t, t < T ∧ 2 ^ (w - 1) ≤ Spec.collatzSeq n t := by
  have e := C72_run_nat (by decide) h
  have e' : activitiesOverTime (fun a b => decide (a ≤ b)) ((List.range T).map (res.acts cfg)) = (List.range T).map (fun t => [Spec.collatzSeq n t]) := e
  refine ⟨e', ?_⟩
  rw [e']
  obtain ⟨image, w, h1, h2, h3, h4, h5⟩ := C70_binarize ((List.range T).map (fun t => [Spec.collatzSeq n t]))
    (by intro he; have := congrArg List.length he; simp at this; omega) (by
      intro a ha
      obtain ⟨t, _, rfl⟩ := List.mem_map.1 ha
      exact ⟨_, _, rfl, by have := collatz_pos hn t; omega⟩)
  have get : ∀ t, t < T → ((List.range T).map (fun t => [Spec.collatzSeq n t]))[t]? = some [Spec.collatzSeq n t] := by
    intro t ht
    rw [List.getElem?_map, List.getElem?_range ht]
    rfl
  refine ⟨image, w, h1, by rw [h2]; simp, ?_, ?_, ?_⟩
  · intro t ht
    obtain ⟨row, r1, r2, r3, r4, _⟩ := h4 t _ _ (get t ht)
    exact ⟨row, r1, r2, r3, r4⟩
  · intro t ht
    obtain ⟨row, _, _, _, _, r5⟩ := h4 t _ _ (get t ht)
    exact r5
  · rcases h5 with rfl | ⟨a, ha, x, r, hx, hp⟩
    · exact ⟨0, by omega, hn⟩
    · obtain ⟨t, ht, rfl⟩ := List.mem_map.1 ha
      cases hx
      exact ⟨t, List.mem_range.1 ht, hp⟩

end

/-- The call of the second demo: 222 and 100 timesteps. -/
def Ex.collatzSteps : Config Nat Int Int Int (List Int) Unit :=
  { Ex.base with rule := some (pureRule (fun ctx => .ok (collatzRule ctx))), input := .timesteps 100 }

example : MachineCall Ex.collatzSteps (pureRule (fun ctx => .ok (collatzRule ctx))) (.timesteps 100) :=
  ⟨rfl, rfl, rfl, rfl, rfl, rfl, rfl, rfl, fun _ => rfl⟩

/-- In the demo the sequence from 222 is at 1 after 70 steps, the greatest number is 9232, and so there are 14 columns; the sequence of the
first demo is at 1 after 123 steps. -/
example : Spec.collatzSeq 222 70 = 1 ∧ (∀ t : Fin 70, Spec.collatzSeq 222 t ≠ 1) ∧ (∀ t : Fin 100, Spec.collatzSeq 222 t ≤ 9232) ∧
    (∃ t : Fin 100, Spec.collatzSeq 222 t = 9232) ∧ Spec.collatzSeq 4103453 123 = 1 := by decide +kernel

end Verif
