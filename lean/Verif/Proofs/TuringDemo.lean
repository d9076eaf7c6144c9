import Verif.Model.TuringDemo
import Verif.Spec.TuringDemo
/-! # Lemmas about the machine of the first two Turing machine demos -/

namespace Verif

/-- A tape of `n` cells with 1s on the given ones. -/
def markTape (n : Nat) (l : List Nat) : List Int := (List.range n).map (fun x => if x ∈ l then 1 else 0)

theorem markTape_get {n : Nat} (l : List Nat) {i : Nat} (hi : i < n) : (markTape n l)[i]? = some (if i ∈ l then 1 else 0) := by
  unfold markTape
  rw [List.getElem?_map, List.getElem?_range hi]
  rfl

theorem markTape_length (n : Nat) (l : List Nat) : (markTape n l).length = n := by simp [markTape]

theorem markTape_set {n : Nat} {l l' : List Nat} {i : Nat} {v : Int} (hv : v = 0 ∨ v = 1)
    (h : ∀ x, x ∈ l' ↔ (x = i ∧ v = 1) ∨ (x ≠ i ∧ x ∈ l)) : (markTape n l).set i v = markTape n l' := by
  apply List.ext_getElem?
  intro x
  by_cases hx : x < n
  · rw [List.getElem?_set, markTape_get l' hx]
    split
    · next e =>
      subst e
      rw [if_pos (by rw [markTape_length]; exact hx)]
      have := h i
      rcases hv with rfl | rfl
      · rw [if_neg (by rw [this]; simp)]
      · rw [if_pos (by rw [this]; simp)]
    · next e =>
      rw [markTape_get l hx]
      have hm : x ∈ l' ↔ x ∈ l := by
        rw [h x]
        constructor
        · rintro (⟨e', _⟩ | ⟨_, e'⟩)
          · exact absurd e'.symm e
          · exact e'
        · exact fun e' => Or.inr ⟨fun e'' => e e''.symm, e'⟩
      simp only [hm]
  · rw [List.getElem?_eq_none (by rw [List.length_set, markTape_length]; omega), List.getElem?_eq_none (by rw [markTape_length]; omega)]

/-- One step of the machine, with the head on cell `i` of a tape with marks. -/
theorem glider_step {n : Nat} {l l' : List Nat} {i i' q q' : Nat} {v d : Int} (hi : i < n)
    (hδ : gliderTable.rule? q (if i ∈ l then 1 else 0) = some (q', v, d)) (hm : moveHead n i d = some i') (hv : v = 0 ∨ v = 1)
    (h : ∀ x, x ∈ l' ↔ (x = i ∧ v = 1) ∨ (x ≠ i ∧ x ∈ l)) :
    tmStep gliderTable.rule? ⟨q, i, markTape n l⟩ = some ⟨q', i', markTape n l'⟩ := by
  unfold tmStep
  simp only
  rw [markTape_get l hi, Option.bind_some, hδ, Option.bind_some, markTape_length, hm, Option.map_some, markTape_set hv h]

/-- Configuration after `8 k + j` steps, `b` being the position after `8 k` steps. -/
def gliderConf (n b j : Nat) : Conf Nat Int :=
  ⟨[1, 2, 2, 1, 2, 1, 1, 1].getD j 0, (b + [n, n + 1, n, n - 1, n, n - 1, n, n + 1].getD j 0) % n,
    markTape n (([[], [0], [0, 1], [0, 1], [n - 1, 0, 1], [n - 1, 0, 1], [0, 1], [1]].getD j []).map (fun k => (b + k) % n))⟩

theorem ring_facts {n : Nat} (hn : 3 ≤ n) (b : Nat) : ∃ A L R, b % n = A ∧ (b + n) % n = A ∧ (b + (n - 1)) % n = L ∧ (b + 1) % n = R ∧
    (b + (n + 1)) % n = R ∧ A < n ∧ L < n ∧ R < n ∧ A ≠ L ∧ A ≠ R ∧ L ≠ R ∧ moveHead n A 0 = some L ∧ moveHead n A 2 = some R ∧
    moveHead n R 0 = some A ∧ moveHead n L 2 = some A ∧ moveHead n R 2 = some ((b + 2 + n) % n) := by
  have hA := Nat.mod_lt b (show 0 < n by omega)
  have key : ∀ c, (b % n + c) % n = (b + c) % n := fun c => Nat.mod_add_mod b n c
  have e1 : (b + n) % n = b % n := Nat.add_mod_right b n
  have m0 : ∀ i, moveHead n i 0 = some ((i + n - 1) % n) := fun i => by simp [moveHead]
  have m2 : ∀ i, moveHead n i 2 = some ((i + 1) % n) := fun i => by simp [moveHead]
  have hL : (b + (n - 1)) % n = if b % n = 0 then n - 1 else b % n - 1 := by
    rw [← key]
    split
    · next h => rw [h, Nat.zero_add, Nat.mod_eq_of_lt (by omega)]
    · rw [show b % n + (n - 1) = b % n - 1 + n by omega, Nat.add_mod_right, Nat.mod_eq_of_lt (by omega)]
  have hR : (b + 1) % n = if b % n = n - 1 then 0 else b % n + 1 := by
    rw [← key]
    split
    · next h => rw [h, show n - 1 + 1 = n by omega, Nat.mod_self]
    · rw [Nat.mod_eq_of_lt (by omega)]
  refine ⟨_, _, _, rfl, e1, rfl, rfl, ?_, hA, Nat.mod_lt _ (by omega), Nat.mod_lt _ (by omega), ?_, ?_, ?_, ?_, ?_, ?_, ?_, ?_⟩
  · rw [show b + (n + 1) = b + 1 + n by omega, Nat.add_mod_right]
  · rw [hL]; split <;> omega
  · rw [hR]; split <;> omega
  · rw [hL, hR]; split <;> split <;> omega
  · rw [m0, show b % n + n - 1 = b % n + (n - 1) by omega, key]
  · rw [m2, key]
  · rw [m0, show (b + 1) % n + n - 1 = (b + 1) % n + (n - 1) by omega, Nat.mod_add_mod, show b + 1 + (n - 1) = b + n by omega, e1]
  · rw [m2, Nat.mod_add_mod, show b + (n - 1) + 1 = b + n by omega, e1]
  · rw [m2, Nat.mod_add_mod, Nat.add_mod_right]

theorem gliderConf_step {n : Nat} (hn : 3 ≤ n) (b j : Nat) (hj : j < 8) :
    tmStep gliderTable.rule? (gliderConf n b j) = some (if j = 7 then gliderConf n (b + 2) 0 else gliderConf n b (j + 1)) := by
  obtain ⟨A, L, R, a1, a2, a3, a4, a5, hA, hL, hR, n1, n2, n3, m1, m2, m3, m4, m5⟩ := ring_facts hn b
  have : j = 0 ∨ j = 1 ∨ j = 2 ∨ j = 3 ∨ j = 4 ∨ j = 5 ∨ j = 6 ∨ j = 7 := by omega
  rcases this with rfl | rfl | rfl | rfl | rfl | rfl | rfl | rfl <;>
    simp only [gliderConf, List.getD_cons_zero, List.getD_cons_succ, List.map_cons, List.map_nil, a1, a2, a3, a4, a5, Nat.add_zero,
      if_true, if_neg (show ¬ (0 : Nat) = 7 by decide), if_neg (show ¬ (1 : Nat) = 7 by decide), if_neg (show ¬ (2 : Nat) = 7 by decide),
      if_neg (show ¬ (3 : Nat) = 7 by decide), if_neg (show ¬ (4 : Nat) = 7 by decide), if_neg (show ¬ (5 : Nat) = 7 by decide),
      if_neg (show ¬ (6 : Nat) = 7 by decide), Nat.zero_add, Nat.reduceAdd]
  · exact glider_step (v := 1) (d := 2) hA (by simp; rfl) m2 (Or.inr rfl) (by simp)
  · exact glider_step (v := 1) (d := 0) hR (by simp [Ne.symm n2]; rfl) m3 (Or.inr rfl) (by simp; grind)
  · exact glider_step (v := 1) (d := 0) hA (by simp; rfl) m1 (Or.inr rfl) (by simp; grind)
  · exact glider_step (v := 1) (d := 2) hL (by simp [Ne.symm n1, n3]; rfl) m4 (Or.inr rfl) (by simp; grind)
  · exact glider_step (v := 1) (d := 0) hA (by simp; rfl) m1 (Or.inr rfl) (by simp; grind)
  · exact glider_step (v := 0) (d := 2) hL (by simp; rfl) m4 (Or.inl rfl) (by simp; grind)
  · exact glider_step (v := 0) (d := 2) hA (by simp; rfl) m2 (Or.inl rfl) (by simp; grind)
  · exact glider_step (v := 0) (d := 2) hR (by simp; rfl) m5 (Or.inl rfl) (by simp)

theorem glider_computation {n p : Nat} (hn : 3 ≤ n) (hp : p < n) (T : Nat) :
    Computation gliderTable.rule? (fun t => ⟨gliderState t, gliderPos n p t, gliderTape n p t⟩) T := by
  have hconf : ∀ t, (⟨gliderState t, gliderPos n p t, gliderTape n p t⟩ : Conf Nat Int) = gliderConf n (p + 2 * (t / 8)) (t % 8) :=
    fun t => rfl
  refine ⟨?_, fun t _ => ?_⟩
  · show gliderPos n p 0 < (gliderTape n p 0).length
    unfold gliderTape gliderPos
    simp only [List.length_map, List.length_range]
    exact Nat.mod_lt _ (by omega)
  · simp only [hconf]
    rw [gliderConf_step hn _ _ (Nat.mod_lt t (by decide))]
    split
    · next h => rw [show (t + 1) % 8 = 0 by omega, show (t + 1) / 8 = t / 8 + 1 by omega]; rfl
    · next h => rw [show (t + 1) % 8 = t % 8 + 1 by omega, show (t + 1) / 8 = t / 8 by omega]

theorem glider_start {n p : Nat} (hp : p < n) :
    (⟨gliderState 0, gliderPos n p 0, gliderTape n p 0⟩ : Conf Nat Int) = ⟨1, p, List.replicate n 0⟩ := by
  have h1 : gliderPos n p 0 = p := by
    show (p + 2 * 0 + n) % n = p
    rw [Nat.mul_zero, Nat.add_zero, Nat.add_mod_right, Nat.mod_eq_of_lt hp]
  have h2 : gliderTape n p 0 = List.replicate n 0 := by
    unfold gliderTape
    apply List.ext_getElem?
    intro x
    by_cases hx : x < n
    · rw [List.getElem?_map, List.getElem?_range hx, List.getElem?_replicate, if_pos hx]
      rfl
    · rw [List.getElem?_eq_none (by simp; omega), List.getElem?_eq_none (by simp; omega)]
  rw [h1, h2]
  rfl

end Verif
