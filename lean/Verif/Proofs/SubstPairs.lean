import Verif.Model.SubstPairs
import Verif.Spec.SubstPairs
import Verif.Props.SubstDemos
/-! # Lemmas about rewriting windows of several symbols -/

namespace Verif
open Spec
section
variable {S : Type}

theorem windows_short {m : Nat} {w : List S} (h : w.length < m) : windows m w = [] := by
  unfold windows
  rw [show w.length + 1 - m = 0 by omega]
  rfl

theorem windows_cons {m : Nat} (hm : 1 ≤ m) (a : S) (w : List S) (h : m ≤ w.length + 1) :
    windows m (a :: w) = (a :: w).take m :: windows m w := by
  unfold windows
  rw [show (a :: w).length + 1 - m = (w.length + 1 - m) + 1 by rw [List.length_cons]; omega, List.range_succ_eq_map, List.map_cons,
    List.map_map]
  rfl

theorem rewrite_slide {m : Nat} (hm : 1 ≤ m) {sub : List S → Except Err (List S)} {f : List S → List S} {P : S → Prop}
    (hsub : ∀ k, k.length = m → (∀ c ∈ k, P c) → sub k = .ok (f k)) :
    ∀ w : List S, (∀ c ∈ w, P c) → rewrite m sub w = .ok (slide m f w)
  | [], _ => by
    unfold rewrite
    rw [windows_short (by rw [List.length_nil]; omega)]
    rfl
  | a :: w, hw => by
    have ih := rewrite_slide hm hsub w (fun c hc => hw c (List.mem_cons_of_mem _ hc))
    unfold slide
    split
    · next h =>
      unfold rewrite at ih ⊢
      rw [windows_cons hm a w h, List.map_cons, hsub _ (by rw [List.length_take, List.length_cons]; omega)
        (fun c hc => hw c (List.mem_of_mem_take hc)), joinE, ih]
    · next h =>
      unfold rewrite
      rw [windows_short (by rw [List.length_cons]; omega)]
      rfl

theorem slide_inv {m : Nat} {f : List S → List S} {P : S → Prop}
    (hP : ∀ k, k.length = m → (∀ c ∈ k, P c) → ∀ d ∈ f k, P d) : ∀ w : List S, (∀ c ∈ w, P c) → ∀ d ∈ slide m f w, P d
  | [], _ => by intro d hd; cases hd
  | a :: w, hw => by
    intro d hd
    unfold slide at hd
    split at hd
    · next h =>
      rcases List.mem_append.1 hd with hd | hd
      · exact hP _ (by rw [List.length_take, List.length_cons]; omega) (fun c hc => hw c (List.mem_of_mem_take hc)) d hd
      · exact slide_inv hP w (fun c hc => hw c (List.mem_cons_of_mem _ hc)) d hd
    · cases hd

theorem slides_inv {m : Nat} {f : List S → List S} {P : S → Prop}
    (hP : ∀ k, k.length = m → (∀ c ∈ k, P c) → ∀ d ∈ f k, P d) {w : List S} (hw : ∀ c ∈ w, P c) (t : Nat) :
    ∀ c ∈ slides m f w t, P c := by
  induction t with
  | zero => exact hw
  | succ t ih => exact slide_inv hP _ ih

theorem words_slides {m : Nat} (hm : 1 ≤ m) {sub : List S → Except Err (List S)} {f : List S → List S} {P : S → Prop}
    (hsub : ∀ k, k.length = m → (∀ c ∈ k, P c) → sub k = .ok (f k))
    (hP : ∀ k, k.length = m → (∀ c ∈ k, P c) → ∀ d ∈ f k, P d) {w : List S} (hw : ∀ c ∈ w, P c) (t : Nat) :
    words m sub w t = .ok (slides m f w t) := by
  induction t with
  | zero => rfl
  | succ t ih =>
    simp only [words, ih]
    exact rewrite_slide hm hsub _ (slides_inv hP hw t)

theorem slide_two (f : List S → List S) (a b : S) (w : List S) : slide 2 f (a :: b :: w) = f [a, b] ++ slide 2 f (b :: w) := by
  conv => lhs; unfold slide
  rw [if_pos (by rw [List.length_cons]; omega)]
  rfl

theorem slide_two_one (f : List S → List S) (a : S) : slide 2 f [a] = [] := rfl

theorem slide_three (f : List S → List S) (a b c : S) (w : List S) :
    slide 3 f (a :: b :: c :: w) = f [a, b, c] ++ slide 3 f (b :: c :: w) := by
  conv => lhs; unfold slide
  rw [if_pos (by simp only [List.length_cons]; omega)]
  rfl

/-- The windows of two symbols of a word and of its continuation. -/
theorem slide_two_append (f : List S → List S) (u : List S) (a : S) (w : List S) :
    slide 2 f (u ++ a :: w) = slide 2 f (u ++ [a]) ++ slide 2 f (a :: w) := by
  induction u with
  | nil => rfl
  | cons b u ih =>
    cases u with
    | nil => rw [List.cons_append, List.nil_append, slide_two, List.cons_append, List.nil_append, slide_two, slide_two_one, List.append_nil]
    | cons c u =>
      show slide 2 f (b :: c :: (u ++ a :: w)) = slide 2 f (b :: c :: (u ++ [a])) ++ _
      rw [slide_two, slide_two, List.append_assoc]
      exact congrArg (f [b, c] ++ ·) ih

end

/-! ## The replacements of the demos -/

/-- The replacement of the third demo. -/
def demo3Step : List Nat → List Nat
  | [2, 2] => [2, 2]
  | [2, 1] => [1]
  | [1, 2] => [2, 1]
  | _ => []

/-- The replacement of the fourth demo. -/
def demo4Step : List Nat → List Nat
  | [3, 3] => [1]
  | [3, 2] => [1]
  | [3, 1] => [3]
  | [2, 3] => [1, 1]
  | [2, 2] => [1, 2]
  | [2, 1] => [2, 2]
  | [1, 3] => [3]
  | [1, 2] => [3]
  | [1, 1] => [1]
  | _ => []

/-- The replacement of the fifth demo. -/
def demo5Step : List Nat → List Nat
  | [3, 3] => [3]
  | [3, 2] => [1, 2]
  | [3, 1] => [1]
  | [2, 1] => [3]
  | [1, 3] => [1]
  | [1, 2] => [1, 2]
  | [1, 1] => [3]
  | _ => []

/-- The replacement of the seventh demo. -/
def demo7Step : List Nat → List Nat
  | [1, 1, 1] => [2, 2]
  | [1, 1, 2] => [1, 2, 1]
  | [1, 2, 1] => [1, 1]
  | [2, 1, 1] => [2, 1, 2]
  | [2, 1, 2] => [1]
  | [2, 2, 1] => [2, 2]
  | [2, 2, 2] => [2, 1, 1]
  | _ => []

theorem all_pairs {P : Nat → Prop} {Q : List Nat → Prop} (h : ∀ a b, P a → P b → Q [a, b]) :
    ∀ k : List Nat, k.length = 2 → (∀ c ∈ k, P c) → Q k := by
  intro k hk hP
  match k, hk with
  | [a, b], _ => exact h a b (hP a (by simp)) (hP b (by simp))

theorem all_triples {P : Nat → Prop} {Q : List Nat → Prop} (h : ∀ a b c, P a → P b → P c → Q [a, b, c]) :
    ∀ k : List Nat, k.length = 3 → (∀ c ∈ k, P c) → Q k := by
  intro k hk hP
  match k, hk with
  | [a, b, c], _ => exact h a b c (hP a (by simp)) (hP b (by simp)) (hP c (by simp))

/-- The symbols of the demos. -/
def Sym12 (c : Nat) : Prop := c = 1 ∨ c = 2

/-- The symbols of the demos with three symbols. -/
def Sym123 (c : Nat) : Prop := c = 1 ∨ c = 2 ∨ c = 3

theorem demo3_sub : ∀ k : List Nat, k.length = 2 → (∀ c ∈ k, Sym12 c) →
    replacement natStr natDtype (fun k => if k ∈ ([] : List (List Char)) then some k else demo3Rules.get? k) k = .ok (demo3Step k) := by
  apply all_pairs
  rintro a b (rfl | rfl) (rfl | rfl) <;> decide +kernel

theorem demo3_closed : ∀ k : List Nat, k.length = 2 → (∀ c ∈ k, Sym12 c) → ∀ d ∈ demo3Step k, Sym12 d := by
  apply all_pairs
  unfold Sym12
  rintro a b (rfl | rfl) (rfl | rfl) <;> decide

theorem demo4_sub : ∀ k : List Nat, k.length = 2 → (∀ c ∈ k, Sym123 c) →
    replacement natStr natDtype (fun k => if k ∈ ([] : List (List Char)) then some k else demo4Rules.get? k) k = .ok (demo4Step k) := by
  apply all_pairs
  rintro a b (rfl | rfl | rfl) (rfl | rfl | rfl) <;> decide +kernel

theorem demo4_closed : ∀ k : List Nat, k.length = 2 → (∀ c ∈ k, Sym123 c) → ∀ d ∈ demo4Step k, Sym123 d := by
  apply all_pairs
  unfold Sym123
  rintro a b (rfl | rfl | rfl) (rfl | rfl | rfl) <;> decide

theorem demo5_sub : ∀ k : List Nat, k.length = 2 → (∀ c ∈ k, Sym123 c) →
    replacement natStr natDtype (fun k => if k ∈ ([] : List (List Char)) then some k else demo5Rules.get? k) k = .ok (demo5Step k) := by
  apply all_pairs
  rintro a b (rfl | rfl | rfl) (rfl | rfl | rfl) <;> decide +kernel

theorem demo5_closed : ∀ k : List Nat, k.length = 2 → (∀ c ∈ k, Sym123 c) → ∀ d ∈ demo5Step k, Sym123 d := by
  apply all_pairs
  unfold Sym123
  rintro a b (rfl | rfl | rfl) (rfl | rfl | rfl) <;> decide

theorem demo7_sub : ∀ k : List Nat, k.length = 3 → (∀ c ∈ k, Sym12 c) →
    replacement natStr natDtype (fun k => if k ∈ ([] : List (List Char)) then some k else demo7Rules.get? k) k = .ok (demo7Step k) := by
  apply all_triples
  rintro a b c (rfl | rfl) (rfl | rfl) (rfl | rfl) <;> decide +kernel

theorem demo7_closed : ∀ k : List Nat, k.length = 3 → (∀ c ∈ k, Sym12 c) → ∀ d ∈ demo7Step k, Sym12 d := by
  apply all_triples
  unfold Sym12
  rintro a b c (rfl | rfl) (rfl | rfl) (rfl | rfl) <;> decide

/-! ## The third demo -/

theorem demo3_blocks (k : Nat) (w : List Nat) :
    slide 2 demo3Step (2 :: ((List.replicate k [1, 1, 2]).flatten ++ 1 :: w)) =
      (List.replicate k [1, 2, 1]).flatten ++ 1 :: slide 2 demo3Step (1 :: w) := by
  induction k with
  | zero => rw [List.replicate_zero, List.flatten_nil, List.nil_append, slide_two]; rfl
  | succ k ih =>
    rw [List.replicate_succ, List.flatten_cons, List.append_assoc]
    show slide 2 demo3Step (2 :: 1 :: 1 :: 2 :: ((List.replicate k [1, 1, 2]).flatten ++ 1 :: w)) = _
    rw [slide_two, slide_two, slide_two, ih, List.replicate_succ, List.flatten_cons, List.append_assoc]
    rfl

theorem demo3_rotate (k : Nat) (w : List Nat) :
    (List.replicate k [1, 2, 1]).flatten ++ 1 :: 2 :: w = 1 :: 2 :: ((List.replicate k [1, 1, 2]).flatten ++ w) := by
  induction k with
  | zero => rfl
  | succ k ih =>
    rw [List.replicate_succ, List.flatten_cons, List.append_assoc, ih, List.replicate_succ, List.flatten_cons, List.append_assoc]
    rfl

theorem demo3_tail : slide 2 demo3Step [1, 2, 2, 1] = [2, 1, 2, 2, 1] := by decide

theorem demo3_words (t : Nat) : slides 2 demo3Step [1, 2, 2, 1] t = demo3Word t := by
  induction t with
  | zero => rfl
  | succ t ih =>
    rw [slides, ih]
    unfold demo3Word
    by_cases h0 : t = 0
    · subst h0
      decide
    rw [if_neg h0, if_neg (show ¬ t + 1 = 0 by omega)]
    by_cases h : t % 2 = 1
    · rw [if_pos h, if_neg (show ¬ (t + 1) % 2 = 1 by omega), List.append_assoc]
      show slide 2 demo3Step (2 :: ((List.replicate (t / 2) [1, 1, 2]).flatten ++ 1 :: [2, 2, 1])) = _
      rw [demo3_blocks, demo3_tail, demo3_rotate, show (t + 1) / 2 - 1 = t / 2 by omega]
      simp
    · rw [if_neg h, if_pos (show (t + 1) % 2 = 1 by omega), List.append_assoc]
      show slide 2 demo3Step (1 :: 2 :: ((List.replicate (t / 2 - 1) [1, 1, 2]).flatten ++ 1 :: [2, 2, 1])) = _
      rw [slide_two, demo3_blocks, demo3_tail, demo3_rotate, show (t + 1) / 2 = t / 2 - 1 + 1 by omega, List.replicate_succ,
        List.flatten_cons]
      simp [demo3Step]

/-! ## The fourth demo -/

theorem demo4_left {u : List Nat} (hu : ∀ c ∈ u, c = 1 ∨ c = 3) (hne : u ≠ []) :
    (slide 2 demo4Step (u ++ [2])).length = u.length ∧ ∀ c ∈ slide 2 demo4Step (u ++ [2]), c = 1 ∨ c = 3 := by
  induction u with
  | nil => exact absurd rfl hne
  | cons a u ih =>
    cases u with
    | nil =>
      rcases hu a (by simp) with rfl | rfl <;> decide
    | cons b u =>
      obtain ⟨h1, h2⟩ := ih (fun c hc => hu c (List.mem_cons_of_mem _ hc)) (by simp)
      rw [List.cons_append, List.cons_append, slide_two]
      rw [List.cons_append] at h1 h2
      have hab : ∃ c, demo4Step [a, b] = [c] ∧ (c = 1 ∨ c = 3) := by
        rcases hu a (by simp) with rfl | rfl <;> rcases hu b (by simp) with rfl | rfl <;> simp [demo4Step]
      obtain ⟨c, hc, hc'⟩ := hab
      rw [hc]
      refine ⟨by simp [h1], fun d hd => ?_⟩
      rcases List.mem_append.1 hd with hd | hd
      · rw [List.mem_singleton.1 hd]
        exact hc'
      · exact h2 d hd

/-- The right ends of the words of the fourth demo. -/
def demo4Ends : List (List Nat) := [[2, 2, 1], [2, 2, 2], [2, 1, 2], [2, 2, 3], [2, 1, 1]]

/-- The lengths to the left of the right ends. -/
def demo4Lefts : List Nat := [1, 2, 3, 3, 4]

theorem demo4_words (t : Nat) : ∃ u, slides 2 demo4Step [1, 2, 2, 1] t = u ++ demo4Ends.getD (t % 5) [] ∧
    u.length = 3 * (t / 5) + demo4Lefts.getD (t % 5) 0 ∧ ∀ c ∈ u, c = 1 ∨ c = 3 := by
  induction t with
  | zero => exact ⟨[1], rfl, rfl, by simp⟩
  | succ t ih =>
    obtain ⟨u, h1, h2, h3⟩ := ih
    have hne : u ≠ [] := by
      intro h
      subst h
      have : t % 5 = 0 ∨ t % 5 = 1 ∨ t % 5 = 2 ∨ t % 5 = 3 ∨ t % 5 = 4 := by omega
      rcases this with e | e | e | e | e <;> rw [e] at h2 <;> simp [demo4Lefts] at h2
    obtain ⟨l1, l2⟩ := demo4_left h3 hne
    rw [slides, h1]
    have : t % 5 = 0 ∨ t % 5 = 1 ∨ t % 5 = 2 ∨ t % 5 = 3 ∨ t % 5 = 4 := by omega
    rcases this with e | e | e | e | e <;> rw [e] at h2 ⊢
    · rw [show (t + 1) % 5 = 1 by omega, show (t + 1) / 5 = t / 5 by omega]
      refine ⟨slide 2 demo4Step (u ++ [2]) ++ [1], ?_, by simp [l1, h2, demo4Lefts], ?_⟩
      · rw [show demo4Ends.getD 0 [] = 2 :: [2, 1] from rfl, slide_two_append, List.append_assoc]
        rfl
      · intro c hc
        rcases List.mem_append.1 hc with hc | hc
        · exact l2 c hc
        · exact Or.inl (List.mem_singleton.1 hc)
    · rw [show (t + 1) % 5 = 2 by omega, show (t + 1) / 5 = t / 5 by omega]
      refine ⟨slide 2 demo4Step (u ++ [2]) ++ [1], ?_, by simp [l1, h2, demo4Lefts], ?_⟩
      · rw [show demo4Ends.getD 1 [] = 2 :: [2, 2] from rfl, slide_two_append, List.append_assoc]
        rfl
      · intro c hc
        rcases List.mem_append.1 hc with hc | hc
        · exact l2 c hc
        · exact Or.inl (List.mem_singleton.1 hc)
    · rw [show (t + 1) % 5 = 3 by omega, show (t + 1) / 5 = t / 5 by omega]
      refine ⟨slide 2 demo4Step (u ++ [2]), ?_, by simp [l1, h2, demo4Lefts], l2⟩
      rw [show demo4Ends.getD 2 [] = 2 :: [1, 2] from rfl, slide_two_append]
      rfl
    · rw [show (t + 1) % 5 = 4 by omega, show (t + 1) / 5 = t / 5 by omega]
      refine ⟨slide 2 demo4Step (u ++ [2]) ++ [1], ?_, by simp [l1, h2, demo4Lefts], ?_⟩
      · rw [show demo4Ends.getD 3 [] = 2 :: [2, 3] from rfl, slide_two_append, List.append_assoc]
        rfl
      · intro c hc
        rcases List.mem_append.1 hc with hc | hc
        · exact l2 c hc
        · exact Or.inl (List.mem_singleton.1 hc)
    · rw [show (t + 1) % 5 = 0 by omega, show (t + 1) / 5 = t / 5 + 1 by omega]
      refine ⟨slide 2 demo4Step (u ++ [2]), ?_, by simp [l1, h2, demo4Lefts]; omega, l2⟩
      rw [show demo4Ends.getD 4 [] = 2 :: [1, 1] from rfl, slide_two_append]
      rfl

/-! ## The fifth demo -/

theorem demo5_front (w : List Nat) : ∃ v, slide 2 demo5Step (1 :: 2 :: w) = 1 :: 2 :: v := by
  rw [slide_two]
  exact ⟨_, rfl⟩

theorem demo5_back (u : List Nat) : ∃ v, slide 2 demo5Step (u ++ [1, 2]) = v ++ [1, 2] := by
  rw [slide_two_append]
  exact ⟨_, rfl⟩

theorem demo5_words (t : Nat) : (∃ v, slides 2 demo5Step [1, 2, 3, 2] t = 1 :: 2 :: v) ∧
    (1 ≤ t → ∃ v, slides 2 demo5Step [1, 2, 3, 2] t = v ++ [1, 2]) := by
  induction t with
  | zero => exact ⟨⟨_, rfl⟩, fun h => by omega⟩
  | succ t ih =>
    constructor
    · obtain ⟨v, hv⟩ := ih.1
      rw [slides, hv]
      exact demo5_front v
    · intro _
      by_cases h0 : t = 0
      · subst h0
        exact ⟨[1, 2], by decide⟩
      · obtain ⟨v, hv⟩ := ih.2 (by omega)
        rw [slides, hv]
        exact demo5_back v

/-! ## The seventh demo -/

/-- The left ends of the words of the seventh demo, from the second word on. -/
def demo7Fronts : List (List Nat) := [[2, 1, 1, 2, 1, 1], [2, 1, 2, 1, 2, 1, 1], [1, 1, 1, 1, 1], [2, 2, 2, 2, 2, 2]]

theorem demo7_words (t : Nat) (ht : 1 ≤ t) : ∃ v, slides 3 demo7Step [2, 1, 1, 2, 1, 2] t = demo7Fronts.getD (t % 4) [] ++ v := by
  induction t with
  | zero => omega
  | succ t ih =>
    by_cases h0 : t = 0
    · subst h0
      exact ⟨[1, 1], by decide⟩
    obtain ⟨v, hv⟩ := ih (by omega)
    rw [slides, hv]
    have : t % 4 = 0 ∨ t % 4 = 1 ∨ t % 4 = 2 ∨ t % 4 = 3 := by omega
    rcases this with e | e | e | e <;> rw [e]
    · rw [show (t + 1) % 4 = 1 by omega]
      simp only [demo7Fronts, List.getD_cons_zero, List.getD_cons_succ, List.cons_append, List.nil_append, slide_three]
      exact ⟨_, rfl⟩
    · rw [show (t + 1) % 4 = 2 by omega]
      simp only [demo7Fronts, List.getD_cons_zero, List.getD_cons_succ, List.cons_append, List.nil_append, slide_three]
      exact ⟨_, rfl⟩
    · rw [show (t + 1) % 4 = 3 by omega]
      simp only [demo7Fronts, List.getD_cons_zero, List.getD_cons_succ, List.cons_append, List.nil_append, slide_three]
      exact ⟨_, rfl⟩
    · rw [show (t + 1) % 4 = 0 by omega]
      simp only [demo7Fronts, List.getD_cons_zero, List.getD_cons_succ, List.cons_append, List.nil_append, slide_three]
      exact ⟨_, rfl⟩

end Verif
