import Verif.Proofs.AbcMachine
import Verif.Spec.AnBnCn
/-! # Acceptance and rejection of the machine for `a^n b^n c^n` -/

namespace Verif
open Spec

theorem split_while {α : Type} (P : α → Prop) [DecidablePred P] : ∀ R : List α, ∃ p rest, R = p ++ rest ∧ (∀ x ∈ p, P x) ∧
    (∀ s, rest.head? = some s → ¬ P s)
  | [] => ⟨[], [], rfl, by simp, by simp⟩
  | x :: R => by
    by_cases hx : P x
    · obtain ⟨p, rest, h1, h2, h3⟩ := split_while P R
      refine ⟨x :: p, rest, by rw [h1]; rfl, ?_, h3⟩
      intro y hy
      rcases List.mem_cons.1 hy with rfl | hy
      · exact hx
      · exact h2 y hy
    · exact ⟨[], x :: R, rfl, by simp, by intro s hs; simp at hs; exact hs ▸ hx⟩

/-- A marked `c` is a `c`. -/
def unz (s : Int) : Int := if s = 6 then 3 else s

theorem all_eq_replicate {α : Type} {x : α} : ∀ {p : List α}, (∀ y ∈ p, y = x) → p = List.replicate p.length x
  | [], _ => rfl
  | y :: p, h => by
    rw [List.length_cons, List.replicate_succ, ← all_eq_replicate (fun z hz => h z (List.mem_cons_of_mem _ hz)), h y (List.mem_cons_self ..)]

/-- After the first round the machine rejects, or the word was right. -/
theorem abc_later (l r : List Int) : ∀ (j m i : Nat) (R' : List Int), (∀ x ∈ R', Abc x ∨ x = 6) → (6 :: R').count 6 = i + 1 →
    Rejects (abcConf l r (i + 1) j m (6 :: R')) ∨ (m = j ∧ (6 :: R').map unz = List.replicate (i + 1 + j) 3)
  | 0, 0, i, R', hR, hcount => by
    obtain ⟨p, rest, e, h1, h2⟩ := split_while (fun x : Int => x = 6) (6 :: R')
    have hp := all_eq_replicate h1
    have hall : ∀ x ∈ 6 :: R', Abc x ∨ x = 6 := by
      intro x hx
      rcases List.mem_cons.1 hx with rfl | hx
      · exact Or.inr rfl
      · exact hR x hx
    cases rest with
    | nil =>
      right
      rw [List.append_nil] at e
      have hlen : p.length = i + 1 := by
        rw [e, hp, List.count_replicate_self] at hcount
        exact hcount
      refine ⟨rfl, ?_⟩
      rw [e, hp, hlen, List.map_replicate]
      rfl
    | cons s rest =>
      left
      rw [e, hp]
      have hs : Abc s := by
        rcases hall s (by rw [e]; simp) with h | h
        · exact h
        · exact absurd h (h2 s rfl)
      exact ⟨_, _, abc_check l r i p.length (s :: rest), stuck_of _ _ (by rcases hs with rfl | rfl | rfl <;> decide) (by decide)⟩
  | 0, m + 1, i, R', _, _ => by
    left
    have e : abcConf l r (i + 1) 0 (m + 1) (6 :: R') = abcConf l r (i + 1) 0 0 (List.replicate 0 6 ++ (2 :: (List.replicate m 2 ++ 6 :: R'))) := by
      unfold abcConf
      simp [List.replicate_succ]
    rw [e]
    exact ⟨_, _, abc_check l r i 0 _, stuck_of _ _ (by decide) (by decide)⟩
  | j + 1, 0, i, R', _, _ => Or.inl (abc_no_b l r (i + 1) j (6 :: R') (by intro s hs; simp at hs; exact Or.inr (Or.inl hs.symm)))
  | j + 1, m + 1, i, R', hR, hcount => by
    have hall : ∀ x ∈ 6 :: R', Abc x ∨ x = 6 := by
      intro x hx
      rcases List.mem_cons.1 hx with rfl | hx
      · exact Or.inr rfl
      · exact hR x hx
    obtain ⟨p, rest, e, h1, h2⟩ := split_while (fun x : Int => x = 2 ∨ x = 6) (6 :: R')
    have hrest : ∀ s ∈ rest, Abc s ∨ s = 6 := fun s hs => hall s (by rw [e]; exact List.mem_append_right _ hs)
    by_cases h3 : ∃ s', rest = 3 :: s'
    · obtain ⟨s', rfl⟩ := h3
      cases p with
      | nil => simp at e
      | cons x p =>
        have hx : x = 6 := by simp at e; exact e.1.symm
        subst hx
        have hR' : R' = p ++ 3 :: s' := by simpa using e
        have hround := abc_round l r (i + 1) j m (6 :: p) s' h1
        have hc' : (6 :: (p ++ 6 :: s')).count (6 : Int) = i + 1 + 1 := by
          rw [hR'] at hcount
          simp only [List.count_cons, List.count_append] at hcount ⊢
          simp only [show ((3 : Int) == 6) = false by decide, beq_self_eq_true, if_true] at hcount ⊢
          simp only [Bool.false_eq_true, if_false] at hcount
          omega
        have hset : ∀ x ∈ p ++ 6 :: s', Abc x ∨ x = 6 := by
          intro x hx
          rcases List.mem_append.1 hx with h | h
          · exact hR x (by rw [hR']; exact List.mem_append_left _ h)
          · rcases List.mem_cons.1 h with h | h
            · exact Or.inr h
            · exact hR x (by rw [hR']; exact List.mem_append_right _ (List.mem_cons_of_mem _ h))
        rcases abc_later l r j m (i + 1) (p ++ 6 :: s') hset hc' with h | ⟨h, h'⟩
        · left
          rw [e]
          exact Rejects.of hround h
        · right
          refine ⟨by omega, ?_⟩
          rw [hR', show i + 1 + (j + 1) = i + 1 + 1 + j by omega, ← h']
          simp [unz]
    · left
      rw [e]
      refine abc_no_c l r (i + 1) j m p rest h1 ?_
      intro s hs
      cases rest with
      | nil => simp at hs; exact Or.inr hs.symm
      | cons x rest =>
        simp at hs
        subst hs
        have := h2 x rfl
        rcases hrest x (List.mem_cons_self ..) with (h | h | h) | h
        · exact Or.inl h
        · exact absurd (Or.inl h) this
        · exact absurd ⟨rest, by rw [h]⟩ h3
        · exact absurd (Or.inr h) this

theorem unz_abc {R : List Int} (h : ∀ x ∈ R, Abc x) : R.map unz = R := by
  conv => rhs; rw [← List.map_id R]
  apply List.map_congr_left
  intro x hx
  rcases h x hx with rfl | rfl | rfl <;> rfl

/-- The start. -/
theorem abc_start (left right : Nat) (w : List Int) (j m : Nat) (R : List Int) (e : w = List.replicate j 1 ++ List.replicate m 2 ++ R) :
    (⟨0, left + 1, padTape left right w⟩ : Conf Nat Int) = abcConf (List.replicate left 0) (List.replicate right 0) 0 j m R := by
  unfold abcConf zconf padTape
  subst e
  rw [List.replicate_succ (n := right), List.replicate_succ' (n := left)]
  simp

/-- Every other word is rejected. -/
theorem abc_rejects (left right : Nat) (w : List Int) (hw : ∀ s ∈ w, Abc s) (hn : ∀ n, w ≠ anbncn n) :
    Rejects ⟨0, left + 1, padTape left right w⟩ := by
  obtain ⟨p, rest, e, h1, h2⟩ := split_while (fun x : Int => x = 1) w
  obtain ⟨p', rest', e', h1', h2'⟩ := split_while (fun x : Int => x = 2) rest
  have hp := all_eq_replicate h1
  have hp' := all_eq_replicate h1'
  have hw' : w = List.replicate p.length 1 ++ List.replicate p'.length 2 ++ rest' := by
    rw [← hp, ← hp', List.append_assoc, ← e', ← e]
  have hrest' : ∀ s ∈ rest', Abc s := fun s hs => hw s (by rw [hw']; exact List.mem_append_right _ hs)
  rw [abc_start left right w _ _ _ hw']
  generalize List.replicate left (0 : Int) = l
  generalize List.replicate right (0 : Int) = r
  generalize hj : p.length = j at hw' ⊢
  generalize hm : p'.length = m at hw' ⊢
  cases j with
  | zero =>
    -- no `a` in front
    have hp0 : p = [] := List.length_eq_zero_iff.1 hj
    subst hp0
    rw [List.nil_append] at e
    subst e
    cases hwl : w with
    | nil => exact absurd hwl (by have := hn 0; simpa [anbncn] using this)
    | cons s t =>
      have hs1 : s ≠ 1 := h2 s (by rw [hwl]; rfl)
      have hs : s = 2 ∨ s = 3 := by
        rcases hw s (by rw [hwl]; exact List.mem_cons_self ..) with h | h
        · exact absurd h hs1
        · exact h
      refine ⟨0, _, Leads.refl _ _, ?_⟩
      have : abcConf l r 0 0 m rest' = zconf 0 (0 :: l) (s :: (t ++ 0 :: r)) := by
        unfold abcConf
        have : List.replicate m 2 ++ rest' = s :: t := by rw [← hwl, hw']; simp
        simp only [List.replicate_zero, List.nil_append]
        rw [this]
        rfl
      rw [this]
      exact stuck_of _ _ (by rcases hs with rfl | rfl <;> decide) (by decide)
  | succ j =>
    cases m with
    | zero =>
      refine abc_no_b l r 0 j rest' ?_
      intro s hs
      have hp0 : p' = [] := List.length_eq_zero_iff.1 hm
      subst hp0
      rw [List.nil_append] at e'
      subst e'
      cases hr : rest with
      | nil => rw [hr] at hs; simp at hs; exact Or.inr (Or.inr hs.symm)
      | cons x t =>
        rw [hr] at hs
        simp at hs
        subst hs
        rcases hrest' x (by rw [hr]; exact List.mem_cons_self ..) with h | h | h
        · exact absurd h (h2 x (by rw [hr]; rfl))
        · exact absurd h (h2' x (by rw [hr]; rfl))
        · exact Or.inl h
    | succ m =>
      by_cases h3 : ∃ s', rest' = 3 :: s'
      · obtain ⟨s', rfl⟩ := h3
        have hround := abc_round l r 0 j m [] s' (by simp)
        have hs' : ∀ x ∈ s', Abc x := fun x hx => hrest' x (List.mem_cons_of_mem _ hx)
        have hc0 : (6 :: s').count (6 : Int) = 0 + 1 := by
          rw [List.count_cons]
          have : s'.count (6 : Int) = 0 := by
            rw [List.count_eq_zero]
            intro h
            rcases hs' 6 h with h | h | h <;> exact absurd h (by decide)
          rw [this]
          decide
        rcases abc_later l r j m 0 s' (fun x hx => Or.inl (hs' x hx)) hc0 with h | ⟨h, h'⟩
        · exact Rejects.of hround h
        · exfalso
          subst h
          apply hn (m + 1)
          rw [hw', anbncn]
          congr 1
          rw [List.map_cons, unz_abc hs'] at h'
          have : unz 6 = 3 := rfl
          rw [this] at h'
          rw [h', show 0 + 1 + m = m + 1 by omega]
      · refine abc_no_c l r 0 j m [] rest' (by simp) ?_
        intro s hs
        cases hr : rest' with
        | nil => rw [hr] at hs; simp at hs; exact Or.inr hs.symm
        | cons x t =>
          rw [hr] at hs
          simp at hs
          subst hs
          rcases hrest' x (by rw [hr]; exact List.mem_cons_self ..) with h | h | h
          · exact Or.inl h
          · exact absurd h (h2' x (by rw [hr]; rfl))
          · exact absurd ⟨t, by rw [hr, h]⟩ h3

/-- The rounds on `a^n b^n c^n`. -/
theorem abc_rounds (l r : List Int) : ∀ (j i : Nat), Leads abcδ (j * (4 * (i + j) + 1)) (abcConf l r i j j (List.replicate i 6 ++ List.replicate j 3))
    (abcConf l r (i + j) 0 0 (List.replicate (i + j) 6))
  | 0, i => by
    have := Leads.refl abcδ (abcConf l r i 0 0 (List.replicate i 6))
    simpa using this
  | j + 1, i => by
    have h1 := abc_round l r i j j (List.replicate i 6) (List.replicate j 3) (by
      intro x hx; exact Or.inr (List.eq_of_mem_replicate hx))
    have h2 := abc_rounds l r j (i + 1)
    have e : List.replicate i (6 : Int) ++ 6 :: List.replicate j 3 = List.replicate (i + 1) 6 ++ List.replicate j 3 := by
      rw [List.replicate_succ', List.append_assoc]; rfl
    rw [e] at h1
    have := h1.trans h2
    rw [show i + 1 + j = i + (j + 1) by omega] at this
    refine this.cast ?_
    rw [List.length_replicate]
    rw [Nat.add_mul, Nat.one_mul]
    omega

/-- `a^n b^n c^n` is accepted, at the given step. -/
theorem abc_accepts (left right n : Nat) : ∃ d e, Leads abcδ (abcTime n - 1) ⟨0, left + 1, padTape left right (anbncn n)⟩ d ∧ d.state ≠ 6 ∧
    tmStep abcδ d = some e ∧ e.state = 6 := by
  rw [abc_start left right (anbncn n) n n (List.replicate n 3) rfl]
  generalize List.replicate left (0 : Int) = l
  generalize List.replicate right (0 : Int) = r
  cases n with
  | zero => exact ⟨_, _, Leads.refl _ _, (by decide : (0 : Nat) ≠ 6), z_stay (q' := 6) (s' := 0) (by decide) _ _, rfl⟩
  | succ n =>
    have h1 := abc_rounds l r (n + 1) 0
    rw [show 0 + (n + 1) = n + 1 by omega] at h1
    have h2 := abc_check l r n (n + 1) []
    rw [List.append_nil] at h2
    refine ⟨_, _, ((by simpa using h1 : Leads abcδ _ _ _).trans h2).cast ?_, ?_, z_stay (q' := 6) (s' := 0) (by decide) _ _, rfl⟩
    · unfold abcTime
      rw [if_neg (by omega)]
      have : 4 * (n + 1) * (n + 1) = (n + 1) * (4 * (n + 1)) := Nat.mul_comm _ _
      rw [this, Nat.mul_add]
      omega
    · exact (by decide : (5 : Nat) ≠ 6)

end Verif
