import Verif.Proofs.Zipper
import Verif.Model.TuringDemos
/-! # The machine for `a^n b^n c^n` -/

namespace Verif

/-- The transition function of the demo. -/
abbrev abcδ : Nat → Int → Option (Nat × Int × Int) := abcTable.rule?

/-- The tape after `i` rounds, head on the first cell that is not `x`: `x^i`, then `a^j y^i b^m R`. -/
def abcConf (l r : List Int) (i j m : Nat) (R : List Int) : Conf Nat Int :=
  zconf 0 (List.replicate i (4 : Int) ++ 0 :: l) (List.replicate j (1 : Int) ++ List.replicate i (5 : Int) ++ List.replicate m (2 : Int) ++ R ++ 0 :: r)

theorem rep_snoc {α : Type} (n : Nat) (x : α) (l : List α) : List.replicate n x ++ x :: l = x :: (List.replicate n x ++ l) := by
  induction n with
  | zero => rfl
  | succ n ih => simp only [List.replicate_succ, List.cons_append, ih]

/-- One round: an `a`, a `b` and a `c` are marked. -/
theorem abc_round (l r : List Int) (i j m : Nat) (p s : List Int) (hp : ∀ x ∈ p, x = 2 ∨ x = 6) :
    Leads abcδ (2 * (2 + i + j + m + p.length) + 1) (abcConf l r i (j + 1) (m + 1) (p ++ 3 :: s)) (abcConf l r (i + 1) j m (p ++ 6 :: s)) := by
  -- to the `b`
  have h1 : Leads abcδ 1 (abcConf l r i (j + 1) (m + 1) (p ++ 3 :: s))
      (zconf 1 (4 :: (List.replicate i (4 : Int) ++ 0 :: l))
        ((List.replicate j (1 : Int) ++ List.replicate i (5 : Int)) ++ (2 :: (List.replicate m (2 : Int) ++ p ++ 3 :: (s ++ 0 :: r))))) := by
    apply Leads.one
    unfold abcConf
    have := z_right (δ := abcδ) (q := 0) (q' := 1) (s := 1) (s' := 4) (by decide) (List.replicate i (4 : Int) ++ 0 :: l)
      (r := (List.replicate j (1 : Int) ++ List.replicate i (5 : Int)) ++ (2 :: (List.replicate m (2 : Int) ++ p ++ 3 :: (s ++ 0 :: r)))) (by simp)
    rw [← this]
    simp [List.replicate_succ]
  have h2 := skip_right (δ := abcδ) (q := 1) (List.replicate j (1 : Int) ++ List.replicate i (5 : Int)) (4 :: (List.replicate i (4 : Int) ++ 0 :: l))
    (r := 2 :: (List.replicate m (2 : Int) ++ p ++ 3 :: (s ++ 0 :: r))) (by simp) (by
      intro x hx
      rcases List.mem_append.1 hx with h | h
      · rw [List.eq_of_mem_replicate h]; decide
      · rw [List.eq_of_mem_replicate h]; decide)
  have h3 := Leads.one (z_right (δ := abcδ) (q := 1) (q' := 2) (s := 2) (s' := 5) (by decide)
    ((List.replicate j (1 : Int) ++ List.replicate i (5 : Int)).reverse ++ 4 :: (List.replicate i (4 : Int) ++ 0 :: l)) (r := List.replicate m (2 : Int) ++ p ++ 3 :: (s ++ 0 :: r)) (by simp))
  -- to the `c`
  have h4 := skip_right (δ := abcδ) (q := 2) (List.replicate m (2 : Int) ++ p)
    (5 :: ((List.replicate j (1 : Int) ++ List.replicate i (5 : Int)).reverse ++ 4 :: (List.replicate i (4 : Int) ++ 0 :: l))) (r := 3 :: (s ++ 0 :: r)) (by simp) (by
      intro x hx
      rcases List.mem_append.1 hx with h | h
      · rw [List.eq_of_mem_replicate h]; decide
      · rcases hp x h with rfl | rfl <;> decide)
  -- back
  let u : List Int := (List.replicate m (2 : Int) ++ p).reverse ++ 5 :: (List.replicate j (1 : Int) ++ List.replicate i (5 : Int)).reverse
  have hu : ∀ x ∈ u, abcδ 3 x = some (3, x, 0) := by
    intro x hx
    simp only [u, List.mem_append, List.mem_reverse, List.mem_cons, List.mem_replicate] at hx
    rcases hx with (⟨_, rfl⟩ | h) | rfl | ⟨_, rfl⟩ | ⟨_, rfl⟩
    · decide
    · rcases hp x h with rfl | rfl <;> decide
    · decide
    · decide
    · decide
  have h5 : Leads abcδ 1 (zconf 2 ((List.replicate m (2 : Int) ++ p).reverse ++ 5 :: ((List.replicate j (1 : Int) ++ List.replicate i (5 : Int)).reverse ++ 4 :: (List.replicate i (4 : Int) ++ 0 :: l)))
      (3 :: (s ++ 0 :: r))) (zleft 3 (u ++ 4 :: (List.replicate i (4 : Int) ++ 0 :: l)) (6 :: (s ++ 0 :: r))) := by
    apply Leads.one
    have hne : ∃ a u', u = a :: u' := by
      have : u ≠ [] := by simp [u]
      exact List.exists_cons_of_ne_nil this
    obtain ⟨a, u', e⟩ := hne
    have := z_left (δ := abcδ) (q := 2) (q' := 3) (s := 3) (s' := 6) (by decide) a (u' ++ 4 :: (List.replicate i (4 : Int) ++ 0 :: l)) (s ++ 0 :: r)
    have e2 : (List.replicate m (2 : Int) ++ p).reverse ++ 5 :: ((List.replicate j (1 : Int) ++ List.replicate i (5 : Int)).reverse ++
        4 :: (List.replicate i (4 : Int) ++ 0 :: l)) = a :: (u' ++ 4 :: (List.replicate i (4 : Int) ++ 0 :: l)) := by
      show _ = (a :: u') ++ _
      rw [← e]
      simp [u]
    rw [e2, this, e]
    rfl
  have h6 := skip_left (δ := abcδ) (q := 3) 4 (List.replicate i (4 : Int) ++ 0 :: l) u (6 :: (s ++ 0 :: r)) hu
  have h7 : Leads abcδ 1 (zleft 3 (4 :: (List.replicate i (4 : Int) ++ 0 :: l)) (u.reverse ++ 6 :: (s ++ 0 :: r))) (abcConf l r (i + 1) j m (p ++ 6 :: s)) := by
    apply Leads.one
    have := z_right (δ := abcδ) (q := 3) (q' := 0) (s := 4) (s' := 4) (by decide) (List.replicate i (4 : Int) ++ 0 :: l) (r := u.reverse ++ 6 :: (s ++ 0 :: r)) (by simp)
    rw [zleft, this]
    unfold abcConf
    congr 2
    simp only [u, List.reverse_append, List.reverse_reverse, List.reverse_cons, List.append_assoc, List.replicate_succ', List.cons_append, List.nil_append]
  refine ((((((h1.trans h2).trans h3).trans h4).trans h5).trans h6).trans h7).cast ?_
  simp [u]
  omega

/-- A configuration at rest in a state other than the accepting one. -/
def Stuck (c : Conf Nat Int) : Prop := tmStep abcδ c = some c ∧ c.state ≠ 6

theorem stuck_of {q : Nat} {s : Int} (l r : List Int) (h : abcδ q s = some (q, s, 1)) (hq : q ≠ 6) : Stuck (zconf q l (s :: r)) :=
  ⟨z_stay h l r, hq⟩

/-- A rest is reached. -/
def Rejects (c : Conf Nat Int) : Prop := ∃ k d, Leads abcδ k c d ∧ Stuck d

theorem Rejects.of {j : Nat} {c d : Conf Nat Int} (h : Leads abcδ j c d) : Rejects d → Rejects c := by
  rintro ⟨k, e, h1, h2⟩
  exact ⟨_, e, h.trans h1, h2⟩

/-- Words are made of `a`, `b`, `c`. -/
abbrev Abc (s : Int) : Prop := s = 1 ∨ s = 2 ∨ s = 3

/-- No `b` is left. -/
theorem abc_no_b (l r : List Int) (i j : Nat) (R : List Int) (hR : ∀ s, (R ++ 0 :: r).head? = some s → s = 3 ∨ s = 6 ∨ s = 0) :
    Rejects (abcConf l r i (j + 1) 0 R) := by
  obtain ⟨s, R', hs⟩ : ∃ s R', R ++ 0 :: r = s :: R' := List.exists_cons_of_ne_nil (by simp)
  have hs' := hR s (by rw [hs]; rfl)
  have h1 : Leads abcδ 1 (abcConf l r i (j + 1) 0 R)
      (zconf 1 (4 :: (List.replicate i (4 : Int) ++ 0 :: l)) ((List.replicate j (1 : Int) ++ List.replicate i (5 : Int)) ++ (s :: R'))) := by
    apply Leads.one
    unfold abcConf
    have := z_right (δ := abcδ) (q := 0) (q' := 1) (s := 1) (s' := 4) (by decide) (List.replicate i (4 : Int) ++ 0 :: l)
      (r := (List.replicate j (1 : Int) ++ List.replicate i (5 : Int)) ++ (s :: R')) (by simp)
    rw [← this, ← hs]
    simp [List.replicate_succ]
  have h2 := skip_right (δ := abcδ) (q := 1) (List.replicate j (1 : Int) ++ List.replicate i (5 : Int)) (4 :: (List.replicate i (4 : Int) ++ 0 :: l))
    (r := s :: R') (by simp) (by
      intro x hx
      rcases List.mem_append.1 hx with h | h
      · rw [List.eq_of_mem_replicate h]; decide
      · rw [List.eq_of_mem_replicate h]; decide)
  exact ⟨_, _, h1.trans h2, stuck_of _ _ (by rcases hs' with rfl | rfl | rfl <;> decide) (by decide)⟩

/-- No `c` is left where one is needed. -/
theorem abc_no_c (l r : List Int) (i j m : Nat) (p R : List Int) (hp : ∀ x ∈ p, x = 2 ∨ x = 6)
    (hR : ∀ s, (R ++ 0 :: r).head? = some s → s = 1 ∨ s = 0) : Rejects (abcConf l r i (j + 1) (m + 1) (p ++ R)) := by
  obtain ⟨s, R', hs⟩ : ∃ s R', R ++ 0 :: r = s :: R' := List.exists_cons_of_ne_nil (by simp)
  have hs' := hR s (by rw [hs]; rfl)
  have h1 : Leads abcδ 1 (abcConf l r i (j + 1) (m + 1) (p ++ R))
      (zconf 1 (4 :: (List.replicate i (4 : Int) ++ 0 :: l)) ((List.replicate j (1 : Int) ++ List.replicate i (5 : Int)) ++ (2 :: (List.replicate m (2 : Int) ++ p ++ s :: R')))) := by
    apply Leads.one
    unfold abcConf
    have := z_right (δ := abcδ) (q := 0) (q' := 1) (s := 1) (s' := 4) (by decide) (List.replicate i (4 : Int) ++ 0 :: l)
      (r := (List.replicate j (1 : Int) ++ List.replicate i (5 : Int)) ++ (2 :: (List.replicate m (2 : Int) ++ p ++ s :: R'))) (by simp)
    rw [← this, ← hs]
    simp [List.replicate_succ]
  have h2 := skip_right (δ := abcδ) (q := 1) (List.replicate j (1 : Int) ++ List.replicate i (5 : Int)) (4 :: (List.replicate i (4 : Int) ++ 0 :: l))
    (r := 2 :: (List.replicate m (2 : Int) ++ p ++ s :: R')) (by simp) (by
      intro x hx
      rcases List.mem_append.1 hx with h | h
      · rw [List.eq_of_mem_replicate h]; decide
      · rw [List.eq_of_mem_replicate h]; decide)
  have h3 := Leads.one (z_right (δ := abcδ) (q := 1) (q' := 2) (s := 2) (s' := 5) (by decide)
    ((List.replicate j (1 : Int) ++ List.replicate i (5 : Int)).reverse ++ 4 :: (List.replicate i (4 : Int) ++ 0 :: l)) (r := List.replicate m (2 : Int) ++ p ++ s :: R') (by simp))
  have h4 := skip_right (δ := abcδ) (q := 2) (List.replicate m (2 : Int) ++ p)
    (5 :: ((List.replicate j (1 : Int) ++ List.replicate i (5 : Int)).reverse ++ 4 :: (List.replicate i (4 : Int) ++ 0 :: l))) (r := s :: R') (by simp) (by
      intro x hx
      rcases List.mem_append.1 hx with h | h
      · rw [List.eq_of_mem_replicate h]; decide
      · rcases hp x h with rfl | rfl <;> decide)
  exact ⟨_, _, ((h1.trans h2).trans h3).trans h4, stuck_of _ _ (by rcases hs' with rfl | rfl <;> decide) (by decide)⟩

/-- The final check, up to the first symbol that is not marked. -/
theorem abc_check (l r : List Int) (i : Nat) (z : Nat) (R : List Int) :
    Leads abcδ (3 * i + z + 5) (abcConf l r (i + 1) 0 0 (List.replicate z (6 : Int) ++ R))
      (zconf 5 (List.replicate z (6 : Int) ++ List.replicate (i + 1) (5 : Int) ++ List.replicate (i + 1) (4 : Int) ++ 0 :: l) (R ++ 0 :: r)) := by
  have h1 : Leads abcδ 1 (abcConf l r (i + 1) 0 0 (List.replicate z (6 : Int) ++ R))
      (zleft 4 (List.replicate (i + 1) (4 : Int) ++ 0 :: l) (5 :: (List.replicate i (5 : Int) ++ List.replicate z (6 : Int) ++ R ++ 0 :: r))) := by
    apply Leads.one
    have := z_left (δ := abcδ) (q := 0) (q' := 4) (s := 5) (s' := 5) (by decide) 4 (List.replicate i (4 : Int) ++ 0 :: l)
      (List.replicate i (5 : Int) ++ List.replicate z (6 : Int) ++ R ++ 0 :: r)
    unfold abcConf
    simp only [List.replicate_succ, List.cons_append] at this ⊢
    rw [← this]
    simp
  have h2 := skip_left (δ := abcδ) (q := 4) 0 l (List.replicate (i + 1) (4 : Int)) (5 :: (List.replicate i (5 : Int) ++ List.replicate z (6 : Int) ++ R ++ 0 :: r)) (by
    intro x hx; rw [List.eq_of_mem_replicate hx]; decide)
  have h3 : Leads abcδ 1 (zleft 4 (0 :: l) ((List.replicate (i + 1) (4 : Int)).reverse ++ 5 :: (List.replicate i (5 : Int) ++ List.replicate z (6 : Int) ++ R ++ 0 :: r)))
      (zconf 5 (0 :: l) ((List.replicate (i + 1) (4 : Int) ++ List.replicate (i + 1) (5 : Int) ++ List.replicate z (6 : Int)) ++ (R ++ 0 :: r))) := by
    apply Leads.one
    have := z_right (δ := abcδ) (q := 4) (q' := 5) (s := 0) (s' := 0) (by decide) l
      (r := (List.replicate (i + 1) (4 : Int)).reverse ++ 5 :: (List.replicate i (5 : Int) ++ List.replicate z (6 : Int) ++ R ++ 0 :: r)) (by simp)
    rw [zleft, this]
    simp [List.replicate_succ, rep_snoc]
  have h4 := skip_right (δ := abcδ) (q := 5) (List.replicate (i + 1) (4 : Int) ++ List.replicate (i + 1) (5 : Int) ++ List.replicate z (6 : Int)) (0 :: l)
    (r := R ++ 0 :: r) (by simp) (by
      intro x hx
      rcases List.mem_append.1 hx with h | h
      · rcases List.mem_append.1 h with h | h <;> (rw [List.eq_of_mem_replicate h]; decide)
      · rw [List.eq_of_mem_replicate h]; decide)
  have := ((h1.trans h2).trans h3).trans h4
  have e : (List.replicate (i + 1) (4 : Int) ++ List.replicate (i + 1) (5 : Int) ++ List.replicate z (6 : Int)).reverse ++ 0 :: l =
      List.replicate z (6 : Int) ++ List.replicate (i + 1) (5 : Int) ++ List.replicate (i + 1) (4 : Int) ++ 0 :: l := by simp
  rw [e] at this
  refine this.cast ?_
  simp only [List.length_append, List.length_replicate]
  omega

end Verif
