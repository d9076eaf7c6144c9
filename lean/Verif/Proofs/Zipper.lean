import Verif.Props.Turing
/-! # Runs of Turing machines away from the ends of the tape -/

namespace Verif
section
variable {Q S : Type}

/-- `k` steps of the machine. -/
def tmSteps (δ : Q → S → Option (Q × S × Int)) : Nat → Conf Q S → Option (Conf Q S)
  | 0, c => some c
  | k + 1, c => (tmStep δ c).bind (tmSteps δ k)

/-- The configuration with the symbols `l` to the left of the head (nearest first) and `r` from the head on. -/
def zconf (q : Q) (l r : List S) : Conf Q S := ⟨q, l.length, l.reverse ++ r⟩

/-- The configuration with the head on the first symbol of `l`. -/
def zleft (q : Q) : List S → List S → Conf Q S
  | [], r => zconf q [] r
  | s :: l, r => zconf q l (s :: r)

theorem zread (q : Q) (l : List S) (s : S) (r : List S) : (zconf q l (s :: r)).tape[(zconf q l (s :: r)).pos]? = some s := by
  simp [zconf]

theorem zset (l : List S) (s s' : S) (r : List S) : (l.reverse ++ s :: r).set l.length s' = l.reverse ++ s' :: r := by
  rw [List.set_append_right _ _ (by simp)]
  simp

theorem z_stay {δ : Q → S → Option (Q × S × Int)} {q q' : Q} {s s' : S} (h : δ q s = some (q', s', 1)) (l r : List S) :
    tmStep δ (zconf q l (s :: r)) = some (zconf q' l (s' :: r)) := by
  unfold tmStep
  rw [zread]
  simp [zconf, h, moveHead, zset]

theorem z_right {δ : Q → S → Option (Q × S × Int)} {q q' : Q} {s s' : S} (h : δ q s = some (q', s', 2)) (l : List S) {r : List S}
    (hr : r ≠ []) : tmStep δ (zconf q l (s :: r)) = some (zconf q' (s' :: l) r) := by
  have hpos : 0 < r.length := List.length_pos_iff.2 hr
  unfold tmStep
  rw [zread]
  have e : (l.length + 1) % (l.reverse ++ s :: r).length = l.length + 1 := Nat.mod_eq_of_lt (by simp; omega)
  simp only [zconf, Option.bind_some, h, moveHead, if_neg (by decide : ¬ (2 : Int) = 0), if_neg (by decide : ¬ (2 : Int) = 1), if_true,
    Option.map_some, zset, e]
  simp

theorem z_left {δ : Q → S → Option (Q × S × Int)} {q q' : Q} {s s' : S} (h : δ q s = some (q', s', 0)) (a : S) (l r : List S) :
    tmStep δ (zconf q (a :: l) (s :: r)) = some (zleft q' (a :: l) (s' :: r)) := by
  unfold tmStep
  rw [zread]
  have e : ((a :: l).length + ((a :: l).reverse ++ s :: r).length - 1) % ((a :: l).reverse ++ s :: r).length = l.length := by
    have hl : ((a :: l).reverse ++ s :: r).length = l.length + 1 + (r.length + 1) := by simp; omega
    rw [hl, List.length_cons, show l.length + 1 + (l.length + 1 + (r.length + 1)) - 1 = l.length + (l.length + 1 + (r.length + 1)) by omega,
      Nat.add_mod_right]
    exact Nat.mod_eq_of_lt (by omega)
  simp only [zconf, Option.bind_some, h, moveHead, if_true, Option.map_some, zset, e, zleft]
  simp

theorem tmSteps_add (δ : Q → S → Option (Q × S × Int)) : ∀ (j k : Nat) (c : Conf Q S), tmSteps δ (j + k) c = (tmSteps δ j c).bind (tmSteps δ k)
  | 0, k, c => by rw [Nat.zero_add]; rfl
  | j + 1, k, c => by
    rw [show j + 1 + k = (j + k) + 1 by omega]
    unfold tmSteps
    cases tmStep δ c with
    | none => rfl
    | some d => exact tmSteps_add δ j k d

/-- `k` steps lead from `c` to `d`. -/
def Leads (δ : Q → S → Option (Q × S × Int)) (k : Nat) (c d : Conf Q S) : Prop := tmSteps δ k c = some d

theorem Leads.trans {δ : Q → S → Option (Q × S × Int)} {j k : Nat} {c d e : Conf Q S} (h : Leads δ j c d) (h' : Leads δ k d e) :
    Leads δ (j + k) c e := by
  unfold Leads at *
  rw [tmSteps_add, h]
  exact h'

theorem Leads.refl (δ : Q → S → Option (Q × S × Int)) (c : Conf Q S) : Leads δ 0 c c := rfl

theorem Leads.one {δ : Q → S → Option (Q × S × Int)} {c d : Conf Q S} (h : tmStep δ c = some d) : Leads δ 1 c d := by
  unfold Leads tmSteps
  rw [h]; rfl

theorem Leads.cast {δ : Q → S → Option (Q × S × Int)} {j k : Nat} {c d : Conf Q S} (h : Leads δ j c d) (e : j = k) : Leads δ k c d := e ▸ h

/-- A machine that skips the symbols of `u` to the right. -/
theorem skip_right {δ : Q → S → Option (Q × S × Int)} {q : Q} : ∀ (u l : List S) {r : List S}, r ≠ [] → (∀ s ∈ u, δ q s = some (q, s, 2)) →
    Leads δ u.length (zconf q l (u ++ r)) (zconf q (u.reverse ++ l) r)
  | [], l, r, _, _ => Leads.refl δ _
  | s :: u, l, r, hr, h => by
    have h1 := Leads.one (z_right (h s (List.mem_cons_self ..)) l (r := u ++ r) (by simp [hr]))
    have h2 := skip_right u (s :: l) hr (fun x hx => h x (List.mem_cons_of_mem _ hx))
    have := h1.trans h2
    rw [show (s :: u).reverse ++ l = u.reverse ++ s :: l by simp]
    exact this.cast (by simp; omega)

/-- A machine that skips the symbols of `u` to the left. -/
theorem skip_left {δ : Q → S → Option (Q × S × Int)} {q : Q} (b : S) (l : List S) : ∀ (u r : List S), (∀ s ∈ u, δ q s = some (q, s, 0)) →
    Leads δ u.length (zleft q (u ++ b :: l) r) (zleft q (b :: l) (u.reverse ++ r))
  | [], r, _ => Leads.refl δ _
  | s :: u, r, h => by
    have h1 : Leads δ 1 (zleft q (s :: u ++ b :: l) r) (zleft q (u ++ b :: l) (s :: r)) := by
      apply Leads.one
      cases u with
      | nil => exact z_left (h s (List.mem_cons_self ..)) b l r
      | cons a u => exact z_left (h s (List.mem_cons_self ..)) a (u ++ b :: l) r
    have h2 := skip_left b l u (s :: r) (fun x hx => h x (List.mem_cons_of_mem _ hx))
    have := h1.trans h2
    rw [show (s :: u).reverse ++ r = u.reverse ++ s :: r by simp]
    exact this.cast (by simp; omega)

/-- The computation passes through the configurations reached. -/
theorem confRun_leads {δ : Q → S → Option (Q × S × Int)} {k : Nat} : ∀ {c d : Conf Q S}, Leads δ k c d → confRun δ c k = d := by
  have shift : ∀ (k : Nat) (c d : Conf Q S), tmStep δ c = some d → confRun δ c (k + 1) = confRun δ d k := by
    intro k
    induction k with
    | zero => intro c d h; simp [confRun, h]
    | succ k ih => intro c d h; rw [confRun, ih c d h]; rfl
  induction k with
  | zero => intro c d h; exact Option.some.inj h
  | succ k ih =>
    intro c d h
    unfold Leads tmSteps at h
    cases hs : tmStep δ c with
    | none => rw [hs] at h; cases h
    | some e =>
      rw [hs] at h
      rw [shift k c e hs]
      exact ih h

theorem confRun_add (δ : Q → S → Option (Q × S × Int)) (c : Conf Q S) (j : Nat) : ∀ k : Nat, confRun δ c (j + k) = confRun δ (confRun δ c j) k
  | 0 => rfl
  | k + 1 => by
    show confRun δ c ((j + k) + 1) = _
    rw [confRun, confRun_add δ c j k]
    rfl

/-- A machine at rest. -/
theorem confRun_stuck {δ : Q → S → Option (Q × S × Int)} {c : Conf Q S} (h : tmStep δ c = some c) : ∀ k : Nat, confRun δ c k = c
  | 0 => rfl
  | k + 1 => by rw [confRun, confRun_stuck h k, h]; rfl

/-- Machines whose table is complete for the states `Good` and the symbols `Fine` never stop. -/
theorem confRun_total {δ : Q → S → Option (Q × S × Int)} {Good : Q → Prop} {Fine : S → Prop}
    (hδ : ∀ q s, Good q → Fine s → ∃ q' s' d, δ q s = some (q', s', d) ∧ Good q' ∧ Fine s' ∧ (d = 0 ∨ d = 1 ∨ d = 2))
    {c : Conf Q S} (hg : Good c.state) (hf : ∀ s ∈ c.tape, Fine s) (hp : c.pos < c.tape.length) :
    ∀ t : Nat, tmStep δ (confRun δ c t) = some (confRun δ c (t + 1)) ∧ Good (confRun δ c t).state := by
  have key : ∀ c : Conf Q S, Good c.state → (∀ s ∈ c.tape, Fine s) → c.pos < c.tape.length →
      ∃ d, tmStep δ c = some d ∧ Good d.state ∧ (∀ s ∈ d.tape, Fine s) ∧ d.pos < d.tape.length := by
    intro c hg hf hp
    obtain ⟨q', s', d, e, g1, g2, g3⟩ := hδ c.state c.tape[c.pos] hg (hf _ (List.getElem_mem hp))
    have hm : ∃ p, moveHead c.tape.length c.pos d = some p ∧ p < c.tape.length := by
      rcases g3 with rfl | rfl | rfl
      · exact ⟨_, rfl, Nat.mod_lt _ (by omega)⟩
      · exact ⟨_, rfl, hp⟩
      · exact ⟨_, rfl, Nat.mod_lt _ (by omega)⟩
    obtain ⟨p, m1, m2⟩ := hm
    refine ⟨⟨q', p, c.tape.set c.pos s'⟩, ?_, g1, ?_, by simpa using m2⟩
    · unfold tmStep
      rw [List.getElem?_eq_getElem hp]
      simp only [Option.bind_some, e, m1, Option.map_some]
    · intro s hs
      rcases List.mem_or_eq_of_mem_set hs with h | h
      · exact hf s h
      · exact h ▸ g2
  intro t
  have inv : ∀ t : Nat, Good (confRun δ c t).state ∧ (∀ s ∈ (confRun δ c t).tape, Fine s) ∧ (confRun δ c t).pos < (confRun δ c t).tape.length := by
    intro t
    induction t with
    | zero => exact ⟨hg, hf, hp⟩
    | succ t ih =>
      obtain ⟨d, d1, d2⟩ := key _ ih.1 ih.2.1 ih.2.2
      rw [confRun, d1]
      exact d2
  obtain ⟨d, d1, d2⟩ := key _ (inv t).1 (inv t).2.1 (inv t).2.2
  refine ⟨?_, (inv t).1⟩
  rw [confRun, d1]
  rfl

end
end Verif
