import Verif.Proofs.JointRun
import Verif.Proofs.Growth
import Verif.Proofs.Restricted
import Verif.Proofs.NetworkQueries
import Verif.Model.Functional
import Verif.Spec.Functional
/-! # The functional network automaton -/

namespace Verif
open Spec MG
section
variable {L A : Type} [DecidableEq L]

theorem Spec.Within.mono {N : Net L A} {S : L → Prop} {t t' : Nat} {x : L} (h : Within N S t x) (ht : t ≤ t') : Within N S t' x := by
  induction h generalizing t' with
  | start h => exact Within.start h
  | step _ k ih =>
    obtain ⟨s, rfl⟩ : ∃ s, t' = s + 1 := ⟨t' - 1, by omega⟩
    exact Within.step (ih (by omega)) k

theorem within_zero {N : Net L A} {S : L → Prop} {x : L} (h : Within N S 0 x) : S x := by
  cases h with
  | start h => exact h

theorem within_succ {N : Net L A} {S : L → Prop} {t : Nat} {y : L} (h : Within N S (t + 1) y) :
    Within N S t y ∨ ∃ x, Within N S t x ∧ parallel N x y ≠ [] := by
  cases h with
  | start h => exact Or.inl (Within.start h)
  | step h k => exact Or.inr ⟨_, h, k⟩

/-- One edge. -/
theorem functional_step {g : MG L A} (hg : g.Valid) {acts : Dict L Int} {f : L → Int} {e : L × L × Attr A}
    (h1 : acts.get? e.1 = some (f e.1)) (h2 : acts.get? e.2.1 = some (f e.2.1)) :
    functionalStep acts (ofMG g) e = if f e.1 = 1 ∧ f e.2.1 = 1 then
      (if between g.edges e.1 e.2.1 = [] then .error .keyError else .ok (ofMG (MG.removeEdge g e.1 e.2.1))) else .ok (ofMG g) := by
  unfold functionalStep
  rw [Dict.get_eq_ok_iff.2 h1, Dict.get_eq_ok_iff.2 h2]
  simp only
  by_cases c : f e.1 = 1 ∧ f e.2.1 = 1
  · rw [if_pos c, if_pos c, removeEdge_ofMG hg]
    split
    · rename_i h
      split at h
      · cases h; rw [if_pos (by assumption)]
      · cases h
    · rename_i h
      split at h
      · cases h
      · cases h; rw [if_neg (by assumption)]
  · rw [if_neg c, if_neg c]

theorem functional_cut {acts : Dict L Int} {f : L → Int} : ∀ (E : List (L × L × Attr A)) {g : MG L A}, g.Valid →
    (E.map (fun e => (e.1, e.2.1))).Nodup → (∀ e ∈ E, between g.edges e.1 e.2.1 ≠ []) →
    (∀ e ∈ E, acts.get? e.1 = some (f e.1) ∧ acts.get? e.2.1 = some (f e.2.1)) →
    ∃ g', E.foldlM (functionalStep acts) (ofMG g) = .ok (ofMG g') ∧ g'.Valid ∧ g'.nodes = g.nodes ∧ g'.rot = g.rot ∧
      ∀ i j, between g'.edges i j = if (i, j) ∈ E.map (fun e => (e.1, e.2.1)) ∧ f i = 1 ∧ f j = 1 then [] else between g.edges i j := by
  intro E
  induction E with
  | nil =>
    intro g hg _ _ _
    exact ⟨g, rfl, hg, rfl, rfl, by simp⟩
  | cons e E ih =>
    intro g hg hnd hne hact
    rw [List.map_cons, List.nodup_cons] at hnd
    obtain ⟨a1, a2⟩ := hact e (by simp)
    rw [List.foldlM_cons, functional_step hg a1 a2]
    by_cases c : f e.1 = 1 ∧ f e.2.1 = 1
    · rw [if_pos c, if_neg (hne e (by simp))]
      obtain ⟨g', k1, k2, k3, k4, k5⟩ := ih (valid_removeEdge hg e.1 e.2.1) hnd.2 (by
        intro e' he'
        rw [between_removeEdge, if_neg]
        · exact hne e' (by simp [he'])
        · rintro ⟨q1, q2⟩
          apply hnd.1
          rw [q1, q2]
          exact List.mem_map_of_mem (f := fun e : L × L × Attr A => (e.1, e.2.1)) he') (fun e' he' => hact e' (by simp [he']))
      refine ⟨g', k1, k2, k3, k4, ?_⟩
      intro i j
      rw [k5, between_removeEdge]
      simp only [List.map_cons, List.mem_cons]
      by_cases q : e.1 = i ∧ e.2.1 = j
      · obtain ⟨rfl, rfl⟩ := q
        simp [c.1, c.2]
      · rw [if_neg q]
        have : ¬ (i, j) = (e.1, e.2.1) := by
          intro h
          rw [Prod.mk.injEq] at h
          exact q ⟨h.1.symm, h.2.symm⟩
        simp only [this, false_or]
    · rw [if_neg c]
      obtain ⟨g', k1, k2, k3, k4, k5⟩ := ih hg hnd.2 (fun e' he' => hne e' (by simp [he'])) (fun e' he' => hact e' (by simp [he']))
      refine ⟨g', k1, k2, k3, k4, ?_⟩
      intro i j
      rw [k5]
      simp only [List.map_cons, List.mem_cons]
      by_cases q : (i, j) = (e.1, e.2.1)
      · rw [Prod.mk.injEq] at q
        obtain ⟨rfl, rfl⟩ := q
        rw [if_neg (fun h => c h.2), if_neg (fun h => c h.2)]
      · simp only [q, false_or]

/-- An edge that does not exist any more. -/
theorem functional_missing {acts : Dict L Int} {f : L → Int} : ∀ (E : List (L × L × Attr A)) {g : MG L A}, g.Valid →
    (∀ e ∈ E, acts.get? e.1 = some (f e.1) ∧ acts.get? e.2.1 = some (f e.2.1)) →
    (∃ e ∈ E, f e.1 = 1 ∧ f e.2.1 = 1 ∧ between g.edges e.1 e.2.1 = []) → E.foldlM (functionalStep acts) (ofMG g) = .error .keyError := by
  intro E
  induction E with
  | nil => rintro g _ _ ⟨e, he, _⟩; cases he
  | cons e E ih =>
    rintro g hg hact ⟨e', he', q1, q2, q3⟩
    obtain ⟨a1, a2⟩ := hact e (by simp)
    rw [List.foldlM_cons, functional_step hg a1 a2]
    have hact' : ∀ e ∈ E, acts.get? e.1 = some (f e.1) ∧ acts.get? e.2.1 = some (f e.2.1) := fun e he => hact e (by simp [he])
    by_cases c : f e.1 = 1 ∧ f e.2.1 = 1
    · rw [if_pos c]
      by_cases b : between g.edges e.1 e.2.1 = []
      · rw [if_pos b]; rfl
      · rw [if_neg b]
        rcases List.mem_cons.1 he' with rfl | he'
        · exact absurd q3 b
        · refine ih (valid_removeEdge hg e.1 e.2.1) hact' ⟨e', he', q1, q2, ?_⟩
          rw [between_removeEdge]
          split
          · rfl
          · exact q3
    · rw [if_neg c]
      rcases List.mem_cons.1 he' with rfl | he'
      · exact absurd ⟨q1, q2⟩ c
      · exact ih hg hact' ⟨e', he', q1, q2, q3⟩

/-- An edge that is visited twice. -/
theorem functional_twice {acts : Dict L Int} {f : L → Int} {i j : L} (hi : f i = 1) (hj : f j = 1) :
    ∀ (E : List (L × L × Attr A)) {g : MG L A}, g.Valid →
    (∀ e ∈ E, acts.get? e.1 = some (f e.1) ∧ acts.get? e.2.1 = some (f e.2.1)) →
    2 ≤ E.countP (fun e => decide (e.1 = i ∧ e.2.1 = j)) → E.foldlM (functionalStep acts) (ofMG g) = .error .keyError := by
  intro E
  induction E with
  | nil => intro g _ _ h; simp at h
  | cons e E ih =>
    intro g hg hact hc
    obtain ⟨a1, a2⟩ := hact e (by simp)
    have hact' : ∀ e ∈ E, acts.get? e.1 = some (f e.1) ∧ acts.get? e.2.1 = some (f e.2.1) := fun e he => hact e (by simp [he])
    rw [List.foldlM_cons, functional_step hg a1 a2]
    by_cases q : e.1 = i ∧ e.2.1 = j
    · obtain ⟨rfl, rfl⟩ := q
      rw [if_pos ⟨hi, hj⟩]
      by_cases b : between g.edges e.1 e.2.1 = []
      · rw [if_pos b]; rfl
      · rw [if_neg b]
        refine functional_missing E (valid_removeEdge hg e.1 e.2.1) hact' ?_
        rw [List.countP_cons_of_pos (by simp)] at hc
        obtain ⟨e', he', hp⟩ := List.countP_pos_iff.1 (show 0 < E.countP (fun e' => decide (e'.1 = e.1 ∧ e'.2.1 = e.2.1)) by omega)
        rw [decide_eq_true_eq] at hp
        refine ⟨e', he', by rw [hp.1]; exact hi, by rw [hp.2]; exact hj, ?_⟩
        rw [between_removeEdge, if_pos ⟨hp.1.symm, hp.2.symm⟩]
    · rw [List.countP_cons_of_neg (by simp only [decide_eq_true_eq]; exact q)] at hc
      by_cases c : f e.1 = 1 ∧ f e.2.1 = 1
      · rw [if_pos c]
        by_cases b : between g.edges e.1 e.2.1 = []
        · rw [if_pos b]; rfl
        · rw [if_neg b]
          exact ih (valid_removeEdge hg e.1 e.2.1) hact' hc
      · rw [if_neg c]
        exact ih hg hact' hc

/-- The edges as they are listed. -/
theorem mem_edges_ofMG {g : MG L A} {i j : L} (hg : g.Valid) : (i, j) ∈ ((ofMG g).edges).map (fun e => (e.1, e.2.1)) ↔ between g.edges i j ≠ [] := by
  rw [((edges_perm hg).map _).mem_iff, List.map_map, ne_eq, between_eq_nil_iff, Classical.not_not, mem_sources]
  simp only [List.mem_map, Function.comp, Prod.mk.injEq]

theorem count_edges_ofMG {g : MG L A} (i j : L) (hg : g.Valid) :
    ((ofMG g).edges).countP (fun e => decide (e.1 = i ∧ e.2.1 = j)) = (between g.edges i j).length := by
  rw [(edges_perm hg).countP_eq, List.countP_map]
  unfold between
  rw [List.length_map, List.countP_eq_length_filter]
  congr 1
  apply List.filter_congr
  intro e _
  simp [Bool.decide_and]

attribute [-instance] instBEqProd in
theorem nodup_edges_ofMG {g : MG L A} (hg : g.Valid) (h : ∀ i j, (between g.edges i j).length ≤ 1) :
    (((ofMG g).edges).map (fun e => (e.1, e.2.1))).Nodup := by
  rw [List.nodup_iff_count]
  rintro ⟨i, j⟩
  have := h i j
  rw [← count_edges_ofMG i j hg] at this
  rw [List.count, List.countP_map]
  refine Nat.le_trans (Nat.le_of_eq ?_) this
  apply List.countP_congr
  intro e _
  simp [Function.comp]

theorem within_prop (P : Prop) : ∃ v : Int, (P → v = 1) ∧ (¬ P → v = 0) := by
  by_cases h : P
  · exact ⟨1, fun _ => rfl, fun k => absurd h k⟩
  · exact ⟨0, fun k => absurd k h, fun _ => rfl⟩

/-- What the activity rule computes. -/
theorem functional_value {N : Net L A} {S : L → Prop} {t : Nat} {g : MG L A} {f : L → Int} {x : L}
    (hf : ∀ y, y = x ∨ y ∈ sources g.edges x → (Within N S t y → f y = 1) ∧ (¬ Within N S t y → f y = 0))
    (hk : ∀ y, ¬ Within N S t x → (y ∈ sources g.edges x ↔ parallel N y x ≠ []))
    (hs : ∀ y ∈ sources g.edges x, parallel N y x ≠ []) :
    (Within N S (t + 1) x → (if ((sources g.edges x).map f).sum > 0 then 1 else f x) = 1) ∧
      (¬ Within N S (t + 1) x → (if ((sources g.edges x).map f).sum > 0 then 1 else f x) = 0) := by
  have hpos : ∀ l : List L, (∀ y ∈ l, y ∈ sources g.edges x) →
      0 ≤ (l.map f).sum ∧ ((∃ y ∈ l, Within N S t y) ↔ (l.map f).sum > 0) := by
    intro l
    induction l with
    | nil => intro _; simp
    | cons y l ih =>
      intro hl
      obtain ⟨k1, k2⟩ := ih (fun z hz => hl z (by simp [hz]))
      obtain ⟨k3, k4⟩ := hf y (Or.inr (hl y (by simp)))
      simp only [List.map_cons, List.sum_cons, List.mem_cons]
      by_cases c : Within N S t y
      · have := k3 c
        refine ⟨by omega, fun _ => by omega, fun _ => ⟨y, Or.inl rfl, c⟩⟩
      · have := k4 c
        refine ⟨by omega, ?_, ?_⟩
        · rintro ⟨z, rfl | hz, hw⟩
          · exact absurd hw c
          · have := k2.1 ⟨z, hz, hw⟩
            omega
        · intro h
          obtain ⟨z, hz, hw⟩ := k2.2 (by omega)
          exact ⟨z, Or.inr hz, hw⟩
  obtain ⟨_, hiff⟩ := hpos (sources g.edges x) (fun y hy => hy)
  obtain ⟨f1, f2⟩ := hf x (Or.inl rfl)
  constructor
  · intro hw
    by_cases c : Within N S t x
    · rw [f1 c]; split <;> rfl
    · rcases within_succ hw with k | ⟨y, k1, k2⟩
      · exact absurd k c
      · rw [if_pos (hiff.1 ⟨y, (hk y c).2 k2, k1⟩)]
  · intro hw
    rw [if_neg]
    · exact f2 (fun c => hw (c.mono (by omega)))
    · intro hp
      obtain ⟨y, hy, k⟩ := hiff.2 hp
      exact hw (Within.step k (hs y hy))

end
end Verif
