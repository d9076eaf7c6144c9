import Verif.Proofs.InvRun
import Verif.Spec.Swarm
/-! # Proofs: particle swarms -/

namespace Verif
open Spec MG

/-- Induction from the end of a list. -/
theorem list_snoc_ind {α : Type} {P : List α → Prop} (h0 : P []) (h1 : ∀ l x, P l → P (l ++ [x])) (l : List α) : P l := by
  rw [← List.reverse_reverse l]
  induction l.reverse with
  | nil => exact h0
  | cons x m ih => rw [List.reverse_cons]; exact h1 _ x ih

section
variable {L V σ : Type} [DecidableEq L]

omit [DecidableEq L] in
theorem seqRun_append (step : L → σ → V × σ) : ∀ (l m : List L) (u : σ),
    seqRun step (l ++ m) u = ((seqRun step l u).1 ++ (seqRun step m (seqRun step l u).2).1, (seqRun step m (seqRun step l u).2).2)
  | [], m, u => by simp [seqRun]
  | x :: l, m, u => by simp only [List.cons_append, seqRun, seqRun_append step l m]

/-- The value of a node is computed with the state left by the nodes before it. -/
theorem get?_seqRun (step : L → σ → V × σ) {l done rest : List L} {x : L} (hl : l = done ++ x :: rest) (hn : l.Nodup) (u : σ) :
    (seqRun step l u).1.get? x = some (step x (seqRun step done u).2).1 := by
  subst hl
  refine Dict.get?_of_mem (by have := keys_seqRun step (done ++ x :: rest) u; unfold Dict.keys at this ⊢; rw [this]; exact hn) ?_
  rw [seqRun_append]
  simp [seqRun]

end

/-! ## One move -/

theorem component_zipWith {g : Rat → Rat → Rat} {a b : List Rat} {n c : Nat} (ha : a.length = n) (hb : b.length = n) (hc : c < n) :
    component (List.zipWith g a b) c = g (component a c) (component b c) := by
  unfold component
  simp [List.getD_eq_getElem?_getD, List.getElem?_zipWith, List.getElem?_eq_getElem (show c < a.length by omega),
    List.getElem?_eq_getElem (show c < b.length by omega)]

theorem component_map {g : Rat → Rat} {a : List Rat} {n c : Nat} (ha : a.length = n) (hc : c < n) : component (a.map g) c = g (component a c) := by
  unfold component
  simp [List.getD_eq_getElem?_getD, List.getElem?_eq_getElem (show c < a.length by omega)]

/-- The particle after its move. -/
def moved (f : List Rat → Rat) (k : Coeffs) (r : List Rat × List Rat) (a : Particle) (g : List Rat) : Particle :=
  ⟨vadd a.x (psoVelocity k r.1 r.2 a g), if f (vadd a.x (psoVelocity k r.1 r.2 a g)) < f a.p then vadd a.x (psoVelocity k r.1 r.2 a g) else a.p,
    psoVelocity k r.1 r.2 a g⟩

/-- The best known position after the move of a particle. -/
def movedBest (f : List Rat → Rat) (k : Coeffs) (r : List Rat × List Rat) (a : Particle) (g : List Rat) : List Rat :=
  if f (moved f k r a g).x < f a.p ∧ f (moved f k r a g).x < f g then (moved f k r a g).x else g

theorem moves_moved {f : List Rat → Rat} {k : Coeffs} {r : List Rat × List Rat} {a : Particle} {g : List Rat} {dim : Nat} (ha : Particle.Dim dim a)
    (hg : g.length = dim) (h1 : r.1.length = dim) (h2 : r.2.length = dim) :
    Moves dim k.inertia k.cognitive k.social r.1 r.2 g a (moved f k r a g) := by
  obtain ⟨a1, a2, a3⟩ := ha
  have hv : (psoVelocity k r.1 r.2 a g).length = dim := by
    unfold psoVelocity vadd vmul vsub
    simp only [List.length_zipWith, List.length_map, a1, a2, a3, hg, h1, h2, Nat.min_self]
  have hx : (vadd a.x (psoVelocity k r.1 r.2 a g)).length = dim := by
    unfold vadd
    rw [List.length_zipWith, hv, a1, Nat.min_self]
  refine ⟨⟨hx, ?_, hv⟩, ?_, ?_⟩
  · unfold moved
    simp only
    split
    · exact hx
    · exact a2
  · intro c hc
    show component (psoVelocity k r.1 r.2 a g) c = _
    have e1 : (vsub a.p a.x).length = dim := by unfold vsub; rw [List.length_zipWith, a1, a2, Nat.min_self]
    have e2 : (vsub g a.x).length = dim := by unfold vsub; rw [List.length_zipWith, a1, hg, Nat.min_self]
    have e3 : (vmul r.1 (vsub a.p a.x)).length = dim := by unfold vmul; rw [List.length_zipWith, h1, e1, Nat.min_self]
    have e4 : (vmul r.2 (vsub g a.x)).length = dim := by unfold vmul; rw [List.length_zipWith, h2, e2, Nat.min_self]
    unfold psoVelocity vadd
    rw [component_zipWith (n := dim) (by simp [List.length_zipWith, a3, e3]) (by simp [e4]) hc,
      component_zipWith (n := dim) (by simp [a3]) (by simp [e3]) hc, component_map a3 hc, component_map e3 hc, component_map e4 hc]
    unfold vmul
    rw [component_zipWith h1 e1 hc, component_zipWith h2 e2 hc]
    unfold vsub
    rw [component_zipWith a2 a1 hc, component_zipWith hg a1 hc]
    grind
  · intro c hc
    show component (vadd a.x (psoVelocity k r.1 r.2 a g)) c = _ + component (psoVelocity k r.1 r.2 a g) c
    unfold vadd
    rw [component_zipWith a1 hv hc]

theorem moved_p {f : List Rat → Rat} {k : Coeffs} {r : List Rat × List Rat} {a : Particle} {g : List Rat} :
    ((moved f k r a g).p = a.p ∧ ¬ f (moved f k r a g).x < f a.p) ∨ ((moved f k r a g).p = (moved f k r a g).x ∧ f (moved f k r a g).x < f a.p) := by
  by_cases h : f (moved f k r a g).x < f a.p
  · right
    refine ⟨?_, h⟩
    unfold moved at h ⊢
    simp only at h ⊢
    rw [if_pos h]
  · left
    refine ⟨?_, h⟩
    unfold moved at h ⊢
    simp only at h ⊢
    rw [if_neg h]

theorem moved_le {f : List Rat → Rat} {k : Coeffs} {r : List Rat × List Rat} {a : Particle} {g : List Rat} :
    f (moved f k r a g).p ≤ f a.p ∧ f (moved f k r a g).p ≤ f (moved f k r a g).x := by
  rcases moved_p (f := f) (k := k) (r := r) (a := a) (g := g) with ⟨h1, h2⟩ | ⟨h1, h2⟩
  · rw [h1]; exact ⟨Rat.le_refl, by grind⟩
  · rw [h1]; exact ⟨by grind, Rat.le_refl⟩

/-! ## One timestep of the global version -/

section
variable {L : Type} [DecidableEq L]

/-- The step of node `x` at timestep `t`. -/
def psoStep (f : List Rat → Rat) (k : Coeffs) (r : L → List Rat × List Rat) (cur : L → Particle) (x : L) (u : Option (List Rat)) : Particle × Option (List Rat) :=
  (moved f k (r x) (cur x) (u.getD []), some (movedBest f k (r x) (cur x) (u.getD [])))

omit [DecidableEq L] in
/-- The best known position after the nodes `done`. -/
theorem psoPrefix {f : List Rat → Rat} {k : Coeffs} {r : L → List Rat × List Rat} {cur : L → Particle} {dim : Nat} {g : List Rat} (hg : g.length = dim)
    {l : List L} (hr : ∀ x ∈ l, (r x).1.length = dim ∧ (r x).2.length = dim) (hc : ∀ x ∈ l, Particle.Dim dim (cur x)) (hle : ∀ x ∈ l, f g ≤ f (cur x).p)
    (done : List L) : (∀ x ∈ done, x ∈ l) →
    ∃ g', (seqRun (psoStep f k r cur) done (some g)).2 = some g' ∧ g'.length = dim ∧ f g' ≤ f g ∧
      (g' = g ∨ ∃ d y e, done = d ++ y :: e ∧ g' = (psoStep f k r cur y (seqRun (psoStep f k r cur) d (some g)).2).1.p) ∧
      ∀ d y e, done = d ++ y :: e → f g' ≤ f (psoStep f k r cur y (seqRun (psoStep f k r cur) d (some g)).2).1.p := by
  induction done using list_snoc_ind with
  | h0 => intro _; exact ⟨g, rfl, hg, Rat.le_refl, Or.inl rfl, fun d y e h => by simp at h⟩
  | h1 done x ih =>
    intro hl
    obtain ⟨g1, i1, i2, i3, i4, i5⟩ := ih (fun y hy => hl y (by simp [hy]))
    have hx : x ∈ l := hl x (by simp)
    have hst : (seqRun (psoStep f k r cur) (done ++ [x]) (some g)).2 = some (movedBest f k (r x) (cur x) g1) := by
      rw [seqRun_append, i1]
      simp [seqRun, psoStep]
    have hval : (psoStep f k r cur x (seqRun (psoStep f k r cur) done (some g)).2).1 = moved f k (r x) (cur x) g1 := by
      rw [i1]; rfl
    have hm := moves_moved (f := f) (k := k) (hc x hx) i2 (hr x hx).1 (hr x hx).2
    refine ⟨_, hst, ?_⟩
    unfold movedBest
    have hsplit : ∀ d y e, done ++ [x] = d ++ y :: e → (d = done ∧ y = x ∧ e = []) ∨ ∃ e', done = d ++ y :: e' := by
      intro d y e h
      rcases List.eq_nil_or_concat e with rfl | ⟨e', z, rfl⟩
      · have := List.append_inj' h rfl
        exact Or.inl ⟨this.1.symm, by simpa using this.2.symm, rfl⟩
      · right
        refine ⟨e', ?_⟩
        have : done ++ [x] = (d ++ y :: e') ++ [z] := by rw [h]; simp
        exact (List.append_inj' this rfl).1
    by_cases hb : f (moved f k (r x) (cur x) g1).x < f (cur x).p ∧ f (moved f k (r x) (cur x) g1).x < f g1
    · rw [if_pos hb]
      have hp : (moved f k (r x) (cur x) g1).p = (moved f k (r x) (cur x) g1).x := by
        rcases moved_p (f := f) (k := k) (r := r x) (a := cur x) (g := g1) with ⟨_, h2⟩ | ⟨h1, _⟩
        · exact absurd hb.1 h2
        · exact h1
      refine ⟨hm.dims.1, by grind, Or.inr ⟨done, x, [], rfl, by rw [hval, hp]⟩, ?_⟩
      intro d y e h
      rcases hsplit d y e h with ⟨rfl, rfl, rfl⟩ | ⟨e', h'⟩
      · rw [hval, hp]; exact Rat.le_refl
      · have := i5 d y e' h'
        grind
    · rw [if_neg hb]
      refine ⟨i2, i3, ?_, ?_⟩
      · rcases i4 with h | ⟨d, y, e, h1, h2⟩
        · exact Or.inl h
        · exact Or.inr ⟨d, y, e ++ [x], by rw [h1]; simp, h2⟩
      · intro d y e h
        rcases hsplit d y e h with ⟨rfl, rfl, rfl⟩ | ⟨e', h'⟩
        · rw [hval]
          have := hle y hx
          rcases moved_p (f := f) (k := k) (r := r y) (a := cur y) (g := g1) with ⟨h1, _⟩ | ⟨h1, h2⟩
          · rw [h1]; grind
          · rw [h1]; grind
        · exact i5 d y e' h'

end

/-! ## The best of a list -/

theorem bestSolution_spec (f : List Rat → Rat) {l : List Particle} (hl : l ≠ []) :
    ∃ g, bestSolution f l = some g ∧ (∃ a ∈ l, g = a.p) ∧ ∀ a ∈ l, f g ≤ f a.p := by
  have key : ∀ (l : List Particle) (g0 : List Rat), ∃ g, l.foldl (fun g a => match g with
      | none => some a.p
      | some g => if f a.p < f g then some a.p else some g) (some g0) = some g ∧ (g = g0 ∨ ∃ a ∈ l, g = a.p) ∧ f g ≤ f g0 ∧ ∀ a ∈ l, f g ≤ f a.p := by
    intro l
    induction l with
    | nil => intro g0; exact ⟨g0, rfl, Or.inl rfl, Rat.le_refl, by simp⟩
    | cons a l ih =>
      intro g0
      simp only [List.foldl_cons]
      by_cases h : f a.p < f g0
      · rw [if_pos h]
        obtain ⟨g, h1, h2, h3, h4⟩ := ih a.p
        refine ⟨g, h1, Or.inr ?_, by grind, ?_⟩
        · rcases h2 with rfl | ⟨b, hb, rfl⟩
          · exact ⟨a, by simp, rfl⟩
          · exact ⟨b, by simp [hb], rfl⟩
        · intro b hb
          rcases List.mem_cons.1 hb with rfl | hb
          · exact h3
          · exact h4 b hb
      · rw [if_neg h]
        obtain ⟨g, h1, h2, h3, h4⟩ := ih g0
        refine ⟨g, h1, ?_, h3, ?_⟩
        · rcases h2 with rfl | ⟨b, hb, rfl⟩
          · exact Or.inl rfl
          · exact Or.inr ⟨b, by simp [hb], rfl⟩
        · intro b hb
          rcases List.mem_cons.1 hb with rfl | hb
          · grind
          · exact h4 b hb
  cases l with
  | nil => exact absurd rfl hl
  | cons a l =>
    obtain ⟨g, h1, h2, h3, h4⟩ := key l a.p
    refine ⟨g, h1, ?_, ?_⟩
    · rcases h2 with rfl | ⟨b, hb, rfl⟩
      · exact ⟨a, by simp, rfl⟩
      · exact ⟨b, by simp [hb], rfl⟩
    · intro b hb
      rcases List.mem_cons.1 hb with rfl | hb
      · exact h3
      · exact h4 b hb

end Verif
