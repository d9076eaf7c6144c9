import Verif.Model.Machines
import Verif.Spec.Machines
import Verif.Proofs.CARun
/-! # Runs of a machine on a single node -/

namespace Verif

theorem singleNode_spec : singleNode.labels = [0] ∧ singleNode.rotation = none ∧ singleNode.size = 1 ∧
    specNbrs singleNode 0 = some [0] := by decide

section
variable {V I σ κ : Type} [DecidableEq V] [DecidableEq κ]

omit [DecidableEq V] [DecidableEq κ] in
theorem MachineCall.packOk {cfg : Config Nat Int V I σ κ} {rule src} (h : MachineCall cfg rule src) : cfg.PackOk := by
  intro hc; rw [h.compression] at hc; cases hc

/-- The rule performs the transition `delta` of a machine on the input symbol. -/
def Performs (rule : NodeCtx Nat Int V I → σ → Except Err (RuleOut Nat Int V × σ)) (delta : V × σ → I → Except Err (V × σ)) :
    Prop :=
  ∀ ctx u i, ctx.input = some i → rule ctx u = match delta (ctx.current, u) i with
    | .error e => .error e
    | .ok (q, u') => .ok (⟨q, [], []⟩, u')

omit [DecidableEq V] [DecidableEq κ] in
theorem machine_init {cfg : Config Nat Int V I σ κ} {rule src} (h : MachineCall cfg rule src) (q : V) :
    (initDict cfg (some (.list [q]))).length = 1 ∧ (initDict cfg (some (.list [q]))).get? 0 = some q := by
  obtain ⟨i1, _, i2⟩ := initDict_list h.labels [q]
  exact ⟨i1, i2 0 (by simp)⟩

/-- Explicit configurations `c 0, ..., c (T - 1)` of a machine on the symbols `items`. -/
theorem machine_steps {cfg : Config Nat Int V I σ κ} {rule} {items : List I} {wrap : I → Inp I}
    (hwrap : ∀ i, wrap i = .seq [some i] ∨ wrap i = .scalar i)
    (h : MachineCall cfg rule (.list (items.map (fun i => some (wrap i))))) {delta : V × σ → I → Except Err (V × σ)}
    (hd : Performs rule delta) {c : Nat → V × σ} {T : Nat} (hT : T ≤ items.length + 1)
    (hc : ∀ t i, t + 1 < T → items[t]? = some i → delta (c t) i = .ok (c (t + 1))) (d : Dict Nat V) :
    RunSteps cfg (effectiveKey cfg singleNode) rule singleNode (fun _ => [0]) d (fun t _ => (c t).1)
      (fun t => ((items[t]?).map wrap).getD .timestep) (fun t _ => items[t]?)
      (fun t _ u => u = (c t).2) (fun t done _ u => u = (c (if done = [] then t else t + 1)).2) T := by
  obtain ⟨hl, _, _, _⟩ := singleNode_spec
  refine ⟨?_, ?_, ?_, ?_⟩
  · intro t m u ht hu
    have htl : t < items.length := by omega
    refine ⟨u, ?_, by simpa using hu⟩
    rw [h.input]
    simp [callInput, List.getElem?_map, List.getElem?_eq_getElem htl]
  · intro t x ht hx
    have htl : t < items.length := by omega
    rw [hl] at hx
    simp only [List.mem_singleton] at hx
    subst hx
    simp only [List.getElem?_eq_getElem htl, Option.map_some, Option.getD_some]
    rcases hwrap items[t] with hw | hw <;> rw [hw]
    · exact ⟨0, h.index 0, rfl⟩
    · rfl
  · intro t done x rest m u ht hlab hm
    have htl : t < items.length := by omega
    rw [hl] at hlab
    have hdone : done = [] := by
      cases done with
      | nil => rfl
      | cons a l => simp at hlab
    subst hdone
    simp only [if_true] at hm
    refine ⟨m, (c (t + 1)).2, ?_, by simp⟩
    unfold applyRule
    rw [h.memo]
    simp only [Bool.false_eq_true, if_false]
    rw [hd _ _ items[t] (by simp [runCtx, List.getElem?_eq_getElem htl])]
    have : (runCtx cfg singleNode (fun _ => [0]) d (fun t _ => (c t).1) (fun t _ => items[t]?) t x).current = (c t).1 := rfl
    rw [this, hm, show ((c t).1, (c t).2) = c t from rfl, hc t items[t] ht (List.getElem?_eq_getElem htl)]
  · intro t m u ht hm
    rw [hl] at hm
    simpa using hm

/-- The prefixes of a fold that succeeds. -/
theorem foldlM_prefix {α β : Type} {f : β → α → Except Err β} (l : List α) (b : β) :
    ∃ (k : Nat) (c : Nat → β), k ≤ l.length ∧ c 0 = b ∧ (∀ t, t ≤ k → (l.take t).foldlM f b = .ok (c t)) ∧
      (∀ t i, t < k → l[t]? = some i → f (c t) i = .ok (c (t + 1))) ∧
      (k = l.length ∨ ∃ i e, l[k]? = some i ∧ f (c k) i = .error e ∧ l.foldlM f b = .error e) := by
  induction l generalizing b with
  | nil => exact ⟨0, fun _ => b, by simp, rfl, by intro t ht; simp; rfl, by simp, Or.inl rfl⟩
  | cons a l ih =>
    cases hf : f b a with
    | error e =>
      refine ⟨0, fun _ => b, by simp, rfl, by intro t ht; have : t = 0 := by omega
                                              subst this; rfl, by simp, Or.inr ⟨a, e, by simp, hf, ?_⟩⟩
      simp [List.foldlM, bind, Except.bind, hf]
    | ok b' =>
      obtain ⟨k, c, h1, h2, h3, h4, h5⟩ := ih b'
      refine ⟨k + 1, fun t => if t = 0 then b else c (t - 1), by simp; omega, by simp, ?_, ?_, ?_⟩
      · intro t ht
        cases t with
        | zero => rfl
        | succ t =>
          simp only [List.take_succ_cons, List.foldlM, bind, Except.bind, hf]
          simpa using h3 t (by omega)
      · intro t i ht hi
        cases t with
        | zero =>
          simp only [List.getElem?_cons_zero, Option.some.injEq] at hi
          subst hi
          simp [hf, h2]
        | succ t =>
          rw [List.getElem?_cons_succ] at hi
          simpa using h4 t i (by omega) hi
      · rcases h5 with h5 | ⟨i, e, h6, h7, h8⟩
        · exact Or.inl (by simp [h5])
        · refine Or.inr ⟨i, e, by simpa using h6, by simpa using h7, ?_⟩
          simp only [List.foldlM, bind, Except.bind, hf]
          exact h8

/-- **Runs of a machine**: `evolve` performs the transitions of the machine one after the other; it returns if all are
defined, and raises what the first one that is not raises. -/
theorem machine_run {cfg : Config Nat Int V I σ κ} {rule} {items : List I} {wrap : I → Inp I}
    (hwrap : ∀ i, wrap i = .seq [some i] ∨ wrap i = .scalar i)
    (h : MachineCall cfg rule (.list (items.map (fun i => some (wrap i))))) {delta : V × σ → I → Except Err (V × σ)}
    (hd : Performs rule delta) (q : V) {r : Nat} {w : World Nat Int σ} (hr : w.heap[r]? = some singleNode) {fuel : Nat}
    (hfu : items.length < fuel) :
    match items.foldlM delta (q, w.user) with
    | .error e => evolve fuel cfg (some (.list [q])) r w = .error e
    | .ok (_, u') => ∃ res, evolve fuel cfg (some (.list [q])) r w = .ok res ∧ res.world.user = u' ∧
        res.states.length = items.length + 1 ∧
        ∀ t, t ≤ items.length → ∃ d p, res.acts cfg t = some d ∧ d.length = 1 ∧
          (items.take t).foldlM delta (q, w.user) = .ok p ∧ d.get? 0 = some p.1 := by
  obtain ⟨hl, hrot, hsz, hnb⟩ := singleNode_spec
  obtain ⟨i1, i2⟩ := machine_init h q
  obtain ⟨k, c, k1, k2, k3, k4, k5⟩ := foldlM_prefix (f := delta) items (q, w.user)
  have hnb' : ∀ x ∈ singleNode.labels, specNbrs singleNode x = some ((fun _ => [0]) x) ∧
      ∀ y ∈ (fun _ => [0] : Nat → List Nat) x, y ∈ singleNode.labels := by
    intro x hx
    rw [hl] at hx
    simp only [List.mem_singleton] at hx
    subst hx
    exact ⟨hnb, by rw [hl]; simp⟩
  have h0 : ∀ x ∈ singleNode.labels, (initDict cfg (some (.list [q]))).get? x = some ((c 0).1) := by
    intro x hx
    rw [hl] at hx
    simp only [List.mem_singleton] at hx
    subst hx
    rw [i2, k2]
  have hsteps := machine_steps (T := k + 1) hwrap h hd (by omega) (fun t i ht hi => k4 t i (by omega) hi)
    (initDict cfg (some (.list [q])))
  rcases k5 with k5 | ⟨i, e, e1, e2, e3⟩
  · have hk := k3 k (Nat.le_refl _)
    rw [k5, List.take_length] at hk
    rw [hk]
    obtain ⟨res, m, u', ext, g1, _, g3, g4, g5⟩ := evolve_run (T := k + 1) h.rule h.pert h.top h.packOk (by rw [hl]; simp) hnb'
      (init := some (.list [q])) (by rw [i1, hsz]) h0 ⟨hsteps, fun m u hu => ⟨u, by
        rw [h.input]; simp [callInput, k5]⟩⟩ (by omega) (by rw [h.input]; simp) hr (by rw [k2]) (fuel := fuel) (by omega)
    obtain ⟨s1, s2⟩ := shows_plain_of (T := k + 1) (n := 1) h.persist h.compression (by omega)
      (by rw [hl]; exact List.Perm.refl _) i1 (f := fun t _ => (c t).1) (by
        intro x hx
        exact h0 x (by rw [hl]; simpa using hx)) g3
    refine ⟨res, g1, ?_, by rw [s1, k5], ?_⟩
    · rw [h.input] at g5
      simp only [callInput, Except.ok.injEq, Prod.mk.injEq] at g5
      rw [← g5.2, g4, Nat.add_sub_cancel, k5]
    · intro t ht
      obtain ⟨d, d1, d2, d3⟩ := s2 t (by omega)
      exact ⟨d, c t, d1, d2, k3 t (by omega), d3 0 (by omega)⟩
  · rw [e3]
    have hkl : k < items.length := (List.getElem?_eq_some_iff.1 e1).1
    refine evolve_fail (T := k + 1) h.rule h.pert h.top h.packOk (by rw [hl]; simp) hnb'
      (init := some (.list [q])) (by rw [i1, hsz]) h0 hsteps (by omega) (by rw [h.input]; simp) hr (by rw [k2]) ?_ ?_
      (done := []) (x := 0) (rest := []) (by rw [hl]; rfl) ?_ ?_ (by omega)
    · intro m u hu
      refine ⟨u, ?_, by simpa using hu⟩
      rw [h.input]
      simp [callInput, List.getElem?_map, e1]
    · intro x hx
      rw [hl] at hx
      simp only [List.mem_singleton] at hx
      subst hx
      simp only [Nat.add_sub_cancel, e1, Option.map_some, Option.getD_some]
      rcases hwrap i with hw | hw <;> rw [hw]
      · exact ⟨0, h.index 0, rfl⟩
      · rfl
    · intro d1 y d2 m u hh
      simp at hh
    · intro m u hm
      simp only [Nat.add_sub_cancel, if_true] at hm
      unfold applyRule
      rw [h.memo]
      simp only [Bool.false_eq_true, if_false]
      rw [hd _ _ i (by simp [runCtx, e1])]
      have : (runCtx cfg singleNode (fun _ => [0]) (initDict cfg (some (.list [q]))) (fun t _ => (c t).1)
        (fun t _ => items[t]?) (k + 1 - 1) 0).current = (c k).1 := rfl
      rw [this, hm, show ((c k).1, (c k).2) = c k from rfl, e2]

end
end Verif
