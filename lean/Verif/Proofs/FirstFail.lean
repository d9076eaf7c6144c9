import Verif.Proofs.CARun
/-! # Runs whose rule raises at the first node -/

namespace Verif
section
variable {L A V I σ κ : Type} [DecidableEq L] [DecidableEq V] [DecidableEq κ]

/-- A stateless rule that raises at the first node of the first timestep: the call raises, with or without memoization. -/
theorem first_fail {cfg : Config L A V I σ κ} {G : NodeCtx L A V I → Except Err V} {T : Nat} (h : cfg.Ordinary G T) (hT : 2 ≤ T)
    {n : Net L A} (hn : n.labels.Nodup) {nb : L → List L} (hnb : ∀ x ∈ n.labels, specNbrs n x = some (nb x) ∧ ∀ y ∈ nb x, y ∈ n.labels)
    {init : Option (Conds L V)} {f : Nat → L → V} (hlen : (initDict cfg init).length = n.size)
    (h0 : ∀ x ∈ n.labels, (initDict cfg init).get? x = some (f 0 x)) {x : L} {rest : List L} (hl : n.labels = x :: rest) {e : Err}
    (hG : G (plainCtx cfg n nb (initDict cfg init) f 0 x) = .error e) {r : Nat} {w : World L A σ} (hr : w.heap[r]? = some n)
    {fuel : Nat} (hfu : 1 ≤ fuel) : evolve fuel cfg init r w = .error e := by
  have hpk : cfg.PackOk := by intro hc; rw [h.compression] at hc; cases hc
  refine evolve_fail (T := 1) h.rule h.pert h.top hpk hn hnb hlen h0 (inp := fun _ => .timestep) (nin := fun _ _ => none)
    (Pre := fun _ m _ => m = []) (Mid := fun _ _ m _ => m = []) ⟨?_, ?_, ?_, ?_⟩ (Nat.le_refl _) (by rw [h.input]; simp) hr rfl ?_ ?_ (done := []) hl ?_ ?_ hfu
  · intro t m u ht; omega
  · intro t ht; omega
  · intro t; omega
  · intro t m u ht; omega
  · intro m u hm
    refine ⟨u, ?_, hm⟩
    rw [h.input]
    simp only [callInput]
    rw [if_neg (by omega)]
  · intro y _
    exact rfl
  · intro d1 y d2 m u hd
    simp at hd
  · intro m u hm
    subst hm
    have : G (runCtx cfg n nb (initDict cfg init) f (fun _ _ => none) (1 - 1) x) = .error e := hG
    unfold applyRule
    simp only [pureRule, this]
    split <;> simp [Memo.find]
end
end Verif
