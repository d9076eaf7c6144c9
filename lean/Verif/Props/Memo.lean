import Verif.Proofs.Memo
import Verif.Props.Examples
/-! # Properties C17 and C18: memoization -/

namespace Verif
section
variable {L A V I σ κ : Type} [DecidableEq L] [DecidableEq V] [DecidableEq κ]

/-- What the rule `G` may depend on for memoization with the given key (`none`: the default, chosen by whether the
initial network has a rotation system). -/
def MemoSafe (key : Option (KeySpec L A V I κ)) (hasRotation : Bool) (G : NodeCtx L A V I → Except Err V) : Prop :=
  match key, hasRotation with
  | some (.user f), _ => ∀ c c', f c = f c' → G c = G c'
  | some .ordered, _ | none, true => ∀ c c', c.neighbourActs = c'.neighbourActs → G c = G c'
  | some .unordered, _ | none, false => ∀ c c', c.neighbourActs.Perm c'.neighbourActs → G c = G c'

/-- C18.  Two contexts get the same unordered key iff their neighbourhood activities are permutations of each other;
the same ordered key iff they are equal lists. -/
theorem C18_default_keys (c c' : NodeCtx L A V I) :
    (MemoKey.eq (toKey (.unordered : KeySpec L A V I κ) c) (toKey .unordered c') = true ↔
      c.neighbourActs.Perm c'.neighbourActs) ∧
    (MemoKey.eq (toKey (.ordered : KeySpec L A V I κ) c) (toKey .ordered c') = true ↔
      c.neighbourActs = c'.neighbourActs) := by
  constructor
  · exact counts_eq_iff_perm c.neighbourActs c'.neighbourActs
  · simp [toKey, MemoKey.eq]

/-- `[1, 0, 1]` and `[0, 1, 1]` have the same unordered key, `[1, 0, 0]` has another one. -/
example : (MemoKey.eq (.counts (counter [1, 0, 1]) : MemoKey Int Unit) (.counts (counter [0, 1, 1])) = true) ∧
    (MemoKey.eq (.counts (counter [1, 0, 1]) : MemoKey Int Unit) (.counts (counter [1, 0, 0])) = false) := by decide

/-- C17.  For a stateless rule (which may raise) whose result depends on the context only through the memoization key,
`evolve` with `memoize=True` returns the same as with `memoize=False`: the same states, the same objects, the same
exception. -/
theorem C17_memoize_transparent (cfg : Config L A V I σ κ) (G : NodeCtx L A V I → Except Err V) (hG : cfg.PureRule G)
    (init : Option (Conds L V)) (r : Nat) (w : World L A σ) (n : Net L A) (hr : w.heap[r]? = some n)
    (hk : MemoSafe cfg.key n.rotation.isSome G) (fuel : Nat) :
    evolve fuel { cfg with memoize := true } init r w = evolve fuel { cfg with memoize := false } init r w := by
  refine evolve_memo (cfg := { cfg with memoize := true }) rfl hG fuel init r w ?_
  rw [deref_eq hr]
  have hpos := fun c c' : NodeCtx L A V I => (C18_default_keys (κ := κ) c c')
  unfold effectiveKey
  simp only
  cases hkey : cfg.key with
  | none =>
    rw [hkey] at hk
    cases hrot : n.rotation with
    | none =>
      rw [hrot] at hk
      exact fun c c' h => hk c c' ((hpos c c').1.1 h)
    | some rs =>
      rw [hrot] at hk
      exact fun c c' h => hk c c' ((hpos c c').2.1 h)
  | some k =>
    rw [hkey] at hk
    cases k with
    | ordered => exact fun c c' h => hk c c' ((hpos c c').2.1 h)
    | unordered => exact fun c c' h => hk c c' ((hpos c c').1.1 h)
    | user f =>
      intro c c' h
      simp only [toKey, MemoKey.eq, decide_eq_true_eq] at h
      exact hk c c' h

/-- A function of the number of ones in the neighbourhood may be memoized with the default key on a network without rotation system. -/
example (n : Net Nat Int) (hn : n.rotation = none) :
    MemoSafe (none : Option (KeySpec Nat Int Int Int Unit)) n.rotation.isSome (fun c => .ok (c.neighbourActs.count 1 : Int)) := by
  rw [hn]
  intro c c' h
  show Except.ok _ = Except.ok _
  rw [h.count_eq]

/-- The hypothesis is needed: a rule that uses the timestep gives another trajectory when it is memoized. -/
example :
    Ex.runActs 3 { Ex.base with rule := some (pureRule (fun c => .ok (c.t : Int))), input := .timesteps 3, memoize := true }
      [1, 1, 1] Ex.tri ≠
    Ex.runActs 3 { Ex.base with rule := some (pureRule (fun c => .ok (c.t : Int))), input := .timesteps 3 }
      [1, 1, 1] Ex.tri := by decide

end
end Verif
