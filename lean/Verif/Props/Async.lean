import Verif.Proofs.Async
import Verif.Proofs.RunPure
import Verif.Spec.CA
import Verif.Props.Examples
/-! # Properties C38 and C39: `AsynchronousRule` -/

namespace Verif
section
variable {L A V I τ κ : Type} [DecidableEq L] [DecidableEq V] [DecidableEq κ]

theorem async_outcome (cfg : Config L A V I τ κ) (sh : Nat → Nat → List L) (rand : Bool)
    (rule : NodeCtx L A V I → τ → Except Err (RuleOut L A V × τ)) (hm : cfg.memoize = false)
    (htop : cfg.topology = none) (O : List L) (hO : O.Nodup) (hne : O ≠ []) (d : Nat)
    (hperm : rand = true → ∀ i, (sh i O.length).Perm O) (n : Net L A) (hn : n.labels.Nodup)
    (hs : ∀ x ∈ O, x ∈ n.labels) (hq : ∀ c u o u', rule c u = .ok (o, u') → o.added = [] ∧ o.removed = [])
    (heap : List (Net L A)) (r : Nat) (hr : heap[r]? = some n) (u : τ) (fuel : Nat) (init : Option (Conds L V)) :
    SameOutcome (evolve fuel (cfg.withRule (asyncRule sh rand rule)) init r ⟨heap, (⟨O, 0, 0, d⟩, u)⟩)
      (evolve fuel { cfg with rule := some (pickRule (fun t => (orderAt sh rand O d (t - 1))[(t - 1) % O.length]?) rule) }
        init r ⟨heap, u⟩) := by
  have hpos : 0 < O.length := by
    cases O with
    | nil => exact absurd rfl hne
    | cons a l => simp
  have h := (async_sim cfg sh rand rule hm htop O hO hne d hperm n hn hs hq).evolve fuel init r
    ⟨heap, (⟨O, 0, 0, d⟩, u)⟩ ⟨heap, u⟩ rfl hr
    ⟨Nat.le_refl 1, by
      simp only [Nat.sub_self, Nat.zero_mod, Nat.add_zero]
      rw [async_start (by exact hpos)]
      cases rand <;> rfl, rfl⟩
  generalize evolve fuel (cfg.withRule (asyncRule sh rand rule)) init r ⟨heap, (⟨O, 0, 0, d⟩, u)⟩ = x at h ⊢
  generalize evolve fuel { cfg with rule := some _ } init r ⟨heap, u⟩ = y at h ⊢
  cases h with
  | error e => exact Or.inl ⟨e, rfl, rfl⟩
  | @ok a b h => exact Or.inr ⟨a, b, rfl, rfl, h.1, h.2.1, h.2.2.2.2⟩

/-- C38, whole runs.  With an update order without repetitions made of nodes of the network (in any order of iteration)
a run with `AsynchronousRule(rule, update_order)` has the outcome of the run in which, at timestep `t`, only the node
`update_order[(t-1) mod len]` is given the rule's value and all others keep theirs.  The wrapped rule may have state and
may raise but makes no requests; inputs, perturbation, past conditions and flags are arbitrary; without memoization
and topology rule. -/
theorem C38_run (cfg : Config L A V I τ κ) (sh : Nat → Nat → List L)
    (rule : NodeCtx L A V I → τ → Except Err (RuleOut L A V × τ)) (hm : cfg.memoize = false)
    (htop : cfg.topology = none) (order : List L) (hO : order.Nodup) (hne : order ≠ []) (len : Option Nat) (a : Async L)
    (ha : asyncInit sh (some order) len = .ok a) (n : Net L A) (hn : n.labels.Nodup) (hs : ∀ x ∈ order, x ∈ n.labels)
    (hq : ∀ c u o u', rule c u = .ok (o, u') → o.added = [] ∧ o.removed = [])
    (heap : List (Net L A)) (r : Nat) (hr : heap[r]? = some n) (u : τ) (fuel : Nat) (init : Option (Conds L V)) :
    SameOutcome (evolve fuel (cfg.withRule (asyncRule sh false rule)) init r ⟨heap, (a, u)⟩)
      (evolve fuel { cfg with rule := some (pickRule (cyclic order) rule) } init r ⟨heap, u⟩) := by
  have ha' : a = ⟨order, 0, 0, 0⟩ := by
    unfold asyncInit at ha
    cases len <;> exact (Except.ok.inj ha).symm
  have h := async_outcome cfg sh false rule hm htop order hO hne 0 (by intro h; cases h) n hn hs hq heap r hr u fuel init
  have e : (fun t => (orderAt sh false order 0 (t - 1))[(t - 1) % order.length]?) = cyclic order := by
    funext t
    unfold cyclic
    cases t - 1 <;> rfl
  rw [e] at h
  rw [ha']
  exact h

/-- C38, one timestep, for wrapped rules that also add and remove nodes, and with a topology rule: the activities, requests
and the user's state computed in timestep `t` are those of the rule that is applied at `update_order[k]` only; then
the position is `(k+1) mod len`. -/
theorem C38_timestep (cfg : Config L A V I τ κ) (sh : Nat → Nat → List L)
    (rule : NodeCtx L A V I → τ → Except Err (RuleOut L A V × τ)) (hm : cfg.memoize = false) (order : List L)
    (hO : order.Nodup) (n : Net L A) (hn : n.labels.Nodup) (hs : ∀ x ∈ order, x ∈ n.labels) (k d : Nat)
    (hk : k < order.length) (ks : KeySpec L A V I κ) (t : Nat) (inp : Inp I) (prev : Dict L V)
    (past : Option (List (Option (Dict L V)))) (nmap : Option (Dict L (List L))) (memo : Memo V κ) (u : τ) :
    ExRel (fun x y => x.curr = y.curr ∧ x.added = y.added ∧ x.removed = y.removed ∧
        x.user = (⟨order, (k + 1) % order.length, 0, d⟩, y.user))
      (computeActs (cfg.withRule (asyncRule sh false rule)) ks t inp prev n past nmap memo (⟨order, k, 0, d⟩, u))
      (computeActs { cfg with rule := some (pickRule (fun _ => order[k]?) rule) } ks t inp prev n past nmap memo u) := by
  have h := acts_sim (cfg₁ := cfg.withRule (asyncRule sh false rule))
    (cfg₂ := { cfg with rule := some (pickRule (fun _ => order[k]?) rule) }) (n := n) False rfl rfl rfl hm hm t
    (fun done s u => AsyncAt sh false order k d done s.1 ∧ s.2 = u)
    (by
      rintro done x rest ctx ⟨a, u⟩ _ hl hx ht ⟨h2, rfl⟩
      obtain ⟨a', e1, e2⟩ := async_node sh false rule hO hk (by intro h; cases h) (by rw [← hl]; exact hn) hx h2 u
        (fun _ => order[k]?) rfl
      rw [e2]
      have := besides_pick (q := False) (f := pickRule (fun _ => order[k]?) rule ctx)
        (fun a => AsyncAt sh false order k d (done ++ [x]) a) a' e1 u (by intro h; cases h)
      generalize besides (pickRule (fun _ => order[k]?) rule ctx) (a', u) = p at this ⊢
      generalize pickRule (fun _ => order[k]?) rule ctx u = q at this ⊢
      cases this with
      | error e => exact .error e
      | ok h => exact .ok ⟨h.1, h.2.1, h.2.2.1, h.2.2.2⟩)
    (by
      rintro done x nin curr ⟨a, u⟩ _ ⟨h2, rfl⟩
      have := perturb_beside cfg (asyncRule sh false rule) (pickRule (fun _ => order[k]?) rule) t x nin curr
        (fun a => AsyncAt sh false order k d done a) a h2 u
      generalize perturb (cfg.withRule (asyncRule sh false rule)) t x nin curr (a, u) = p at this ⊢
      generalize perturb { cfg with rule := some _ } t x nin curr u = q at this ⊢
      cases this with
      | error e => exact .error e
      | ok h => exact .ok ⟨h.1, h.2.1, h.2.2⟩)
    ks ks inp prev past nmap memo memo (⟨order, k, 0, d⟩, u) u
    ⟨(async_start (by omega)).2 rfl, rfl⟩
  generalize computeActs (cfg.withRule (asyncRule sh false rule)) ks t inp prev n past nmap memo (⟨order, k, 0, d⟩, u) = x at h ⊢
  generalize computeActs { cfg with rule := some _ } ks t inp prev n past nmap memo u = y at h ⊢
  cases h with
  | error e => exact .error e
  | @ok a b h =>
    refine .ok ⟨h.curr, h.added, h.removed, ?_⟩
    have e := async_end hO hs h.user.1
    have e2 := h.user.2
    obtain ⟨c, ad, rm, m, ⟨x, y⟩⟩ := a
    simp only at e e2 ⊢
    rw [e, e2]
    rfl

/-- C39, partial.  Full claim: "with `randomize_each_cycle=True` every complete cycle of `len(update_order)` timesteps
updates every node exactly once, and the order is reshuffled only between cycles".  It is false (`C39_unfair`): the order
is reshuffled after every timestep.  Proved: for every outcome of the shuffles, at timestep `t` exactly one node is given
the rule's value, the one at position `(t-1) mod len` of the order in force, which is the initial order at the first
timestep and the outcome of the latest shuffle, a new one for each timestep, afterwards. -/
theorem C39_one_node_partial (cfg : Config L A V I τ κ) (sh : Nat → Nat → List L)
    (rule : NodeCtx L A V I → τ → Except Err (RuleOut L A V × τ)) (hm : cfg.memoize = false)
    (htop : cfg.topology = none) (order : Option (List L)) (len : Option Nat) (a : Async L)
    (ha : asyncInit sh order len = .ok a) (hO : a.order.Nodup) (hne : a.order ≠ [])
    (hperm : ∀ i, (sh i a.order.length).Perm a.order) (n : Net L A) (hn : n.labels.Nodup)
    (hs : ∀ x ∈ a.order, x ∈ n.labels)
    (hq : ∀ c u o u', rule c u = .ok (o, u') → o.added = [] ∧ o.removed = [])
    (heap : List (Net L A)) (r : Nat) (hr : heap[r]? = some n) (u : τ) (fuel : Nat) (init : Option (Conds L V)) :
    SameOutcome (evolve fuel (cfg.withRule (asyncRule sh true rule)) init r ⟨heap, (a, u)⟩)
      (evolve fuel { cfg with rule := some (pickRule
        (fun t => (orderAt sh true a.order a.draws (t - 1))[(t - 1) % a.order.length]?) rule) } init r ⟨heap, u⟩) := by
  have ha' : a = ⟨a.order, 0, 0, a.draws⟩ := by
    unfold asyncInit at ha
    cases order with
    | none => cases len with
      | none => cases ha
      | some k => cases ha; rfl
    | some o => cases ha; rfl
  have h := async_outcome cfg sh true rule hm htop a.order hO hne a.draws (fun _ => hperm) n hn hs hq heap r hr u fuel init
  rw [← ha'] at h
  exact h

end

/-! ### Examples and counterexamples -/

/-- The observed activities of a run with `AsynchronousRule`. -/
def asyncActs (T : Nat) (sh : Nat → Nat → List Nat) (rand memo : Bool) (order : List Nat) (init : Conds Nat Int) (n : Net Nat Int)
    (rule : NodeCtx Nat Int Int Int → List Int → Except Err (RuleOut Nat Int Int × List Int)) :
    Except Err (List (Option (Dict Nat Int))) :=
  let cfg := ({ Ex.base with input := .timesteps T, memoize := memo }).withRule (asyncRule sh rand rule)
  match asyncInit sh (some order) none with
  | .error e => .error e
  | .ok a => match evolve T cfg (some init) 0 ⟨[n], (a, [])⟩ with
    | .error e => .error e
    | .ok res => .ok ((List.range res.states.length).map (fun t => res.acts cfg t))

/-- A rule that adds one, and the sum of the neighbourhood. -/
def incRule (ctx : NodeCtx Nat Int Int Int) (u : List Int) : Except Err (RuleOut Nat Int Int × List Int) :=
  .ok (⟨ctx.current + 1, [], []⟩, u)

example : asyncActs 4 (fun _ n => List.range n) false false [2, 0] (.list [0, 0, 0]) Ex.tri Ex.logRule =
    .ok [some [(0, 0), (1, 0), (2, 0)], some [(0, 0), (1, 0), (2, 1)], some [(0, 3), (1, 0), (2, 1)],
      some [(0, 3), (1, 0), (2, 3)]] := by decide +kernel

/-- The hypotheses of `C38_run` hold of this run. -/
example : [2, 0].Nodup ∧ (∀ x ∈ [2, 0], x ∈ Ex.tri.labels) ∧ Ex.tri.labels.Nodup ∧
    (∀ c u o u', Ex.logRule c u = .ok (o, u') → o.added = [] ∧ o.removed = []) :=
  ⟨by decide, by decide, by decide, by
    intro c u o u' h
    unfold Ex.logRule at h
    cases h
    exact ⟨rfl, rfl⟩⟩

/-- C39 is false: with the order `[0, 1]` and shuffles that give `[1, 0]`, the first cycle of two timesteps updates node 0
twice and node 1 never; the order was reshuffled inside the cycle. -/
theorem C39_unfair :
    asyncActs 3 (fun _ _ => [1, 0]) true false [0, 1] (.list [0, 0]) (Net.run Net.empty [.addNode 0 [], .addNode 1 []]) incRule =
      .ok [some [(0, 0), (1, 0)], some [(0, 1), (1, 0)], some [(0, 2), (1, 0)]] := by decide +kernel

/-- C39 is also false for update orders of other nodes than `0, ..., len-1`: the reshuffled order consists of the numbers
below `len`.  With the order `[5, 7]`, no node is updated after the first timestep, whatever the shuffles. -/
theorem C39_labels_lost : ∀ sh ∈ [fun _ _ => [0, 1], fun _ _ => [1, 0], fun i _ => if i % 2 = 0 then [0, 1] else [1, 0]],
    asyncActs 5 sh true false [5, 7] (.dict [(5, 0), (7, 0)]) (Net.run Net.empty [.addNode 5 [], .addNode 7 []]) incRule =
      .ok [some [(5, 0), (7, 0)], some [(5, 1), (7, 0)], some [(5, 1), (7, 0)], some [(5, 1), (7, 0)],
        some [(5, 1), (7, 0)]] := by decide +kernel

/-- With memoization C38 fails: a hit does not call the rule, so the hidden counter is not advanced.  On two nodes with
self-loops and equal activities, node 1 is given node 0's new value at timestep 1. -/
theorem C38_memoized :
    asyncActs 2 (fun _ n => List.range n) false true [0, 1] (.list [0, 0])
      (Net.run Net.empty [.addEdge 0 0 [], .addEdge 1 1 []]) incRule =
      .ok [some [(0, 0), (1, 0)], some [(0, 1), (1, 1)]] := by decide +kernel

example : [1, 0].Perm [0, 1] ∧ asyncActs 3 (fun i _ => if i = 0 then [0, 1] else [1, 0]) true false [0, 1] (.list [0, 0])
    (Net.run Net.empty [.addNode 0 [], .addNode 1 []]) incRule =
      .ok [some [(0, 0), (1, 0)], some [(0, 1), (1, 0)], some [(0, 1), (1, 1)]] := by decide +kernel

end Verif
