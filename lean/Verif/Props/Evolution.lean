import Verif.Proofs.Copy
import Verif.Proofs.EvolutionTotal
import Verif.Proofs.NetworkQueries
import Verif.Props.Examples
/-! # Properties C13, C14, C19, C23-C26: what `evolve` computes

A theorem about finished runs has the hypothesis `evolve fuel cfg init r w = .ok res`: the call with the network object
`r` of the world `w` returned `res`.  `n` is the content of the object `r` before the call.  The result is described by
a history `hist` of activities and networks that `res` shows through the persistence flags (`Observes`). -/

namespace Verif

variable {L A V I σ κ : Type} [DecidableEq L] [DecidableEq V] [DecidableEq κ]

/-! ## C13 -/

/-- C13, timestep counts.  With `timesteps=T`, `T ≥ 1`: the result does not depend on the fuel once it is at least `T`
(the loop ends), a finished run has exactly `T` states, and the first one shows the initial conditions and the network.
If the network is fixed and nothing is memoized, the rule is invoked once per node in each of the timesteps
`1, ..., T-1`, in the order of the nodes. -/
theorem C13_timesteps (cfg : Config L A V I σ κ) (hs : cfg.Safe) (hp : cfg.PackOk) (T : Nat) (hT : 1 ≤ T)
    (hin : cfg.input = .timesteps T) (init : Option (Conds L V)) (r : Nat) (w : World L A σ) (n : Net L A)
    (hr : w.heap[r]? = some n) :
    (∀ fuel, T ≤ fuel → evolve fuel cfg init r w = evolve T cfg init r w) ∧
    ∀ res, evolve T cfg init r w = .ok res →
      res.states.length = T ∧ (∃ hist, Observes cfg res hist ∧ hist[0]? = some (initDict cfg init, n)) ∧
      (∀ log : σ → List (NodeCtx L A V I), LogSpec cfg log → log w.user = [] → cfg.rule.isSome = true →
        cfg.memoize = false → cfg.topology = none → cfg.NoReqs →
        (log res.world.user).map (fun c => (c.t, c.node)) =
          (List.range (T - 1)).flatMap (fun k => n.labels.map (fun x => (k + 1, x)))) := by
  have hi : staticInputs cfg.input = some (List.replicate (T - 1) (.timestep : Inp I)) := by
    rw [hin]; simp [staticInputs]; omega
  refine ⟨?_, ?_⟩
  · intro fuel hf
    exact evolve_fuel hi (by simp; omega) (by simp; omega) init r w
  · intro res h
    obtain ⟨v, ext, e1, e2, e3⟩ := evolve_ok hs hp hr h
    have hlen : v.hist.length = T := by
      rw [vevolve_length hi (by simp; omega) e1]; simp; omega
    refine ⟨by rw [e3.len, hlen], ⟨v.hist, e3, hist_head e1⟩, ?_⟩
    intro log hl hl0 hru hm ht hq
    obtain ⟨_, v1, u1, hreach, hc, rfl⟩ := vevolve_ok e1
    obtain ⟨segs, g1, g2, g3⟩ := hreach.segments (Or.inl ht) hl
    have hnet := (hreach.fixed_net ht (Or.inl hq)).2
    rw [e2]
    simp only
    rw [callInput_log hl hc, g1, hl0, List.nil_append]
    have hlen' : segs.length = T - 1 := by simp only at hlen; omega
    have hseg : segs.map (fun seg => seg.map (fun c => (c.t, c.node))) =
        (List.range (T - 1)).map (fun k => n.labels.map (fun x => (k + 1, x))) := by
      apply List.ext_getElem?
      intro k
      simp only [List.getElem?_map]
      by_cases hk : k < segs.length
      · obtain ⟨seg, hseg⟩ : ∃ seg, segs[k]? = some seg := ⟨segs[k], by simp [hk]⟩
        obtain ⟨S, N, inp, s1, s2, s3, _⟩ := g3 k seg hseg
        have hN : N = n := by
          have := s1.net
          unfold inForce at this
          rw [Option.map_eq_some_iff] at this
          obtain ⟨p, hp1, hp2⟩ := this
          rw [← hp2]; exact hnet _ _ hp1
        subst hN
        have hnodes := s3 hm hru
        rw [hseg, List.getElem?_range (by omega)]
        simp only [Option.map_some, Option.some.injEq]
        rw [← hnodes, List.map_map]
        apply List.map_congr_left
        intro c hcm
        obtain ⟨x, _, hsc⟩ := s2 c hcm
        simp [hsc.t]
      · rw [List.getElem?_eq_none_iff.2 (by omega), List.getElem?_eq_none_iff.2 (by simp; omega)]
        rfl
    rw [List.map_flatten, hseg, List.flatMap_def]

/-- Three timesteps of a logging rule on a network with a self-loop: 3 states, 6 invocations. -/
example :
    let cfg : Config Nat Int Int Int (List Int) Unit := { Ex.base with rule := some Ex.logRule, input := .timesteps 3 }
    (match evolve 3 cfg (some (.list [1, 0, 0])) 0 ⟨[Ex.tri], []⟩ with
      | .ok res => decide (res.states.length = 3 ∧ res.world.user = [0, 1, 1, 1, 2, 1, 0, 2, 1, 2, 2, 2] ∧
          res.acts cfg 0 = some [(0, 1), (1, 0), (2, 0)])
      | .error _ => false) = true := by decide

/-- C13, no spurious failure.  A rule (and perturbation) that never raises and makes no requests, on a network whose
neighbour lists are made of its nodes, with an initial activity for every node, gives a trajectory of `T` states. -/
theorem C13_returns (cfg : Config L A V I σ κ) (hT : cfg.Total) (hru : cfg.rule.isSome = true)
    (ht : cfg.topology = none) (hp : cfg.PackOk) (T : Nat) (hT1 : 1 ≤ T) (hin : cfg.input = .timesteps T)
    (init : Option (Conds L V)) (r : Nat) (w : World L A σ) (n : Net L A) (hr : w.heap[r]? = some n)
    (hcl : NetClosed n) (hlen : (initDict cfg init).length = n.size) (hk : ∀ x ∈ n.labels, x ∈ (initDict cfg init).keys)
    (fuel : Nat) (hf : T ≤ fuel) : ∃ res, evolve fuel cfg init r w = .ok res ∧ res.states.length = T := by
  have hs : cfg.Safe := Or.inr (fun rule h => by rw [ht] at h; cases h)
  obtain ⟨v, hv⟩ := vevolve_total hT hru ht hT1 hin (w.user) hcl hlen hk hf
  obtain ⟨res, ext, h1, _, h3⟩ := evolve_of_vevolve hs hp hr hv
  have hi : staticInputs cfg.input = some (List.replicate (T - 1) (.timestep : Inp I)) := by
    rw [hin]; simp [staticInputs]; omega
  refine ⟨res, h1, ?_⟩
  rw [h3.len, vevolve_length hi (by simp; omega) hv]; simp; omega

/-- Networks built by the public API without rotation system are closed. -/
theorem netClosed_run (ops : List (Net.Op L A)) (hrot : (Net.run (Net.empty : Net L A) ops).rotation = none) :
    NetClosed (Net.run (Net.empty : Net L A) ops) := by
  intro x hx
  obtain ⟨h, hv⟩ := run_empty ops
  rw [h] at hx hrot ⊢
  rw [labels_ofMG] at hx
  unfold specNbrs
  rw [hrot]
  simp only
  have hin := inEdges_ofMG hx
  rw [inEdges_ok_iff] at hin
  obtain ⟨nd, hnd, hinc⟩ := Option.map_eq_some_iff.1 hin
  refine ⟨nd.incoming.keys, by simp [hnd], ?_⟩
  intro y hy
  rw [hinc, keys_incomingOf] at hy
  rw [labels_ofMG]
  exact (mem_labels_of_mem_sources hv hy).1

/-- The hypotheses of `C13_returns` on the network are met by the example network. -/
example : NetClosed Ex.tri ∧ (∀ x ∈ Ex.tri.labels, x ∈ (initDict Ex.base (some (.list [1, 0, 0]))).keys) ∧
    (initDict Ex.base (some (.list [1, 0, 0]))).length = Ex.tri.size :=
  ⟨netClosed_run _ (by decide), by decide, by decide⟩

/-- C13, input lists.  A finished run on an input list has one state more than the list has items before the first
`None`; in particular `m + 1` states for a list of `m` items without `None`.  The result does not depend on the fuel. -/
theorem C13_input_list (cfg : Config L A V I σ κ) (hs : cfg.Safe) (hp : cfg.PackOk) (items : List (Option (Inp I)))
    (hin : cfg.input = .list items) (init : Option (Conds L V)) (r : Nat) (w : World L A σ) (n : Net L A)
    (hr : w.heap[r]? = some n) (fuel : Nat) (hf : items.length < fuel) :
    evolve fuel cfg init r w = evolve (items.length + 1) cfg init r w ∧
    ∀ res, evolve fuel cfg init r w = .ok res →
      res.states.length = (items.takeWhile (fun o => o.isSome)).length + 1 ∧
      ((∀ o ∈ items, o ≠ none) → res.states.length = items.length + 1) := by
  have hi : staticInputs cfg.input = some ((items.takeWhile (fun o => o.isSome)).filterMap id) := by
    rw [hin]; simp [staticInputs]
  have hl1 : ((items.takeWhile (fun o => o.isSome)).filterMap id).length = (items.takeWhile (fun o => o.isSome)).length := by
    clear hi hf hin
    induction items with
    | nil => rfl
    | cons o items ih => cases o <;> simp [ih]
  have hl2 : (items.takeWhile (fun o => o.isSome)).length ≤ items.length := List.Sublist.length_le (List.takeWhile_sublist _)
  refine ⟨evolve_fuel hi (by omega) (by omega) init r w, ?_⟩
  intro res h
  obtain ⟨v, ext, e1, e2, e3⟩ := evolve_ok hs hp hr h
  have hlen := vevolve_length hi (by omega) e1
  refine ⟨by rw [e3.len, hlen, hl1], ?_⟩
  intro hall
  have : items.takeWhile (fun o => o.isSome) = items := by
    clear hi hf hin hl1 hl2 hlen
    induction items with
    | nil => rfl
    | cons o items ih =>
      cases o with
      | none => exact absurd rfl (hall none (by simp))
      | some i => simp [ih (fun o ho => hall o (by simp [ho]))]
  rw [e3.len, hlen, hl1, this]

example :
    let cfg : Config Nat Int Int Int (List Int) Unit := { Ex.base with rule := some Ex.logRule, input := .list [some (.scalar 4), none, some (.scalar 5)] }
    (match evolve 4 cfg (some (.list [1, 0, 0])) 0 ⟨[Ex.tri], []⟩ with
      | .ok res => decide (res.states.length = 2)
      | .error _ => false) = true := by decide

/-- C13, input functions.  A finished run on an input function that may look at the previous activities and network
stopped at the first timestep at which the function returned `None`. -/
theorem C13_input_function (cfg : Config L A V I σ κ) (hs : cfg.Safe) (hp : cfg.PackOk)
    (f : Nat → Dict L V → Net L A → Option (Inp I)) (hin : cfg.input = .fn (fun t d n u => .ok (f t d n, u)))
    (init : Option (Conds L V)) (r : Nat) (w : World L A σ) (n : Net L A) (hr : w.heap[r]? = some n) (fuel : Nat)
    (res : Evolved L A V σ) (h : evolve fuel cfg init r w = .ok res) :
    ∃ hist, Observes cfg res hist ∧ hist[0]? = some (initDict cfg init, n) ∧
      (∀ t, 1 ≤ t → t < res.states.length → ∃ S B, hist[t - 1]? = some (S, B) ∧ f t S B ≠ none) ∧
      (∃ S B, hist[res.states.length - 1]? = some (S, B) ∧ f res.states.length S B = none) := by
  obtain ⟨v, ext, e1, e2, e3⟩ := evolve_ok hs hp hr h
  refine ⟨v.hist, e3, hist_head e1, ?_⟩
  obtain ⟨_, v1, u1, hreach, hc, rfl⟩ := vevolve_ok e1
  rw [e3.len]
  simp only
  have hlast : ∀ va, Reach cfg (effectiveKey cfg n) (vinit cfg (initDict cfg init) n w.user) va →
      va.hist[va.hist.length - 1]? = some (va.acts, va.net) := by
    intro va hva
    rw [← List.getLast?_eq_getElem?]; exact hva.last (by simp [vinit])
  constructor
  · intro t ht1 ht2
    obtain ⟨va, vb, inp, u', hra, hca, _, _, hlen, htake, _⟩ := hreach.transition (by simpa [vinit] using ht1) ht2
    refine ⟨va.acts, va.net, ?_, ?_⟩
    · have := hlast va hra
      rw [hlen, htake, List.getElem?_take, if_pos (by omega)] at this
      exact this
    · rw [hin] at hca
      simp only [callInput, Except.ok.injEq, Prod.mk.injEq] at hca
      rw [← hlen, hca.1]; simp
  · refine ⟨v1.acts, v1.net, hlast v1 hreach, ?_⟩
    rw [hin] at hc
    simp only [callInput, Except.ok.injEq, Prod.mk.injEq] at hc
    exact hc.1

example :
    let cfg : Config Nat Int Int Int (List Int) Unit :=
      { Ex.base with rule := some Ex.logRule, input := .fn (fun t d n u => .ok (Ex.stopFn t d n, u)) }
    (match evolve 9 cfg (some (.list [1, 0, 0])) 0 ⟨[Ex.tri], []⟩ with
      | .ok res => decide (res.states.length = 3)
      | .error _ => false) = true := by decide

/-- C13, the initial conditions.  Uncompressed, the first state shows a dict of initial conditions as it is, and a list
`v0, v1, ...` as the dict `0: v0, 1: v1, ...` in this order.  (An empty dict shows as `None`.) -/
theorem C13_initial_conditions (cfg : Config L A V I σ κ) (hs : cfg.Safe) (hp : cfg.PackOk) (hc : cfg.compression = false)
    (hinj : ∀ i j, cfg.natLabel i = cfg.natLabel j → i = j) (r : Nat) (w : World L A σ) (n : Net L A)
    (hr : w.heap[r]? = some n) (fuel : Nat) (res : Evolved L A V σ) :
    (∀ d : Dict L V, d ≠ [] → evolve fuel cfg (some (.dict d)) r w = .ok res → res.acts cfg 0 = some d) ∧
    (∀ vs : List V, vs ≠ [] → evolve fuel cfg (some (.list vs)) r w = .ok res →
      ∃ d, res.acts cfg 0 = some d ∧ d.keys = (List.range vs.length).map cfg.natLabel ∧
        ∀ i, i < vs.length → d.get? (cfg.natLabel i) = vs[i]?) ∧
    (evolve fuel cfg none r w = .ok res → res.acts cfg 0 = none) := by
  have hob : ∀ init, evolve fuel cfg init r w = .ok res →
      res.acts cfg 0 = if (initDict cfg init).isEmpty = false then some (initDict cfg init) else none := by
    intro init h
    obtain ⟨v, ext, e1, e2, e3⟩ := evolve_ok hs hp hr h
    have h0 := hist_head e1
    rw [e3.acts, h0]
    simp [obsActs, hc]
  refine ⟨?_, ?_, ?_⟩
  · intro d hd h
    rw [hob _ h]
    simp only [initDict, Conds.toDict]
    cases d with
    | nil => exact absurd rfl hd
    | cons a l => rfl
  · intro vs hv h
    have hkeys : (vs.zipIdx.map (fun p => (cfg.natLabel p.2, p.1))).map Prod.fst = (List.range vs.length).map cfg.natLabel := by
      rw [List.map_map]
      have : (Prod.fst ∘ fun p : V × Nat => (cfg.natLabel p.2, p.1)) = cfg.natLabel ∘ Prod.snd := rfl
      rw [this, ← List.map_map, List.zipIdx_map_snd, List.range_eq_range']
    have hnd : ((vs.zipIdx.map (fun p => (cfg.natLabel p.2, p.1))).map Prod.fst).Nodup := by
      rw [hkeys, List.nodup_iff_pairwise_ne, List.pairwise_map]
      exact List.Pairwise.imp (fun h e => h (hinj _ _ e)) List.nodup_range
    refine ⟨(vs.zipIdx.map (fun p : V × Nat => (cfg.natLabel p.2, p.1)) : List (L × V)), ?_, hkeys, ?_⟩
    · rw [hob _ h]
      simp only [initDict, Conds.toDict, ofPairs_nodup _ hnd]
      cases vs with
      | nil => exact absurd rfl hv
      | cons a l => simp [List.zipIdx]
    · intro i hi
      rw [List.getElem?_eq_getElem hi]
      apply Dict.get?_of_mem hnd
      rw [List.mem_map]
      refine ⟨(vs[i], i), ?_, rfl⟩
      rw [List.mem_zipIdx_iff_getElem?]
      simp
  · intro h
    rw [hob _ h]; rfl

/-- A timestep count below 1 never ends: no fuel gives a result (`evolution.py:428-431` only stops at equality). -/
theorem C13_nonpositive_never_returns (cfg : Config L A V I σ κ) (hs : cfg.Safe) (hp : cfg.PackOk) (T : Int) (hT : T < 1)
    (hin : cfg.input = .timesteps T) (init : Option (Conds L V)) (r : Nat) (w : World L A σ) (n : Net L A)
    (hr : w.heap[r]? = some n) (fuel : Nat) (res : Evolved L A V σ) : evolve fuel cfg init r w ≠ .ok res := by
  intro h
  obtain ⟨v, ext, e1, e2, e3⟩ := evolve_ok hs hp hr h
  unfold vevolve at e1
  cases hc : vcheck cfg (initDict cfg init) n with
  | error e => simp [hc] at e1
  | ok x =>
    simp only [hc] at e1
    exact vloop_diverges hin hT fuel _ v (by simp [vinit]) e1

/-! ## C14 and C23 -/

/-- C14.  In a finished run with a stateless rule `G` (which may raise), without perturbation and memoization, the
activities of timestep `t ≥ 1` are a dict over exactly the nodes of the network in force, and the activity of node `x`
is `G` of the context that `SpecCtx` builds from the activities of timestep `t - 1` only. -/
theorem C14_synchronous (cfg : Config L A V I σ κ) (hs : cfg.Safe) (hp : cfg.PackOk)
    (G : NodeCtx L A V I → Except Err V) (hG : cfg.PureRule G) (hP : cfg.perturbation = none) (hm : cfg.memoize = false)
    (ht : cfg.TopNodup) (init : Option (Conds L V)) (r : Nat) (w : World L A σ) (n : Net L A)
    (hr : w.heap[r]? = some n) (hn : n.labels.Nodup) (fuel : Nat) (res : Evolved L A V σ)
    (h : evolve fuel cfg init r w = .ok res) :
    ∃ hist, Observes cfg res hist ∧ hist[0]? = some (initDict cfg init, n) ∧
      ∀ t, 1 ≤ t → t < hist.length → ∃ S N inp S', StepAt cfg hist t S N inp ∧
        (hist[t]?).map Prod.fst = some S' ∧ S'.keys = N.labels ∧
        ∀ x ∈ N.labels, ∃ ctx v, SpecCtx cfg.labelIdx N S t (specPast cfg hist t) inp x ctx ∧ G ctx = .ok v ∧
          S'.get? x = some v := by
  obtain ⟨v, ext, e1, e2, e3⟩ := evolve_ok hs hp hr h
  refine ⟨v.hist, e3, hist_head e1, ?_⟩
  obtain ⟨_, v1, u1, hreach, hc, rfl⟩ := vevolve_ok e1
  intro t ht1 ht2
  obtain ⟨S, N, inp, S', a1, a2, a3, a4⟩ :=
    hreach.pure hG (P := none) (by simpa [Config.PurePert] using hP) hm hn ht ht1 ht2
  refine ⟨S, N, inp, S', a1, a2, a3, ?_⟩
  intro x hx
  obtain ⟨ctx, v0, v', b1, b2, b3, b4⟩ := a4 x hx
  simp only at b3
  subst b3
  exact ⟨ctx, v', b1, b2, b4⟩

/-- Two timesteps of the sum rule on the triangle with a self-loop. -/
example : Ex.runActs 3 { Ex.base with rule := some (pureRule (fun c => .ok (Ex.sumRule c))), input := .timesteps 3 }
    [1, 0, 0] Ex.tri =
    .ok [some [(0, 1), (1, 0), (2, 0)], some [(0, 2), (1, 2), (2, 1)], some [(0, 5), (1, 4), (2, 4)]] := by decide

/-- C23.  With a stateless perturbation `p`, the activity of node `x` at `t ≥ 1` is `p` of the node, of the value that
the rule computes from the (perturbed) activities of timestep `t - 1`, of `t` and of the node's input.  The initial
state is not perturbed. -/
theorem C23_perturbation (cfg : Config L A V I σ κ) (hs : cfg.Safe) (hp : cfg.PackOk)
    (G : NodeCtx L A V I → Except Err V) (hG : cfg.PureRule G) (p : PertCtx L V I → Except Err V)
    (hP : cfg.PurePert (some p)) (hm : cfg.memoize = false)
    (ht : cfg.TopNodup) (init : Option (Conds L V)) (r : Nat) (w : World L A σ) (n : Net L A)
    (hr : w.heap[r]? = some n) (hn : n.labels.Nodup) (fuel : Nat) (res : Evolved L A V σ)
    (h : evolve fuel cfg init r w = .ok res) :
    ∃ hist, Observes cfg res hist ∧ hist[0]? = some (initDict cfg init, n) ∧
      ∀ t, 1 ≤ t → t < hist.length → ∃ S N inp S', StepAt cfg hist t S N inp ∧
        (hist[t]?).map Prod.fst = some S' ∧ S'.keys = N.labels ∧
        ∀ x ∈ N.labels, ∃ ctx v v', SpecCtx cfg.labelIdx N S t (specPast cfg hist t) inp x ctx ∧ G ctx = .ok v ∧
          p ⟨x, v, t, ctx.input⟩ = .ok v' ∧ S'.get? x = some v' := by
  obtain ⟨v, ext, e1, e2, e3⟩ := evolve_ok hs hp hr h
  refine ⟨v.hist, e3, hist_head e1, ?_⟩
  obtain ⟨_, v1, u1, hreach, hc, rfl⟩ := vevolve_ok e1
  intro t ht1 ht2
  obtain ⟨S, N, inp, S', a1, a2, a3, a4⟩ := hreach.pure hG hP hm hn ht ht1 ht2
  exact ⟨S, N, inp, S', a1, a2, a3, a4⟩

/-- Perturbation that adds 10 to node 1 at timestep 1. -/
example : Ex.runActs 3
    { Ex.base with rule := some (pureRule (fun c => .ok (Ex.sumRule c))), input := .timesteps 3,
                   perturbation := some (Ex.pertOf Ex.addTen) }
    [1, 0, 0] Ex.tri =
    .ok [some [(0, 1), (1, 0), (2, 0)], some [(0, 2), (1, 12), (2, 1)], some [(0, 5), (1, 4), (2, 14)]] := by decide

/-! ## C19, C24, C25: the contexts of all invocations -/

/-- All contexts of a run.  For every finished run with a rule that logs its contexts: the log has one segment per
timestep `t = 1, ..., len - 1`, and each context in it is built from the activities of timestep `t - 1`, the network in
force, the input of timestep `t` and the past activities of timestep `t`. -/
theorem contexts (cfg : Config L A V I σ κ) (hs : cfg.Safe) (hp : cfg.PackOk) (hfresh : cfg.FreshNbrs)
    (log : σ → List (NodeCtx L A V I)) (hl : LogSpec cfg log) (init : Option (Conds L V)) (r : Nat)
    (w : World L A σ) (hw : log w.user = []) (n : Net L A) (hr : w.heap[r]? = some n) (fuel : Nat)
    (res : Evolved L A V σ) (h : evolve fuel cfg init r w = .ok res) :
    ∃ (hist : List (Dict L V × Net L A)) (segs : List (List (NodeCtx L A V I))), Observes cfg res hist ∧ hist[0]? = some (initDict cfg init, n) ∧
      log res.world.user = segs.flatten ∧ segs.length + 1 = hist.length ∧
      ∀ k seg, segs[k]? = some seg → SegSpec cfg hist (k + 1) seg := by
  obtain ⟨v, ext, e1, e2, e3⟩ := evolve_ok hs hp hr h
  obtain ⟨_, v1, u1, hreach, hc, rfl⟩ := vevolve_ok e1
  obtain ⟨segs, g1, g2, g3⟩ := hreach.segments hfresh hl
  refine ⟨v1.hist, segs, e3, by simpa using hist_head e1, ?_, g2, g3⟩
  rw [e2]
  simp only
  rw [callInput_log hl hc, g1, hw, List.nil_append]

/-- All contexts of a run, also with stale neighbour lists.  For every finished run with a rule that logs its contexts: the log has one segment per
timestep `t = 1, ..., len - 1`, and each context in it is built from the activities of timestep `t - 1`, the input of timestep `t` and the past activities of timestep `t`. -/
theorem contexts_any (cfg : Config L A V I σ κ) (hs : cfg.Safe) (hp : cfg.PackOk)
    (log : σ → List (NodeCtx L A V I)) (hl : LogSpec cfg log) (init : Option (Conds L V)) (r : Nat)
    (w : World L A σ) (hw : log w.user = []) (n : Net L A) (hr : w.heap[r]? = some n) (fuel : Nat)
    (res : Evolved L A V σ) (h : evolve fuel cfg init r w = .ok res) :
    ∃ (hist : List (Dict L V × Net L A)) (segs : List (List (NodeCtx L A V I))), Observes cfg res hist ∧ hist[0]? = some (initDict cfg init, n) ∧
      log res.world.user = segs.flatten ∧ segs.length + 1 = hist.length ∧
      ∀ k seg, segs[k]? = some seg → BaseSeg cfg hist (k + 1) seg := by
  obtain ⟨v, ext, e1, e2, e3⟩ := evolve_ok hs hp hr h
  obtain ⟨_, v1, u1, hreach, hc, rfl⟩ := vevolve_ok e1
  obtain ⟨segs, g1, g2, g3⟩ := hreach.segments_any hl
  refine ⟨v1.hist, segs, e3, by simpa using hist_head e1, ?_, g2, g3⟩
  rw [e2]
  simp only
  rw [callInput_log hl hc, g1, hw, List.nil_append]

/-- C19.  With `k ≥ 1` past conditions, every context has `k` past activities; entry `i` holds the activities `k - i`
steps before the previous timestep: those that the state of that timestep shows, or, before time 0, the matching entry
of the past conditions (the last one is time -1). -/
theorem C19_past_activities (cfg : Config L A V I σ κ) (hs : cfg.Safe) (hp : cfg.PackOk)
    (hpast : cfg.past ≠ [])
    (log : σ → List (NodeCtx L A V I)) (hl : LogSpec cfg log) (init : Option (Conds L V)) (r : Nat)
    (w : World L A σ) (hw : log w.user = []) (n : Net L A) (hr : w.heap[r]? = some n) (fuel : Nat)
    (res : Evolved L A V σ) (h : evolve fuel cfg init r w = .ok res) :
    ∀ c ∈ log res.world.user, 1 ≤ c.t ∧ c.t < res.states.length ∧ ∃ l, c.past = some l ∧ l.length = cfg.past.length ∧
      ∀ (i : Nat), i < cfg.past.length →
        l[i]? = some (if ((c.t : Int) - 1 - (cfg.past.length - i)) < 0
          then (cfg.past[i + c.t - 1]?).map (fun p => p.toDict cfg.natLabel)
          else res.acts cfg (i + c.t - 1 - cfg.past.length)) := by
  obtain ⟨hist, segs, o1, o2, o3, o4, o5⟩ := contexts_any cfg hs hp log hl init r w hw n hr fuel res h
  intro c hc
  rw [o3, List.mem_flatten] at hc
  obtain ⟨seg, hseg, hcs⟩ := hc
  obtain ⟨k, hk⟩ := List.mem_iff_getElem?.1 hseg
  obtain ⟨S, N, inp, s1, s2⟩ := o5 k seg hk
  obtain ⟨x, hx, hsc⟩ := s2 c hcs
  have hklt : k < segs.length := (List.getElem?_eq_some_iff.1 hk).1
  have hct : c.t = k + 1 := hsc.t
  have hne : cfg.past.isEmpty = false := by cases hq : cfg.past with
    | nil => exact absurd hq hpast
    | cons a l => rfl
  have hpst := hsc.past
  unfold specPast at hpst
  rw [hne] at hpst
  simp only [Bool.false_eq_true, if_false] at hpst
  refine ⟨by omega, by rw [o1.len]; omega, _, hpst, by simp, ?_⟩
  intro i hi
  rw [List.getElem?_map, List.getElem?_range hi]
  simp only [Option.map_some, Option.some.injEq]
  unfold pastVal
  rw [hct]
  by_cases hneg : ((k + 1 : Nat) : Int) - 1 - (cfg.past.length - (i : Int)) < 0
  · rw [if_pos hneg, if_pos hneg]
    congr 2
    omega
  · rw [if_neg hneg, if_neg hneg, o1.acts]
    have e : (((k + 1 : Nat) : Int) - 1 - (cfg.past.length - (i : Int))).toNat = i + (k + 1) - 1 - cfg.past.length := by omega
    rw [e]
    simp only [obsHist, List.getElem?_mapIdx]
    cases hist[i + (k + 1) - 1 - cfg.past.length]? <;> rfl

/-- Two past conditions: at `t = 1` both come from the past conditions, at `t = 2` the last one is the initial state. -/
example :
    let cfg : Config Nat Int Int Int (List Int) Unit := { Ex.base with
      rule := some (fun ctx u => .ok (⟨(ctx.past.getD []).length, [], []⟩,
        u ++ ((ctx.past.getD []).map (fun d => ((d.getD []).get? 0).getD 99)))),
      input := .timesteps 3, past := [.list [7, 7, 7], .list [8, 8, 8]] }
    (match evolve 3 cfg (some (.list [1, 0, 0])) 0 ⟨[Ex.tri], []⟩ with
      | .ok res => decide (res.world.user = [7, 8, 7, 8, 7, 8, 8, 1, 8, 1, 8, 1])
      | .error _ => false) = true := by decide

/-- C24.  The rule of node `x` at timestep `t` receives: no input for `timesteps`; for an input list, item `t - 1`
indexed by the node's label if the item is a sequence, and item `t - 1` itself otherwise. -/
theorem C24_input_routing (cfg : Config L A V I σ κ) (hs : cfg.Safe) (hp : cfg.PackOk)
    (log : σ → List (NodeCtx L A V I)) (hl : LogSpec cfg log) (init : Option (Conds L V)) (r : Nat)
    (w : World L A σ) (hw : log w.user = []) (n : Net L A) (hr : w.heap[r]? = some n) (fuel : Nat)
    (res : Evolved L A V σ) (h : evolve fuel cfg init r w = .ok res) :
    ∀ c ∈ log res.world.user,
      (∀ T, cfg.input = .timesteps T → c.input = none) ∧
      (∀ items, cfg.input = .list items →
        (∃ i, items[c.t - 1]? = some (some (.scalar i)) ∧ c.input = some i) ∨
        (∃ xs k, items[c.t - 1]? = some (some (.seq xs)) ∧ cfg.labelIdx c.node = some k ∧ pyGet xs k = .ok c.input) ∨
        (items[c.t - 1]? = some (some .timestep) ∧ c.input = none)) := by
  obtain ⟨hist, segs, o1, o2, o3, o4, o5⟩ := contexts_any cfg hs hp log hl init r w hw n hr fuel res h
  intro c hc
  rw [o3, List.mem_flatten] at hc
  obtain ⟨seg, hseg, hcs⟩ := hc
  obtain ⟨k, hk⟩ := List.mem_iff_getElem?.1 hseg
  obtain ⟨S, N, inp, s1, s2⟩ := o5 k seg hk
  obtain ⟨x, hx, hsc⟩ := s2 c hcs
  obtain ⟨B, _, hin⟩ := s1.prev
  have hsi := hsc.input
  constructor
  · intro T hT
    rw [hT] at hin
    simp only [InputAt] at hin
    subst hin
    exact hsi
  · intro items hit
    rw [hit] at hin
    simp only [InputAt] at hin
    rw [hsc.t]
    cases inp with
    | timestep => right; right; exact ⟨hin, hsi⟩
    | scalar i => left; exact ⟨i, hin, hsi⟩
    | seq xs =>
      right; left
      obtain ⟨j, h1, h2⟩ := hsi
      exact ⟨xs, j, hin, by rw [hsc.node]; exact h1, h2⟩

/-- A sequence is indexed by the node, a number is passed to all nodes. -/
example :
    let cfg : Config Nat Int Int Int (List Int) Unit := { Ex.base with
      rule := some (fun ctx u => .ok (⟨0, [], []⟩, u ++ [ctx.input.getD 99])),
      input := .list [some (.seq [some 5, none, some 6]), some (.scalar 8)] }
    (match evolve 3 cfg (some (.list [1, 0, 0])) 0 ⟨[Ex.tri], []⟩ with
      | .ok res => decide (res.world.user = [5, 99, 6, 8, 8, 8])
      | .error _ => false) = true := by decide

/-- C25, with the hypothesis `FreshNbrs` (see `C25_stale_neighbours` for what goes wrong without it).  The neighbour
list of every context is the one of the network in force: its rotation system entry, or the sources of its in-edges.

Full property: the same without `FreshNbrs`; it is false. -/
theorem C25_neighbours_partial (cfg : Config L A V I σ κ) (hs : cfg.Safe) (hp : cfg.PackOk) (hfresh : cfg.FreshNbrs)
    (log : σ → List (NodeCtx L A V I)) (hl : LogSpec cfg log) (init : Option (Conds L V)) (r : Nat)
    (w : World L A σ) (hw : log w.user = []) (n : Net L A) (hr : w.heap[r]? = some n) (fuel : Nat)
    (res : Evolved L A V σ) (h : evolve fuel cfg init r w = .ok res) :
    ∃ hist, Observes cfg res hist ∧ hist[0]? = some (initDict cfg init, n) ∧
      ∀ c ∈ log res.world.user, ∃ N, inForce cfg.order hist c.t = some N ∧ c.node ∈ N.labels ∧
        (∀ rs, N.rotation = some rs → rs.get? c.node = some c.neighbours) ∧
        (N.rotation = none → N.inEdges c.node = .ok c.connections ∧ c.neighbours = c.connections.keys) := by
  obtain ⟨hist, segs, o1, o2, o3, o4, o5⟩ := contexts cfg hs hp hfresh log hl init r w hw n hr fuel res h
  refine ⟨hist, o1, o2, ?_⟩
  intro c hc
  rw [o3, List.mem_flatten] at hc
  obtain ⟨seg, hseg, hcs⟩ := hc
  obtain ⟨k, hk⟩ := List.mem_iff_getElem?.1 hseg
  obtain ⟨S, N, inp, s1, s2, _, _⟩ := o5 k seg hk
  obtain ⟨x, hx, hsc⟩ := s2 c hcs
  refine ⟨N, by rw [hsc.t]; exact s1.net, by rw [hsc.node]; exact hx, ?_, ?_⟩
  · intro rs hrs
    have := hsc.neighbours
    simp only [specNbrs, hrs] at this
    rw [hsc.node]; exact this
  · intro hnone
    have := hsc.neighbours
    simp only [specNbrs, hnone] at this
    have hconn := hsc.connections
    obtain ⟨nd, hnd, hinc⟩ := Option.map_eq_some_iff.1 hconn
    rw [hsc.node]
    refine ⟨inEdges_ok_iff.2 hconn, ?_⟩
    simp only [hnd, Option.map_some, Option.some.injEq] at this
    rw [← this, hinc]

/-! ## C26 -/

/-- C26.  With an activity rule, `evolve` raises the size error when the number of initial conditions is not the number
of nodes, whatever the rule and the other arguments (so the rule is not involved); and the check is exact: asked for
one timestep, `evolve` succeeds iff the numbers agree or there is no rule. -/
theorem C26_size_mismatch (cfg : Config L A V I σ κ) (hs : cfg.Safe) (hp : cfg.PackOk) (hin : cfg.input ≠ .neither)
    (init : Option (Conds L V)) (r : Nat) (w : World L A σ) (n : Net L A) (hr : w.heap[r]? = some n) (fuel : Nat) :
    (cfg.rule.isSome = true → (initDict cfg init).length ≠ n.size →
      evolve fuel cfg init r w = .error (.exception "too few intial conditions specified")) ∧
    ((∃ res, evolve (fuel + 1) { cfg with input := .timesteps 1 } init r w = .ok res) ↔
      ((initDict cfg init).length = n.size ∨ cfg.rule = none)) := by
  constructor
  · intro h1 h2
    rw [evolve_error_iff hs hp hr]
    unfold vevolve vcheck
    cases hi : cfg.input with
    | neither => exact absurd hi hin
    | timesteps T => simp [h1, h2]
    | list items => simp [h1, h2]
    | fn f => simp [h1, h2]
  · have hs' : Config.Safe { cfg with input := .timesteps 1 } := hs
    have hp' : Config.PackOk { cfg with input := .timesteps 1 } := hp
    have key : (∃ v, vevolve (fuel + 1) { cfg with input := .timesteps 1 } init n w.user = .ok v) ↔
        ((initDict cfg init).length = n.size ∨ cfg.rule = none) := by
      unfold vevolve vcheck
      simp only
      have hid : initDict { cfg with input := .timesteps 1 } init = initDict cfg init := by cases init <;> rfl
      rw [hid]
      by_cases hc : (initDict cfg init).length ≠ n.size ∧ cfg.rule.isSome = true
      · rw [if_pos hc]
        simp only
        constructor
        · rintro ⟨v, hv⟩; cases hv
        · rintro (h | h)
          · exact absurd h hc.1
          · simp [h] at hc
      · rw [if_neg hc]
        simp only [vloop, vinit, callInput]
        constructor
        · intro _
          by_cases hl : (initDict cfg init).length = n.size
          · exact Or.inl hl
          · right
            cases hru : cfg.rule with
            | none => rfl
            | some f => exact absurd ⟨hl, by simp [hru]⟩ hc
        · intro _; exact ⟨_, rfl⟩
    rw [← key]
    constructor
    · rintro ⟨res, h⟩
      obtain ⟨v, ext, e1, _⟩ := evolve_ok hs' hp' hr h
      exact ⟨v, e1⟩
    · rintro ⟨v, h⟩
      obtain ⟨res, ext, e1, _⟩ := evolve_of_vevolve hs' hp' hr h
      exact ⟨res, e1⟩

/-- Two initial conditions for three nodes; the rule would raise another exception. -/
example : Ex.runActs 3 { Ex.base with rule := some (fun _ _ => .error .keyError), input := .timesteps 3 } [1, 0] Ex.tri =
    .error (.exception "too few intial conditions specified") := by decide

end Verif
