import Verif.Props.Evolution
/-! # Properties C16 and C25 (counterexample): update orders and stale neighbour lists -/

namespace Verif

variable {L A V I σ κ : Type} [DecidableEq L] [DecidableEq V] [DecidableEq κ]

theorem topoV_topStep {cfg : Config L A V I σ κ} {F : TopCtx L A V → Except Err (TopOut L A)} (hF : cfg.PureTop F)
    {t : Nat} {acts : Dict L V} {B B' : Net L A} {u u' : σ} (h : topoV cfg t acts B [] [] u = .ok (B', u')) :
    TopStep cfg F t B acts B' := by
  have hrule : ∀ B0, (if cfg.copyNetwork = true then B.copy cfg.labelCodec cfg.attrCodec = .ok B0 else B0 = B) →
      ruleV (fun ctx u => match F ctx with
        | .error e => .error e
        | .ok o => .ok (o, u)) t acts B0 u = .ok (B', u') → TopStep cfg F t B acts B' := by
    intro B0 hB h
    unfold ruleV at h
    cases hq : F ⟨B0, acts, t⟩ with
    | error e => simp [hq] at h
    | ok o =>
      simp only [hq] at h
      cases hv : o.value with
      | none => simp [hv] at h
      | some m =>
        simp only [hv, Except.ok.injEq, Prod.mk.injEq] at h
        obtain ⟨rfl, _⟩ := h
        refine ⟨B0, o, hB, hq, ?_⟩
        unfold TopOut.value at hv
        cases hret : o.ret with
        | none => simp [hret] at hv
        | same =>
          simp only [hret] at hv
          split at hv
          · cases hv
          · rename_i hne
            simp only [Option.some.injEq] at hv
            refine ⟨Or.inr ⟨rfl, hv⟩, ?_⟩
            rw [← hv]; intro e; simp [e] at hne
        | fresh m2 =>
          simp only [hret] at hv
          split at hv
          · cases hv
          · rename_i hne
            simp only [Option.some.injEq] at hv
            refine ⟨Or.inl (by rw [hv]), ?_⟩
            rw [← hv]; intro e; simp [e] at hne
  unfold Config.PureTop at hF
  unfold topoV reqsV at h
  simp only [List.isEmpty_nil, Bool.and_self, if_true, hF] at h
  by_cases hc : cfg.copyNetwork = true
  · simp only [hc, if_true] at h
    cases hcp : B.copy cfg.labelCodec cfg.attrCodec with
    | error e => simp [hcp] at h
    | ok n2 => simp only [hcp] at h; exact hrule n2 (by simp [hc, hcp]) h
  · simp only [hc, Bool.false_eq_true, if_false] at h
    exact hrule B (by simp [hc]) h

/-- C16, with the hypothesis `Safe` (the network is copied, or `F` does not change it in place).  With a stateless
activity rule `G` and a stateless topology rule `F`, without memoization, consecutive timesteps `(S, B)` and `(S', B')`
of a finished run satisfy the equations of the update order.  The activity equation includes the perturbation, if any.

Full property: the same for every `F` and every `copy_network`; it is false, see `C16_shared_network`. -/
theorem C16_update_order_partial (cfg : Config L A V I σ κ) (hs : cfg.Safe) (hp : cfg.PackOk)
    (G : NodeCtx L A V I → Except Err V) (hG : cfg.PureRule G)
    (P : Option (PertCtx L V I → Except Err V)) (hP : cfg.PurePert P) (hm : cfg.memoize = false)
    (F : TopCtx L A V → Except Err (TopOut L A)) (hF : cfg.PureTop F) (ht : cfg.TopNodup) (init : Option (Conds L V))
    (r : Nat) (w : World L A σ) (n : Net L A) (hr : w.heap[r]? = some n) (hn : n.labels.Nodup) (fuel : Nat)
    (res : Evolved L A V σ) (h : evolve fuel cfg init r w = .ok res) :
    ∃ hist, Observes cfg res hist ∧ hist[0]? = some (initDict cfg init, n) ∧
      ∀ t, 1 ≤ t → t < hist.length → ∃ S B S' B' inp, hist[t - 1]? = some (S, B) ∧ hist[t]? = some (S', B') ∧
        InputAt cfg.input t S B inp ∧
        match cfg.order with
        | .activitiesFirst => ActStep cfg G P t (specPast cfg hist t) inp B S S' ∧ TopStep cfg F t B S' B'
        | .topologyFirst => TopStep cfg F t B S B' ∧ ActStep cfg G P t (specPast cfg hist t) inp B' S S'
        | .synchronous => TopStep cfg F t B S B' ∧ ActStep cfg G P t (specPast cfg hist t) inp B S S' := by
  obtain ⟨v, ext, e1, e2, e3⟩ := evolve_ok hs hp hr h
  refine ⟨v.hist, e3, hist_head e1, ?_⟩
  obtain ⟨_, v1, u1, hreach, hc, rfl⟩ := vevolve_ok e1
  intro t ht1 ht2
  obtain ⟨S, N, inp, S', ⟨⟨B, a1, a1'⟩, a2⟩, a3, a4, a5⟩ :=
    hreach.pure hG hP hm hn ht ht1 ht2
  obtain ⟨⟨S'', B'⟩, hB', hSS⟩ := Option.map_eq_some_iff.1 a3
  simp only at hSS
  subst hSS
  have hact : ActStep cfg G P t (specPast cfg v1.hist t) inp N S S'' := by
    refine ⟨a4, fun x hx => ?_⟩
    obtain ⟨ctx, v0, v', b1, b2, b3, b4⟩ := a5 x hx
    refine ⟨ctx, v0, v', b1, b2, ?_, b4⟩
    cases P <;> exact b3
  refine ⟨S, B, S'', B', inp, a1, hB', a1', ?_⟩
  obtain ⟨va, vb, inp', u', hr', hc', hst, _, hlen, htake, hget⟩ := hreach.transition (by simpa [vinit] using ht1) ht2
  have hlast := hr'.last (by simp [vinit])
  have hprev : v1.hist[t - 1]? = some (va.acts, va.net) := by
    rw [List.getLast?_eq_getElem?, hlen, htake, List.getElem?_take, if_pos (by omega)] at hlast
    exact hlast
  rw [hprev] at a1
  rw [hget] at hB'
  simp only [Option.some.injEq, Prod.mk.injEq] at a1 hB'
  obtain ⟨rfl, rfl⟩ := a1
  obtain ⟨rfl, rfl⟩ := hB'
  simp only [inForce, hget, hprev] at a2
  obtain ⟨past, _, _, hcase⟩ := vstep_ok hst
  simp only [hlen] at hcase
  rcases hcase with ⟨ho, acc, c1, c2, c3, c4, _⟩ | ⟨ho, acc, u, c1, c2, c3, c4, _, c6⟩ | ⟨ho, acc, u, c1, c2, c3, c4, _, c6⟩
  · obtain ⟨q1, q2⟩ := computeActs_noReqs hG.noReqs c1
    rw [q1, q2, ← c3] at c2
    simp [ho, hprev] at a2
    rw [ho]
    exact ⟨by rw [a2]; exact hact, topoV_topStep hF c2⟩
  · simp [ho, hget] at a2
    rw [ho]
    exact ⟨topoV_topStep hF c1, by rw [a2]; exact hact⟩
  · simp [ho, hprev] at a2
    rw [ho]
    exact ⟨topoV_topStep hF c1, by rw [a2]; exact hact⟩

/-- A topology rule that adds the edge `0 → 2` if node 0 is active, otherwise leaves the network. -/
def Ex.growRule (ctx : TopCtx Nat Int Int) : Except Err (TopOut Nat Int) :=
  .ok ⟨if (ctx.activities.get? 0).getD 0 > 0 then (Net.exec (.addEdge 0 2 []) ctx.net).2 else ctx.net, .same⟩

/-- Runs the sum rule with `growRule` and shows activities and edge counts. -/
def Ex.orderRun (o : UpdateOrder) (copy : Bool := true) : Option (List (Option (List (Nat × Int))) × List (Option Nat)) :=
  let cfg : Config Nat Int Int Int (List Int) Unit := { Ex.base with
    rule := some (pureRule (fun c => .ok c.neighbourActs.sum)), order := o, input := .timesteps 3, copyNetwork := copy,
    topology := some (fun ctx u => match Ex.growRule ctx with | .error e => .error e | .ok o => .ok (o, u)) }
  match evolve 9 cfg (some (.list [1, 0, 0])) 0 ⟨[Net.run Net.empty [.addEdge 0 1 [], .addEdge 1 2 [], .addEdge 2 0 []]], []⟩ with
  | .error _ => none
  | .ok res => some ((List.range 3).map (fun t => res.acts cfg t), (List.range 3).map (fun t => (res.net cfg t).map (fun m => m.edges.length)))

/-- The three orders give three different runs. -/
example :
    Ex.orderRun .activitiesFirst = some ([some [(0, 1), (1, 0), (2, 0)], some [(0, 0), (1, 1), (2, 0)],
      some [(0, 0), (1, 0), (2, 1)]], [some 3, some 3, some 3]) ∧
    Ex.orderRun .topologyFirst = some ([some [(0, 1), (1, 0), (2, 0)], some [(0, 0), (1, 1), (2, 1)],
      some [(0, 1), (1, 0), (2, 1)]], [some 3, some 4, some 4]) ∧
    Ex.orderRun .synchronous = some ([some [(0, 1), (1, 0), (2, 0)], some [(0, 0), (1, 1), (2, 0)],
      some [(0, 0), (1, 0), (2, 1)]], [some 3, some 4, some 4]) := ⟨by decide +kernel, by decide +kernel, by decide +kernel⟩

/-- C16 without `Safe` is false: with `copy_network=False` the rule `growRule` changes the network in place, and under
`SYNCHRONOUS` the activity rule of the same timestep sees the changed network.  The first timestep gives node 2 the
activity 1, as under `TOPOLOGY_FIRST`, although `G` on the network of timestep 0 gives it 0. -/
theorem C16_shared_network :
    Ex.orderRun .synchronous true ≠ Ex.orderRun .synchronous false ∧
    (Ex.orderRun .synchronous true).map (fun r => r.1[1]?) = some (some (some [(0, 0), (1, 1), (2, 0)])) ∧
    (Ex.orderRun .synchronous false).map (fun r => r.1[1]?) = some (some (some [(0, 0), (1, 1), (2, 1)])) :=
  ⟨by decide +kernel, by decide +kernel, by decide +kernel⟩

/-! ## C25: the counterexample -/

/-- A rule for node 2 to remove itself at timestep 1; every invocation logs its timestep, node and number of
neighbours. -/
def Ex.leaveRule (ctx : NodeCtx Nat Int Int Int) (u : List Int) : Except Err (RuleOut Nat Int Int × List Int) :=
  .ok (⟨0, [], if ctx.node = 2 ∧ ctx.t = 1 then [2] else []⟩, u ++ [(ctx.t : Int), (ctx.node : Int), (ctx.neighbours.length : Int)])

/-- A topology rule that removes the edge `0 → 1` at timestep 2. -/
def Ex.cutLater (ctx : TopCtx Nat Int Int) (u : List Int) : Except Err (TopOut Nat Int × List Int) :=
  .ok (⟨if ctx.t = 2 then (Net.exec (.removeEdge 0 1) ctx.net).2 else ctx.net, .same⟩, u)

/-- The configuration of the counterexample. -/
def Ex.staleCfg : Config Nat Int Int Int (List Int) Unit :=
  { Ex.base with rule := some Ex.leaveRule, topology := some Ex.cutLater, input := .timesteps 4 }

/-- The edges of the networks of all timesteps, and the log. -/
def Ex.staleRun : Option (List (Option (List (Nat × Nat))) × List Int) :=
  match evolve 9 Ex.staleCfg (some (.list [0, 0, 0])) 0
      ⟨[Net.run Net.empty [.addEdge 0 1 [], .addNode 2 []]], []⟩ with
  | .error _ => none
  | .ok res => some ((List.range 4).map (fun t => (res.net Ex.staleCfg t).map (fun m => m.edges.map (fun e => (e.1, e.2.1)))),
      res.world.user)

/-- C25 without `FreshNbrs` is false: after a timestep with a removal, a network with a topology rule keeps the
neighbourhood map of that timestep.  At timestep 3 the network in force (that of timestep 2) has no edge, yet node 1 is
told it has one neighbour. -/
theorem C25_stale_neighbours :
    Ex.staleRun = some ([some [(0, 1)], some [(0, 1)], some [], some []],
      [1, 0, 0, 1, 1, 1, 1, 2, 0, 2, 0, 0, 2, 1, 1, 3, 0, 0, 3, 1, 1]) := by decide +kernel

end Verif
