import Verif.Proofs.Requests
import Verif.Props.Evolution
/-! # Property C22: nodes added and removed by activity rules -/

namespace Verif
variable {L A V I σ κ : Type} [DecidableEq L] [DecidableEq V] [DecidableEq κ]

theorem safe_of_no_topology {cfg : Config L A V I σ κ} (ht : cfg.topology = none) : cfg.Safe :=
  Or.inr (fun rule hr => by rw [ht] at hr; cases hr)

omit [DecidableEq V] [DecidableEq κ] in
theorem activity_keys {outs : List (L × RuleOut L A V)} {B B' : Net L A} (ho : outs.map Prod.fst = B.labels)
    (hn : B.labels.Nodup)     (hself : ∀ p ∈ outs, ∀ z ∈ p.2.removed, z = p.1)
    (hl : B'.labels = MG.dedup (B.labels.filter (fun x => decide (x ∉ allRemoved outs)) ++
      (allAdded outs).flatMap (fun r => r.label :: r.links.map Prod.fst)))
    (hlinks : ∀ r ∈ allAdded outs, ∀ q ∈ r.links, (q.1 ∈ B.labels ∧ q.1 ∉ allRemoved outs) ∨
      ∃ r' ∈ allAdded outs, r'.label = q.1) (y : L) :
    (specActivity outs y).isSome = true ↔ y ∈ B'.labels := by
  have hmem : y ∈ B'.labels ↔ (y ∈ B.labels ∧ y ∉ allRemoved outs) ∨ ∃ r ∈ allAdded outs, r.label = y := by
    rw [hl, mem_dedup, List.mem_append, List.mem_filter, List.mem_flatMap]
    simp only [decide_eq_true_eq, List.mem_cons, List.mem_map]
    constructor
    · rintro (h | ⟨r, hr, h | ⟨q, hq, rfl⟩⟩)
      · exact Or.inl h
      · exact Or.inr ⟨r, hr, h.symm⟩
      · exact hlinks r hr q hq
    · rintro (h | ⟨r, hr, h⟩)
      · exact Or.inl h
      · exact Or.inr ⟨r, hr, Or.inl h.symm⟩
  rw [hmem]
  unfold specActivity
  cases hf : (allAdded outs).reverse.find? (fun r => decide (r.label = y)) with
  | some r =>
    have h1 := List.find?_some hf
    have h2 := List.mem_of_find?_eq_some hf
    simp only [decide_eq_true_eq] at h1
    simp only [Option.isSome_some, true_iff]
    exact Or.inr ⟨r, by simpa using h2, h1⟩
  | none =>
    have hno : ¬ ∃ r ∈ allAdded outs, r.label = y := by
      rintro ⟨r, hr, he⟩
      rw [List.find?_eq_none] at hf
      exact hf r (by simpa using hr) (by simpa using he)
    simp only [hno, or_false]
    cases hg : outs.find? (fun p => decide (p.1 = y)) with
    | none =>
      simp only [Option.bind_none, Option.isSome_none, Bool.false_eq_true, false_iff]
      rintro ⟨h1, _⟩
      rw [← ho, List.mem_map] at h1
      obtain ⟨p, hp, he⟩ := h1
      rw [List.find?_eq_none] at hg
      exact hg p hp (by simpa using he)
    | some p =>
      have h1 := List.find?_some hg
      have h2 := List.mem_of_find?_eq_some hg
      simp only [decide_eq_true_eq] at h1
      have hB : y ∈ B.labels := by rw [← ho, List.mem_map]; exact ⟨p, h2, h1⟩
      by_cases hr : y ∈ p.2.removed
      · simp only [Option.bind_some, hr, if_true, Option.isSome_none, Bool.false_eq_true, false_iff]
        exact fun h => h.2 (List.mem_flatMap.2 ⟨p, h2, hr⟩)
      · simp only [Option.bind_some, hr, if_false, Option.isSome_some, true_iff]
        refine ⟨hB, ?_⟩
        intro hall
        obtain ⟨p', hp', hy'⟩ := List.mem_flatMap.1 hall
        have hyp : y = p'.1 := hself p' hp' y hy'
        apply hr
        have e1 := Dict.get?_of_mem (d := outs) (k := y) (v := p.2) (by rw [← ho] at hn; exact hn) (by rw [← h1]; exact h2)
        have e2 := Dict.get?_of_mem (d := outs) (k := y) (v := p'.2) (by rw [← ho] at hn; exact hn) (by rw [hyp]; exact hp')
        rw [e1] at e2
        simp only [Option.some.injEq] at e2
        rw [e2]; exact hy'

/-- C22.  `ACTIVITIES_FIRST`, a stateless rule `R` that may raise and may request additions and removals, no topology
rule, perturbation or memoization; the network is made by any sequence of calls, and its content survives msgpack.
In every timestep from `(S, B)` to `(S', B')`, with `outs` the outcomes of `R` for the nodes of `B`:
the activities are those of `specActivity`; without requests the network stays; with requests it is `B` minus the
removed nodes plus the added ones with their outgoing edges; and if nodes remove only themselves and links go to
nodes that exist afterwards, then `S'` is defined exactly on the nodes of `B'`.  The caller's network is unchanged. -/
theorem C22_requests (cfg : Config L A V I σ κ) (hp : cfg.PackOk) (hord : cfg.order = .activitiesFirst)
    (R : NodeCtx L A V I → Except Err (RuleOut L A V)) (hR : cfg.ReqRule R) (ht : cfg.topology = none)
    (hP : cfg.perturbation = none) (hm : cfg.memoize = false) (hcl : cfg.labelCodec.Exact) (hca : cfg.attrCodec.Exact)
    (init : Option (Conds L V)) (r : Nat) (w : World L A σ) (ops : List (Net.Op L A))
    (hr : w.heap[r]? = some (Net.run Net.empty ops)) (fuel : Nat) (res : Evolved L A V σ)
    (h : evolve fuel cfg init r w = .ok res) :
    res.world.heap[r]? = some (Net.run Net.empty ops) ∧
    ∃ hist, Observes cfg res hist ∧ hist[0]? = some (initDict cfg init, Net.run Net.empty ops) ∧
      ∀ t, 1 ≤ t → t < hist.length → ∃ S B S' B' inp outs, hist[t - 1]? = some (S, B) ∧ hist[t]? = some (S', B') ∧
        InputAt cfg.input t S B inp ∧ Outcomes cfg R t (specPast cfg hist t) inp B S outs ∧
        (∀ y, S'.get? y = specActivity outs y) ∧
        (allAdded outs = [] ∧ allRemoved outs = [] → B' = B) ∧
        (¬ (allAdded outs = [] ∧ allRemoved outs = []) →
          Requested cfg.actAttr (allAdded outs) (allRemoved outs) B B') ∧
        ((∀ p ∈ outs, ∀ z ∈ p.2.removed, z = p.1) →
          (∀ q ∈ allAdded outs, ∀ l ∈ q.links, (l.1 ∈ B.labels ∧ l.1 ∉ allRemoved outs) ∨
            ∃ q' ∈ allAdded outs, q'.label = l.1) →
          ∀ y, y ∈ S'.keys ↔ y ∈ B'.labels) := by
  obtain ⟨v, ext, e1, e2, e3⟩ := evolve_ok (safe_of_no_topology ht) hp hr h
  constructor
  · rw [e2]
    simp only
    rw [List.getElem?_append_left (List.getElem?_eq_some_iff.1 hr).1]
    exact hr
  refine ⟨v.hist, e3, hist_head e1, ?_⟩
  obtain ⟨_, v1, u1, hreach, hc, rfl⟩ := vevolve_ok e1
  intro t ht1 ht2
  obtain ⟨va, vb, inp, u', hr', hc', hst, _, hlen, htake, hget⟩ := hreach.transition (by simpa [vinit] using ht1) ht2
  have hlast := hr'.last (by simp [vinit])
  have hprev : v1.hist[t - 1]? = some (va.acts, va.net) := by
    rw [List.getLast?_eq_getElem?, hlen, htake, List.getElem?_take, if_pos (by omega)] at hlast
    exact hlast
  obtain ⟨g, hg1, hg2⟩ := hr'.isMG hcl hca ht (by
    obtain ⟨a, b⟩ := run_empty ops
    exact ⟨_, by simpa [vinit] using a, b⟩)
  obtain ⟨past, hpast, _, hcase⟩ := vstep_ok hst
  simp only [hlen] at hcase hpast
  have hps : past = specPast cfg v1.hist t := by
    have := pastV_spec cfg v1.hist t ht1 (Nat.le_of_lt ht2)
    rw [← htake, hpast] at this
    simpa using this
  subst hps
  have hn : va.net.labels.Nodup := by rw [hg1, labels_ofMG]; exact hg2.nodup
  have hnm : NmapOk va.nmap va.net := by
    rcases Reach.nmapOk (Or.inl ht) hr' with ⟨_, h⟩ | ⟨h, _⟩
    · exact Or.inr h
    · exact absurd ht h
  rcases hcase with ⟨_, acc, c1, c2, c3, _⟩ | ⟨ho, _⟩ | ⟨ho, _⟩
  · obtain ⟨outs, o1, o2, o3, o4⟩ := computeActs_reqs hR hP hm hn hnm c1
    rw [o2, o3] at c2
    have hEx : (allAdded outs = [] ∧ allRemoved outs = [] → vb.net = va.net) ∧
        (¬ (allAdded outs = [] ∧ allRemoved outs = []) →
          Requested cfg.actAttr (allAdded outs) (allRemoved outs) va.net vb.net) := by
      constructor
      · rintro ⟨x1, x2⟩
        rw [x1, x2] at c2
        exact (topoV_nil ht c2).1
      · intro hne
        unfold topoV at c2
        rw [hg1] at c2 ⊢
        simp only [ht] at c2
        cases hq : reqsV cfg (ofMG g) (allAdded outs) (allRemoved outs) with
        | error e => simp [hq] at c2
        | ok n' =>
          simp only [hq, Except.ok.injEq, Prod.mk.injEq] at c2
          rw [← c2.1]
          refine (reqsV_requested hcl hca hg2 ?_ hq).2
          simpa using hne
    refine ⟨va.acts, va.net, vb.acts, vb.net, inp, outs, hprev, hget, ?_, o1, ?_, hEx.1, hEx.2, ?_⟩
    · have := inputAt_of_call hc'
      rw [hlen] at this; exact this
    · rw [c3]; exact o4
    · intro hself hlinks y
      rw [← Dict.isSome_get?_iff, c3, o4]
      refine activity_keys o1.1 hn hself ?_ hlinks y
      by_cases hne : allAdded outs = [] ∧ allRemoved outs = []
      · rw [hEx.1 hne, hne.1, hne.2]
        simp only [List.flatMap_nil, List.append_nil, List.not_mem_nil, not_false_eq_true, decide_true]
        rw [List.filter_eq_self.2 (by simp), dedup_of_nodup hn]
      · exact (hEx.2 hne).labels
  · rw [hord] at ho; cases ho
  · rw [hord] at ho; cases ho

/-! ## Concrete runs -/

/-- At timestep 1 node 0 requests a node 3 linked to 1, and node 2 removes itself. -/
def Ex.reqR (ctx : NodeCtx Nat Int Int Int) : Except Err (RuleOut Nat Int Int) :=
  .ok ⟨ctx.neighbourActs.sum, if ctx.node = 0 ∧ ctx.t = 1 then [⟨5, [(1, [("w", 7)])], 3⟩] else [],
    if ctx.node = 2 ∧ ctx.t = 1 then [2] else []⟩

/-- At timestep 1 node 0 removes node 2. -/
def Ex.foreignR (ctx : NodeCtx Nat Int Int Int) : Except Err (RuleOut Nat Int Int) :=
  .ok ⟨1, [], if ctx.node = 0 ∧ ctx.t = 1 then [2] else []⟩

/-- At timestep 1 node 0 requests a node 3 linked to the missing node 9. -/
def Ex.danglingR (ctx : NodeCtx Nat Int Int Int) : Except Err (RuleOut Nat Int Int) :=
  .ok ⟨1, if ctx.node = 0 ∧ ctx.t = 1 then [⟨5, [(9, [])], 3⟩] else [], []⟩

/-- A configuration with the rule `R`. -/
def Ex.reqCfg (R : NodeCtx Nat Int Int Int → Except Err (RuleOut Nat Int Int)) (T : Int) :
    Config Nat Int Int Int (List Int) Unit :=
  { Ex.base with rule := some (reqRule R), input := .timesteps T }

/-- Activities, labels and edges of the states of a run on the network `0 → 1, 1 → 2, 2 → 0`, and the number of edges
of the caller's network afterwards. -/
def Ex.reqRun (cfg : Config Nat Int Int Int (List Int) Unit) :
    Except Err (List (List (Nat × Int) × List Nat × List (Nat × Nat)) × Nat) :=
  match evolve 9 cfg (some (.list [1, 2, 3])) 0
      ⟨[Net.run Net.empty [.addEdge 0 1 [], .addEdge 1 2 [], .addEdge 2 0 []]], []⟩ with
  | .error e => .error e
  | .ok res => .ok ((List.range res.states.length).map (fun t => ((res.acts cfg t).getD [],
      ((res.net cfg t).map Net.labels).getD [], ((res.net cfg t).map (fun m => m.edges.map (fun e => (e.1, e.2.1)))).getD [])),
      (res.world.deref 0).edges.length)

/-- The hypotheses of `C22_requests` hold for `reqR`, and its run has an addition and a removal. -/
example : (Ex.reqCfg Ex.reqR 3).PackOk ∧ (Ex.reqCfg Ex.reqR 3).order = .activitiesFirst ∧
    (Ex.reqCfg Ex.reqR 3).ReqRule Ex.reqR ∧ (Ex.reqCfg Ex.reqR 3).topology = none ∧
    (Ex.reqCfg Ex.reqR 3).perturbation = none ∧ (Ex.reqCfg Ex.reqR 3).memoize = false ∧
    (Ex.reqCfg Ex.reqR 3).labelCodec.Exact ∧ (Ex.reqCfg Ex.reqR 3).attrCodec.Exact :=
  ⟨(fun h => by cases h), rfl, rfl, rfl, rfl, rfl, fun _ => ⟨rfl, rfl⟩, fun _ => ⟨rfl, rfl⟩⟩

example : (match Ex.reqRun (Ex.reqCfg Ex.reqR 3) with
    | .error _ => false
    | .ok x => decide (x = ([([(0, 1), (1, 2), (2, 3)], [0, 1, 2], [(2, 0), (0, 1), (1, 2)]),
      ([(0, 3), (1, 1), (3, 5)], [0, 1, 3], [(0, 1), (3, 1)]),
      ([(0, 0), (1, 8), (3, 0)], [0, 1, 3], [(0, 1), (3, 1)])], 3))) = true := by decide +kernel

/-- A node removed by another node keeps an activity in that timestep: the activity map has a key that is no node. -/
theorem C22_foreign_removal_keeps_activity : (match Ex.reqRun (Ex.reqCfg Ex.foreignR 2) with
    | .error _ => false
    | .ok x => decide (x.1[1]? = some ([(0, 1), (1, 1), (2, 1)], [0, 1], [(0, 1)]))) = true := by decide +kernel

/-- A link to a missing node creates a node without activity, and the next timestep raises `KeyError`. -/
theorem C22_dangling_link_raises :
    (match Ex.reqRun (Ex.reqCfg Ex.danglingR 2) with | .error _ => false | .ok _ => true) = true ∧
    (match Ex.reqRun (Ex.reqCfg Ex.danglingR 3) with | .error e => decide (e = .keyError) | .ok _ => false) = true :=
  ⟨by decide +kernel, by decide +kernel⟩

/-- A node that removes itself under a perturbation makes `evolve` raise `KeyError`. -/
theorem C22_perturbed_removal_raises :
    (match Ex.reqRun { Ex.reqCfg Ex.reqR 2 with perturbation := some (fun c u => .ok (c.activity, u)) } with
      | .error e => decide (e = .keyError) | .ok _ => false) = true := by decide +kernel

end Verif
