import Verif.Proofs.TopologyRun
import Verif.Proofs.EvolutionTotal
/-! # Runs with a stateless activity rule and a topology rule (`ACTIVITIES_FIRST`) -/

namespace Verif
open MG
section
variable {L A V I σ κ : Type} [DecidableEq L] [DecidableEq V] [DecidableEq κ]

/-- The history of such a run. -/
structure JointAre (Inv : Nat → Dict L V → MG L A → σ → Prop) (d0 : Dict L V) (g0 : MG L A) (t : Nat)
    (v : VLoop L A V σ κ) (ds : Nat → Dict L V) (gs : Nat → MG L A) : Prop where
  hist : v.hist = (List.range (t + 1)).map (fun s => (ds s, ofMG (gs s)))
  net : v.net = ofMG (gs t)
  acts : v.acts = ds t
  nmap : v.nmap = none
  inv : Inv t (ds t) (gs t) v.user
  start : ds 0 = d0 ∧ gs 0 = g0
  invs : ∀ s, s ≤ t → ∃ u, Inv s (ds s) (gs s) u

/-- The context of a node of a valid network with known activities. -/
theorem nodeVal_ofMG {cfg : Config L A V I σ κ} {G : NodeCtx L A V I → Except Err V} {g : MG L A} (hg : g.Valid) (hrot : g.rot = none)
    {d : Dict L V} {f : L → V} (hd : ∀ x ∈ g.labels, d.get? x = some (f x)) (t : Nat) (past : Option (List (Option (Dict L V)))) {x : L} {y : V}
    (hx : x ∈ g.labels) (hG : ∀ ctx : NodeCtx L A V I, ctx.node = x → ctx.t = t → ctx.activities = d → ctx.neighbours = sources g.edges x →
      ctx.neighbourActs = (sources g.edges x).map f → ctx.connections = incomingOf g.edges x → ctx.current = f x → ctx.input = none →
      ctx.past = past → G ctx = .ok y) :
    nodeVal cfg G none t .timestep d (ofMG g) past none x = .ok y := by
  obtain ⟨a, h1, h2⟩ := get?_ofMG_of_mem hx
  have hnb : specNbrs (ofMG g) x = some (sources g.edges x) := by
    unfold specNbrs
    have : (ofMG g).rotation = none := hrot
    rw [this, h2]
    simp only [Option.map_some, nodeOf]
    rw [keys_incomingOf]
  have hctx : mkCtx cfg t .timestep d (ofMG g) past none x =
      .ok ⟨x, t, d, sources g.edges x, (sources g.edges x).map f, incomingOf g.edges x, f x, past, none⟩ := by
    rw [mkCtx_ok_iff (Or.inl rfl)]
    refine ⟨rfl, rfl, rfl, hnb, ?_, ?_, hd x hx, rfl, rfl⟩
    · rw [List.map_map]
      apply List.map_congr_left
      intro y hy
      exact (hd y (mem_labels_of_mem_sources hg hy).1).symm
    · rw [h2]; rfl
  unfold nodeVal
  rw [hctx]
  simp only
  rw [hG _ rfl rfl rfl rfl rfl rfl rfl rfl rfl]

/-- **Runs with a stateless activity rule and a topology rule.**  `Inv t` holds of the activities, the network and the user's state in state `t`. -/
theorem joint_run {cfg : Config L A V I σ κ} {G : NodeCtx L A V I → Except Err V}
    {R : TopCtx L A V → σ → Except Err (TopOut L A × σ)} {T : Nat}
    (hrule : cfg.PureRule G) (hpert : cfg.perturbation = none) (hmemo : cfg.memoize = false) (hord : cfg.order = .activitiesFirst)
    (htop : cfg.topology = some R) (hcopy : cfg.copyNetwork = true)
    (hin : cfg.input = .timesteps T) (hpersA : cfg.persistActs = true) (hpers : cfg.persistNet = true) (hcomp : cfg.compression = false)
    {Inv : Nat → Dict L V → MG L A → σ → Prop}
    (hstep : ∀ t d g u, t + 1 < T → Inv t d g u → ∃ (F : L → V) (o : TopOut L A) (g' : MG L A) (u' : σ), g.labels.Nodup ∧
      (∀ past, ∀ x ∈ g.labels, nodeVal cfg G none (t + 1) .timestep d (ofMG g) past none x = .ok (F x)) ∧
      (ofMG g).copy cfg.labelCodec cfg.attrCodec = .ok (ofMG { g with rot := none }) ∧
      R ⟨ofMG { g with rot := none }, g.labels.map (fun x => (x, F x)), t + 1⟩ u = .ok (o, u') ∧ o.value = some (ofMG g') ∧
      Inv (t + 1) (g.labels.map (fun x => (x, F x))) g' u')
    (hne : ∀ t d g u, Inv t d g u → g.nodes ≠ [] ∧ d ≠ [])
    (hT : 1 ≤ T) {init : Option (Conds L V)} {r : Nat} {w : World L A σ} {g0 : MG L A}
    (hlen : (initDict cfg init).length = (ofMG g0).size)
    (hr : w.heap[r]? = some (ofMG g0)) (h0 : Inv 0 (initDict cfg init) g0 w.user) {fuel : Nat} (hf : T ≤ fuel) :
    ∃ (res : Evolved L A V σ) (ds : Nat → Dict L V) (gs : Nat → MG L A), evolve fuel cfg init r w = .ok res ∧ res.states.length = T ∧
      ds 0 = initDict cfg init ∧ gs 0 = g0 ∧
      (∀ t, t < T → res.acts cfg t = some (ds t) ∧ res.net cfg t = some (ofMG (gs t)) ∧ ∃ u, Inv t (ds t) (gs t) u) := by
  have hs : cfg.Safe := Or.inl hcopy
  have hpk : cfg.PackOk := fun h => by rw [hcomp] at h; cases h
  have hck : vcheck cfg (initDict cfg init) (ofMG g0) = .ok () := by
    unfold vcheck
    rw [hin]
    simp [hlen]
  have hP : cfg.PurePert none := hpert
  have hone : ∀ ks t v, t + 1 < T → v.hist.length = t + 1 → (∃ ds gs, JointAre Inv (initDict cfg init) g0 t v ds gs) →
      ∃ v', vstep cfg ks .timestep v = .ok v' ∧ v'.hist.length = t + 2 ∧ ∃ ds gs, JointAre Inv (initDict cfg init) g0 (t + 1) v' ds gs := by
    rintro ks t v ht hl ⟨ds, gs, h⟩
    obtain ⟨F, o, g', u', c0, c1, c2, c3, c4, c5⟩ := hstep t (ds t) (gs t) v.user ht h.inv
    have hcompA : ∀ past, computeActs cfg ks v.hist.length .timestep v.acts v.net past v.nmap v.memo v.user =
        .ok ⟨(gs t).labels.map (fun x => (x, F x)), [], [], v.memo, v.user⟩ := by
      intro past
      rw [h.net, h.acts, h.nmap, hl, computeActs_pure hrule hP hmemo ks (t + 1) .timestep _ _ (by rw [labels_ofMG]; exact c0), labels_ofMG,
        mapE_total (c1 past)]
      simp only
      congr 2
      induction (gs t).labels with
      | nil => rfl
      | cons x l ih => simp [ih]
    have htopo : topoV cfg v.hist.length ((gs t).labels.map (fun x => (x, F x))) v.net [] [] v.user = .ok (ofMG g', u') := by
      unfold topoV reqsV ruleV
      simp only [List.isEmpty_nil, Bool.and_self, if_true, htop, hcopy, h.net, c2, hl, c3, c4]
    unfold vstep
    rw [pastV_eq cfg _ _ (by omega) (by simp [obsHist])]
    simp only [hord, hcompA, htopo]
    refine ⟨_, rfl, by simp [hl], fun s => if s = t + 1 then (gs t).labels.map (fun x => (x, F x)) else ds s,
      fun s => if s = t + 1 then g' else gs s, ?_, ?_, ?_, ?_, ?_, ?_, ?_⟩
    · simp only
      rw [h.hist, List.range_succ (n := t + 1), List.map_append, List.map_singleton, if_pos rfl, if_pos rfl]
      congr 1
      apply List.map_congr_left
      intro s hs
      rw [List.mem_range] at hs
      rw [if_neg (by omega), if_neg (by omega)]
    · simp
    · simp
    · simp [h.nmap]
    · simpa using c5
    · exact ⟨by rw [if_neg (by omega)]; exact h.start.1, by rw [if_neg (by omega)]; exact h.start.2⟩
    · intro s hs
      by_cases e : s = t + 1
      · simp only [e, if_true]; exact ⟨u', c5⟩
      · simp only [if_neg e]; exact h.invs s (by omega)
  obtain ⟨v, hv, hvl, ds, gs, hgs⟩ := vloop_inv hin (effectiveKey cfg (ofMG g0)) (hone _) (T - 1) fuel 0
    (vinit cfg (initDict cfg init) (ofMG g0) w.user) (by omega) (by omega) rfl
    ⟨fun _ => initDict cfg init, fun _ => g0, by simp [vinit], rfl, rfl, by simp [vinit, htop], h0, ⟨rfl, rfl⟩,
      fun s hs => ⟨w.user, by rw [show s = 0 by omega]; exact h0⟩⟩
  have hev : vevolve fuel cfg init (ofMG g0) w.user = .ok v := by
    unfold vevolve
    rw [hck]
    exact hv
  obtain ⟨res, ext, e1, e2, e3⟩ := evolve_of_vevolve hs hpk hr hev
  refine ⟨res, ds, gs, e1, by rw [e3.len, hvl], hgs.start.1, hgs.start.2, ?_⟩
  intro t ht
  obtain ⟨u, hu⟩ := hgs.invs t (by omega)
  have hq : v.hist[t]? = some (ds t, ofMG (gs t)) := by
    rw [hgs.hist, List.getElem?_map, List.getElem?_range (by omega)]
    rfl
  obtain ⟨hn1, hn2⟩ := hne t _ _ u hu
  have hnon : (ofMG (gs t)).nodes.isEmpty = false := by
    simp only [ofMG]
    cases h : (gs t).nodes with
    | nil => exact absurd h hn1
    | cons a l => rfl
  have hnon' : (ds t).isEmpty = false := by
    cases h : ds t with
    | nil => exact absurd h hn2
    | cons a l => rfl
  refine ⟨?_, ?_, u, hu⟩
  · rw [e3.acts t, hq]
    simp only [Option.bind_some, obsActs, hpersA, hcomp, hnon', or_true, and_self, if_true, Bool.false_eq_true, if_false]
  · rw [e3.nets t, hq]
    simp only [Option.bind_some, obsNet, hpers, hcomp, hnon, or_true, and_self, if_true, Bool.false_eq_true, if_false]

/-- A topology rule that raises at the first timestep. -/
theorem joint_fail {cfg : Config L A V I σ κ} {G : NodeCtx L A V I → Except Err V}
    {R : TopCtx L A V → σ → Except Err (TopOut L A × σ)} {T : Nat}
    (hrule : cfg.PureRule G) (hpert : cfg.perturbation = none) (hmemo : cfg.memoize = false) (hord : cfg.order = .activitiesFirst)
    (htop : cfg.topology = some R) (hcopy : cfg.copyNetwork = true) (hin : cfg.input = .timesteps T) (hcomp : cfg.compression = false)
    {init : Option (Conds L V)} {r : Nat} {w : World L A σ} {g0 : MG L A} {e : Err} {F : L → V}
    (hlen : (initDict cfg init).length = (ofMG g0).size) (hnd : g0.labels.Nodup)
    (hF : ∀ past, ∀ x ∈ g0.labels, nodeVal cfg G none 1 .timestep (initDict cfg init) (ofMG g0) past none x = .ok (F x))
    (hc : (ofMG g0).copy cfg.labelCodec cfg.attrCodec = .ok (ofMG { g0 with rot := none }))
    (hR : R ⟨ofMG { g0 with rot := none }, g0.labels.map (fun x => (x, F x)), 1⟩ w.user = .error e)
    (hT : 2 ≤ T) (hr : w.heap[r]? = some (ofMG g0)) {fuel : Nat} (hf : 1 ≤ fuel) : evolve fuel cfg init r w = .error e := by
  have hpk : cfg.PackOk := fun h => by rw [hcomp] at h; cases h
  have hP : cfg.PurePert none := hpert
  rw [evolve_error_iff (Or.inl hcopy) hpk hr]
  have hck : vcheck cfg (initDict cfg init) (ofMG g0) = .ok () := by
    unfold vcheck
    rw [hin]
    simp [hlen]
  obtain ⟨f, rfl⟩ : ∃ f, fuel = f + 1 := ⟨fuel - 1, by omega⟩
  unfold vevolve vloop callInput
  rw [hck, hin]
  have hl : (vinit cfg (initDict cfg init) (ofMG g0) w.user : VLoop L A V σ κ).hist.length = 1 := rfl
  simp only [hl, show ¬ (((1 : Nat) : Int) = (T : Int)) from by omega, if_false]
  have htopo : topoV cfg 1 (g0.labels.map (fun x => (x, F x))) (ofMG g0) [] [] w.user = .error e := by
    unfold topoV reqsV ruleV
    simp only [List.isEmpty_nil, Bool.and_self, if_true, htop, hcopy, hc, hR]
  have hcompA : ∀ past, computeActs cfg (effectiveKey cfg (ofMG g0)) 1 .timestep (initDict cfg init) (ofMG g0) past none [] w.user =
      .ok ⟨g0.labels.map (fun x => (x, F x)), [], [], [], w.user⟩ := by
    intro past
    rw [computeActs_pure hrule hP hmemo _ 1 .timestep _ _ (by rw [labels_ofMG]; exact hnd), labels_ofMG, mapE_total (hF past)]
    simp only
    congr 2
    induction g0.labels with
    | nil => rfl
    | cons x l ih => simp [ih]
  have hstep : vstep cfg (effectiveKey cfg (ofMG g0)) .timestep (vinit cfg (initDict cfg init) (ofMG g0) w.user : VLoop L A V σ κ) = .error e := by
    unfold vstep
    rw [pastV_eq cfg _ _ (by omega) (by simp [obsHist])]
    have e1 : (vinit cfg (initDict cfg init) (ofMG g0) w.user : VLoop L A V σ κ).net = ofMG g0 := rfl
    have e2 : (vinit cfg (initDict cfg init) (ofMG g0) w.user : VLoop L A V σ κ).user = w.user := rfl
    have e3 : (vinit cfg (initDict cfg init) (ofMG g0) w.user : VLoop L A V σ κ).acts = initDict cfg init := rfl
    have e4 : (vinit cfg (initDict cfg init) (ofMG g0) w.user : VLoop L A V σ κ).nmap = none := by simp [vinit, htop]
    have e5 : (vinit cfg (initDict cfg init) (ofMG g0) w.user : VLoop L A V σ κ).memo = [] := rfl
    simp only [hl, e1, e2, e3, e4, e5, hord, hcompA, htopo]
  rw [hstep]

end
end Verif
