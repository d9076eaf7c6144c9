import Verif.Proofs.Run
import Verif.Proofs.Copy
/-! # Runs with a topology rule -/

namespace Verif
section
variable {L A V I σ κ : Type} [DecidableEq L] [DecidableEq V] [DecidableEq κ]

/-- An invariant of the timesteps holds after `T` timesteps. -/
theorem vloop_inv {cfg : Config L A V I σ κ} {T : Nat} (hin : cfg.input = .timesteps T) (ks : KeySpec L A V I κ)
    {P : Nat → VLoop L A V σ κ → Prop}
    (hstep : ∀ t v, t + 1 < T → v.hist.length = t + 1 → P t v →
      ∃ v', vstep cfg ks .timestep v = .ok v' ∧ v'.hist.length = t + 2 ∧ P (t + 1) v')
    (k : Nat) : ∀ (fuel t : Nat) (v : VLoop L A V σ κ), k < fuel → t + 1 + k = T → v.hist.length = t + 1 → P t v →
      ∃ v', vloop cfg ks fuel v = .ok v' ∧ v'.hist.length = T ∧ P (T - 1) v' := by
  induction k with
  | zero =>
    intro fuel t v hf hT hl hP
    obtain ⟨f, rfl⟩ : ∃ f, fuel = f + 1 := ⟨fuel - 1, by omega⟩
    refine ⟨v, ?_, by omega, by rw [show T - 1 = t by omega]; exact hP⟩
    unfold vloop callInput
    rw [hin]
    simp only [show ((v.hist.length : Int) = (T : Int)) from by omega, if_true]
  | succ k ih =>
    intro fuel t v hf hT hl hP
    obtain ⟨f, rfl⟩ : ∃ f, fuel = f + 1 := ⟨fuel - 1, by omega⟩
    obtain ⟨v', h1, h2, h3⟩ := hstep t v (by omega) hl hP
    obtain ⟨v'', h4, h5, h6⟩ := ih f (t + 1) v' (by omega) (by omega) h2 h3
    refine ⟨v'', ?_, h5, h6⟩
    unfold vloop callInput
    rw [hin]
    simp only [show ¬ ((v.hist.length : Int) = (T : Int)) from by omega, if_false]
    rw [h1]
    exact h4

/-- The networks of the history, and an invariant of the last one. -/
structure NetsAre (Inv : Nat → MG L A → σ → Prop) (Rel : Nat → MG L A → MG L A → Prop) (g0 : MG L A) (t : Nat)
    (v : VLoop L A V σ κ) (gs : Nat → MG L A) : Prop where
  nets : v.hist.map Prod.snd = (List.range (t + 1)).map (fun s => ofMG (gs s))
  net : v.net = ofMG (gs t)
  inv : Inv t (gs t) v.user
  start : gs 0 = g0
  invs : ∀ s, s ≤ t → ∃ u, Inv s (gs s) u
  rel : ∀ s, s < t → Rel s (gs s) (gs (s + 1))

/-- **Runs with only a topology rule.**  `Inv t` holds of the network and the user's state in state `t`, and implies
that the topology rule makes a network related to it by `Rel`, for which it holds again. -/
theorem topology_run {cfg : Config L A V I σ κ} {R : TopCtx L A V → σ → Except Err (TopOut L A × σ)} {T : Nat}
    (hrule : cfg.rule = none) (htop : cfg.topology = some R) (hcopy : cfg.copyNetwork = true)
    (hin : cfg.input = .timesteps T) (hpers : cfg.persistNet = true) (hcomp : cfg.compression = false)
    {Inv : Nat → MG L A → σ → Prop} {Rel : Nat → MG L A → MG L A → Prop}
    (hstep : ∀ t acts g u, t + 1 < T → Inv t g u → ∃ o g' u',
      (ofMG g).copy cfg.labelCodec cfg.attrCodec = .ok (ofMG { g with rot := none }) ∧
      R ⟨ofMG { g with rot := none }, acts, t + 1⟩ u = .ok (o, u') ∧ o.value = some (ofMG g') ∧
      Inv (t + 1) g' u' ∧ Rel t g g')
    (hne : ∀ t g u, Inv t g u → g.nodes ≠ [])
    (hT : 1 ≤ T) {init : Option (Conds L V)} {r : Nat} {w : World L A σ} {g0 : MG L A}
    (hr : w.heap[r]? = some (ofMG g0)) (h0 : Inv 0 g0 w.user) {fuel : Nat} (hf : T ≤ fuel) :
    ∃ (res : Evolved L A V σ) (gs : Nat → MG L A), evolve fuel cfg init r w = .ok res ∧ res.states.length = T ∧ gs 0 = g0 ∧
      (∀ t, t < T → res.net cfg t = some (ofMG (gs t)) ∧ ∃ u, Inv t (gs t) u) ∧
      ∀ t, t + 1 < T → Rel t (gs t) (gs (t + 1)) := by
  have hs : cfg.Safe := Or.inl hcopy
  have hpk : cfg.PackOk := fun h => by rw [hcomp] at h; cases h
  have hck : vcheck cfg (initDict cfg init) (ofMG g0) = .ok () := by
    unfold vcheck
    rw [hin, hrule]
    simp
  have hone : ∀ ks t v, t + 1 < T → v.hist.length = t + 1 → (∃ gs, NetsAre Inv Rel g0 t v gs) →
      ∃ v', vstep cfg ks .timestep v = .ok v' ∧ v'.hist.length = t + 2 ∧ ∃ gs, NetsAre Inv Rel g0 (t + 1) v' gs := by
    rintro ks t v ht hl ⟨gs, h⟩
    have hcompA : ∀ acts n past nmap memo u, computeActs cfg ks v.hist.length .timestep acts n past nmap memo u =
        .ok ⟨[], [], [], memo, u⟩ := by
      intro acts n past nmap memo u
      unfold computeActs
      rw [hrule]
    have htopo : ∀ acts, ∃ g' u', topoV cfg v.hist.length acts v.net [] [] v.user = .ok (ofMG g', u') ∧
        Inv (t + 1) g' u' ∧ Rel t (gs t) g' := by
      intro acts
      obtain ⟨o, g', u', c1, c2, c3, c4, c5⟩ := hstep t acts (gs t) v.user ht h.inv
      refine ⟨g', u', ?_, c4, c5⟩
      unfold topoV reqsV ruleV
      simp only [List.isEmpty_nil, Bool.and_self, if_true, htop, hcopy, h.net, c1, hl, c2, c3]
    have hext : ∀ (acts : Dict L V) g' u' (v' : VLoop L A V σ κ), Inv (t + 1) g' u' → Rel t (gs t) g' →
        v'.hist = v.hist ++ [(acts, ofMG g')] → v'.net = ofMG g' → v'.user = u' →
        v'.hist.length = t + 2 ∧ ∃ gs, NetsAre Inv Rel g0 (t + 1) v' gs := by
      intro acts g' u' v' k1 k2 k3 k4 k5
      refine ⟨by rw [k3]; simp [hl], fun s => if s = t + 1 then g' else gs s, ?_, ?_, ?_, ?_, ?_, ?_⟩
      · rw [k3, List.map_append, h.nets, List.range_succ (n := t + 1), List.map_append, List.map_singleton, List.map_singleton,
          if_pos rfl]
        congr 1
        apply List.map_congr_left
        intro s hs
        rw [List.mem_range] at hs
        rw [if_neg (by omega)]
      · simp only [if_true]; exact k4
      · simp only [if_true]; rw [k5]; exact k1
      · rw [if_neg (by omega)]; exact h.start
      · intro s hs
        by_cases e : s = t + 1
        · simp only [e, if_true]; exact ⟨u', k1⟩
        · simp only [if_neg e]; exact h.invs s (by omega)
      · intro s hs
        by_cases e : s = t
        · subst e
          simp only [if_neg (show ¬ s = s + 1 by omega), if_true]
          exact k2
        · simp only [if_neg (show ¬ s = t + 1 by omega), if_neg (show ¬ s + 1 = t + 1 by omega)]
          exact h.rel s (by omega)
    unfold vstep
    rw [pastV_eq cfg _ _ (by omega) (by simp [obsHist])]
    simp only [hcompA]
    cases cfg.order with
    | activitiesFirst =>
      obtain ⟨g', u', k1, k2, k3⟩ := htopo []
      rw [k1]
      exact ⟨_, rfl, hext _ g' u' _ k2 k3 rfl rfl rfl⟩
    | topologyFirst =>
      obtain ⟨g', u', k1, k2, k3⟩ := htopo v.acts
      rw [k1]
      exact ⟨_, rfl, hext _ g' u' _ k2 k3 rfl rfl rfl⟩
    | synchronous =>
      obtain ⟨g', u', k1, k2, k3⟩ := htopo v.acts
      rw [k1]
      exact ⟨_, rfl, hext _ g' u' _ k2 k3 rfl rfl rfl⟩
  obtain ⟨v, hv, hvl, gs, hgs⟩ := vloop_inv hin (effectiveKey cfg (ofMG g0)) (hone _) (T - 1) fuel 0
    (vinit cfg (initDict cfg init) (ofMG g0) w.user) (by omega) (by omega) rfl
    ⟨fun _ => g0, by simp [vinit], rfl, h0, rfl, fun s hs => ⟨w.user, by rw [show s = 0 by omega]; exact h0⟩, by omega⟩
  have hev : vevolve fuel cfg init (ofMG g0) w.user = .ok v := by
    unfold vevolve
    rw [hck]
    exact hv
  obtain ⟨res, ext, e1, e2, e3⟩ := evolve_of_vevolve hs hpk hr hev
  refine ⟨res, gs, e1, by rw [e3.len, hvl], hgs.start, ?_, fun t ht => hgs.rel t (by omega)⟩
  intro t ht
  obtain ⟨u, hu⟩ := hgs.invs t (by omega)
  refine ⟨?_, u, hu⟩
  have hnet : (v.hist.map Prod.snd)[t]? = some (ofMG (gs t)) := by
    rw [hgs.nets, List.getElem?_map, List.getElem?_range (by omega)]
    rfl
  rw [List.getElem?_map, Option.map_eq_some_iff] at hnet
  obtain ⟨q, hq, hqc⟩ := hnet
  have hnon : (ofMG (gs t)).nodes.isEmpty = false := by
    have := hne t _ u hu
    simp only [ofMG]
    cases h : (gs t).nodes with
    | nil => exact absurd h this
    | cons a l => rfl
  rw [e3.nets t, hq]
  simp only [Option.bind_some, obsNet, hpers, hcomp, hqc, hnon, or_true, and_self, if_true, Bool.false_eq_true,
    if_false]

/-- A topology rule that raises at the first timestep. -/
theorem topology_fail {cfg : Config L A V I σ κ} {R : TopCtx L A V → σ → Except Err (TopOut L A × σ)} {T : Nat}
    (hrule : cfg.rule = none) (htop : cfg.topology = some R) (hcopy : cfg.copyNetwork = true)
    (hin : cfg.input = .timesteps T) (hcomp : cfg.compression = false)
    {init : Option (Conds L V)} {r : Nat} {w : World L A σ} {n n' : Net L A} {e : Err}
    (hc : n.copy cfg.labelCodec cfg.attrCodec = .ok n') (hR : ∀ acts, R ⟨n', acts, 1⟩ w.user = .error e)
    (hT : 2 ≤ T) (hr : w.heap[r]? = some n) {fuel : Nat} (hf : 1 ≤ fuel) : evolve fuel cfg init r w = .error e := by
  have hpk : cfg.PackOk := fun h => by rw [hcomp] at h; cases h
  rw [evolve_error_iff (Or.inl hcopy) hpk hr]
  have hck : vcheck cfg (initDict cfg init) n = .ok () := by
    unfold vcheck
    rw [hin, hrule]
    simp
  obtain ⟨f, rfl⟩ : ∃ f, fuel = f + 1 := ⟨fuel - 1, by omega⟩
  unfold vevolve vloop callInput
  rw [hck, hin]
  have hlen : (vinit cfg (initDict cfg init) n w.user : VLoop L A V σ κ).hist.length = 1 := rfl
  simp only [hlen, show ¬ (((1 : Nat) : Int) = (T : Int)) from by omega, if_false]
  have htopo : ∀ acts, topoV cfg 1 acts n [] [] w.user = .error e := by
    intro acts
    unfold topoV reqsV ruleV
    simp only [List.isEmpty_nil, Bool.and_self, if_true, htop, hcopy, hc, hR]
  have hcompA : ∀ acts past nmap memo, computeActs cfg (effectiveKey cfg n) 1 .timestep acts n past nmap memo w.user =
      .ok ⟨[], [], [], memo, w.user⟩ := by
    intro acts past nmap memo
    unfold computeActs
    rw [hrule]
  have hstep : vstep cfg (effectiveKey cfg n) .timestep (vinit cfg (initDict cfg init) n w.user : VLoop L A V σ κ) = .error e := by
    unfold vstep
    rw [pastV_eq cfg _ _ (by omega) (by simp [obsHist])]
    have hn : (vinit cfg (initDict cfg init) n w.user : VLoop L A V σ κ).net = n := rfl
    have hu : (vinit cfg (initDict cfg init) n w.user : VLoop L A V σ κ).user = w.user := rfl
    simp only [hlen, hn, hu, hcompA, htopo]
    cases cfg.order <;> rfl
  rw [hstep]

end
end Verif
