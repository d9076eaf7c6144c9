import Verif.Proofs.InvRun
/-! # Runs with a stateless activity rule and a topology rule (`TOPOLOGY_FIRST`) -/

namespace Verif
open MG
section
variable {L A V I σ κ : Type} [DecidableEq L] [DecidableEq V] [DecidableEq κ]

/-- **Runs with both rules, topology first.**  The activities are computed on the new network `g'`. -/
theorem top_first_run {cfg : Config L A V I σ κ} {G : NodeCtx L A V I → Except Err V}
    {R : TopCtx L A V → σ → Except Err (TopOut L A × σ)} {T : Nat}
    (hrule : cfg.PureRule G) (hpert : cfg.perturbation = none) (hmemo : cfg.memoize = false) (hord : cfg.order = .topologyFirst)
    (htop : cfg.topology = some R) (hcopy : cfg.copyNetwork = true)
    (hin : cfg.input = .timesteps T) (hpersA : cfg.persistActs = true) (hpers : cfg.persistNet = true) (hcomp : cfg.compression = false)
    {Inv : Nat → Dict L V → MG L A → σ → Prop}
    (hstep : ∀ t d g u, t + 1 < T → Inv t d g u → ∃ (F : L → V) (o : TopOut L A) (g' : MG L A) (u' : σ), g'.labels.Nodup ∧
      (ofMG g).copy cfg.labelCodec cfg.attrCodec = .ok (ofMG { g with rot := none }) ∧
      R ⟨ofMG { g with rot := none }, d, t + 1⟩ u = .ok (o, u') ∧ o.value = some (ofMG g') ∧
      (∀ past, ∀ x ∈ g'.labels, nodeVal cfg G none (t + 1) .timestep d (ofMG g') past none x = .ok (F x)) ∧
      Inv (t + 1) (g'.labels.map (fun x => (x, F x))) g' u')
    (hne : ∀ t d g u, Inv t d g u → g.nodes ≠ [] ∧ d ≠ [])
    (hT : 1 ≤ T) {init : Option (Conds L V)} {r : Nat} {w : World L A σ} {g0 : MG L A}
    (hlen : (initDict cfg init).length = (ofMG g0).size)
    (hr : w.heap[r]? = some (ofMG g0)) (h0 : Inv 0 (initDict cfg init) g0 w.user) {fuel : Nat} (hf : T ≤ fuel) :
    ∃ (res : Evolved L A V σ) (ds : Nat → Dict L V) (gs : Nat → MG L A), evolve fuel cfg init r w = .ok res ∧ res.states.length = T ∧
      (∀ t, t < T → res.acts cfg t = some (ds t) ∧ res.net cfg t = some (ofMG (gs t)) ∧ ∃ u, Inv t (ds t) (gs t) u) := by
  have hs : cfg.Safe := Or.inl hcopy
  have hpk : cfg.PackOk := fun h => by rw [hcomp] at h; cases h
  have hP : cfg.PurePert none := hpert
  obtain ⟨res, ds, ns, us, e1, e2, e3, e4, e5, e6, e7, e8⟩ := inv_run hs hpk (n0 := ofMG g0)
    (Inv := fun t d n u => ∃ g, n = ofMG g ∧ Inv t d g u) (Rel := fun _ _ _ _ _ _ _ => True) (T := T) (init := init) (r := r) (w := w) (by
      rintro t d n u ht ⟨g, rfl, hi⟩
      obtain ⟨F, o, g', u', c0, c1, c2, c3, c4, c5⟩ := hstep t d g u ht hi
      refine ⟨.timestep, u, g'.labels.map (fun x => (x, F x)), ofMG g', u', ?_, ?_, ⟨g', rfl, c5⟩, trivial⟩
      · simp only [callInput, hin]
        rw [if_neg (by omega)]
      · intro ks past memo
        refine ⟨u', ?_⟩
        simp only [hord]
        refine ⟨?_, ?_⟩
        · unfold topoV reqsV ruleV
          simp only [List.isEmpty_nil, Bool.and_self, if_true, htop, hcopy, c1, c2, c3]
        · have hk : keptMap cfg (ofMG g0) = none := by simp [keptMap, htop]
          rw [hk, computeActs_pure hrule hP hmemo ks (t + 1) .timestep _ _ (by rw [labels_ofMG]; exact c0), labels_ofMG,
            mapE_total (c4 past)]
          simp only
          congr 2
          induction g'.labels with
          | nil => rfl
          | cons x l ih => simp [ih])
    (by
      rintro d n u ⟨g, rfl, hi⟩
      refine ⟨u, ?_⟩
      simp only [callInput, hin]
      simp)
    hT (by rw [hin]; intro hc; cases hc) hlen hr ⟨g0, rfl, h0⟩ hf
  have hg : ∀ t, ∃ g, t < T → ns t = ofMG g ∧ Inv t (ds t) g (us t) := by
    intro t
    by_cases ht : t < T
    · obtain ⟨g, h1, h2⟩ := e6 t ht
      exact ⟨g, fun _ => ⟨h1, h2⟩⟩
    · exact ⟨g0, fun h => absurd h ht⟩
  obtain ⟨gs, hgs⟩ := Classical.axiomOfChoice hg
  refine ⟨res, ds, gs, e1, by rw [e5.len]; simp, ?_⟩
  intro t ht
  obtain ⟨k1, k2⟩ := hgs t ht
  have hq : ((List.range T).map (fun s => (ds s, ns s)))[t]? = some (ds t, ofMG (gs t)) := by
    rw [List.getElem?_map, List.getElem?_range ht, ← k1]
    rfl
  obtain ⟨hn1, hn2⟩ := hne t _ _ _ k2
  have hnon : (ofMG (gs t)).nodes.isEmpty = false := by
    simp only [ofMG]
    cases h : (gs t).nodes with
    | nil => exact absurd h hn1
    | cons a l => rfl
  have hnon' : (ds t).isEmpty = false := by
    cases h : ds t with
    | nil => exact absurd h hn2
    | cons a l => rfl
  refine ⟨?_, ?_, _, k2⟩
  · rw [e5.acts t, hq]
    simp only [Option.bind_some, obsActs, hpersA, hcomp, hnon', or_true, and_self, if_true, Bool.false_eq_true, if_false]
  · rw [e5.nets t, hq]
    simp only [Option.bind_some, obsNet, hpers, hcomp, hnon, or_true, and_self, if_true, Bool.false_eq_true, if_false]

end
end Verif
