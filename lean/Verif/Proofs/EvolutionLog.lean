import Verif.Proofs.EvolutionPure
/-! # What a whole run hands to the rule -/

namespace Verif
section
variable {L A V I σ κ : Type} [DecidableEq L] [DecidableEq V] [DecidableEq κ]

theorem inputAt_of_call {src : InputSrc L A V I σ} {t : Nat} {S : Dict L V} {B : Net L A} {u u' : σ} {inp : Inp I}
    (h : callInput src t S B u = .ok (some inp, u')) : InputAt src t S B inp := by
  unfold callInput at h
  unfold InputAt
  cases src with
  | neither => simp at h
  | timesteps k =>
    simp only [Except.ok.injEq, Prod.mk.injEq] at h
    split at h
    · simp at h
    · simpa [eq_comm] using h.1
  | list items =>
    simp only [Except.ok.injEq, Prod.mk.injEq] at h
    cases hi : items[t - 1]? with
    | none => simp [hi] at h
    | some o => simp [hi] at h; simp only; rw [hi, h.1]
  | fn f => exact ⟨u, u', h⟩

theorem vevolve_ok {cfg : Config L A V I σ κ} {fuel : Nat} {init : Option (Conds L V)} {n : Net L A} {u : σ}
    {v : VLoop L A V σ κ} (h : vevolve fuel cfg init n u = .ok v) :
    vcheck cfg (initDict cfg init) n = .ok () ∧
    ∃ v1 u1, Reach cfg (effectiveKey cfg n) (vinit cfg (initDict cfg init) n u) v1 ∧
      callInput cfg.input v1.hist.length v1.acts v1.net v1.user = .ok (none, u1) ∧ v = { v1 with user := u1 } := by
  unfold vevolve at h
  cases hc : vcheck cfg (initDict cfg init) n with
  | error e => simp [hc] at h
  | ok x =>
    simp only [hc] at h
    exact ⟨rfl, vloop_ok h⟩

theorem obsHist_take (cfg : Config L A V I σ κ) (hist : List (Dict L V × Net L A)) (t : Nat) :
    obsHist cfg (hist.take t) = (obsHist cfg hist).take t := by
  apply List.ext_getElem?
  intro i
  simp only [obsHist, List.getElem?_mapIdx, List.getElem?_take]
  by_cases h : i < t <;> simp [h]

theorem length_obsHist (cfg : Config L A V I σ κ) (hist : List (Dict L V × Net L A)) :
    (obsHist cfg hist).length = hist.length := by simp [obsHist]

/-- Past activities in terms of the whole history. -/
theorem pastV_spec (cfg : Config L A V I σ κ) (hist : List (Dict L V × Net L A)) (t : Nat) (h1 : 1 ≤ t)
    (h2 : t ≤ hist.length) : pastV cfg (obsHist cfg (hist.take t)) t = .ok (specPast cfg hist t) := by
  rw [pastV_eq cfg _ t h1 (by rw [length_obsHist]; simp; omega)]
  unfold specPast
  congr 1
  by_cases hp : cfg.past.isEmpty = true
  · simp [hp]
  · simp only [hp, Bool.false_eq_true, if_false, Option.some.injEq]
    apply List.map_congr_left
    intro i hi
    rw [List.mem_range] at hi
    unfold pastVal
    by_cases hn : (t : Int) - 1 - (cfg.past.length - (i : Int)) < 0
    · simp [hn]
    · rw [if_neg hn, if_neg hn, obsHist_take, List.getElem?_take, if_pos (by omega)]

theorem topoV_nil {cfg : Config L A V I σ κ} (ht : cfg.topology = none) {t : Nat} {acts : Dict L V} {n n' : Net L A}
    {u u' : σ} (h : topoV cfg t acts n [] [] u = .ok (n', u')) : n' = n ∧ u' = u := by
  unfold topoV reqsV at h
  simp only [List.isEmpty_nil, Bool.and_self, if_true, ht, Except.ok.injEq, Prod.mk.injEq] at h
  exact ⟨h.1.symm, h.2.symm⟩

/-- Everything known about the timestep that leads from `va` to `vb`. -/
theorem step_facts {cfg : Config L A V I σ κ} {ks : KeySpec L A V I κ} {va vb : VLoop L A V σ κ} {inp : Inp I}
    (hlen : 1 ≤ va.hist.length)
    (hnm : cfg.topology = none ∧ va.nmap = some (neighbourhoodMap va.net) ∨ cfg.topology ≠ none ∧ va.nmap = none)
    (hs : vstep cfg ks inp va = .ok vb) :
    vb.hist = va.hist ++ [(vb.acts, vb.net)] ∧ ∃ N acc u0, (N = if cfg.order = .topologyFirst then vb.net else va.net) ∧
      NmapOk va.nmap N ∧
      computeActs cfg ks va.hist.length inp va.acts N (specPast cfg va.hist va.hist.length) va.nmap va.memo u0 = .ok acc ∧
      vb.acts = acc.curr ∧ vb.memo = acc.memo ∧
      (∀ log : σ → List (NodeCtx L A V I), LogSpec cfg log → log u0 = log va.user ∧ log vb.user = log acc.user) := by
  obtain ⟨past, hp, hh, hc⟩ := vstep_ok hs
  have hp' : past = specPast cfg va.hist va.hist.length := by
    have := pastV_spec cfg va.hist va.hist.length hlen (Nat.le_refl _)
    rw [List.take_length] at this
    rw [this] at hp
    simpa using hp.symm
  subst hp'
  refine ⟨hh, ?_⟩
  have hnmN : ∀ N : Net L A, (cfg.topology = none → N = va.net) → NmapOk va.nmap N := by
    intro N hN
    rcases hnm with ⟨h1, h2⟩ | ⟨_, h2⟩
    · right; rw [h2, hN h1]
    · left; exact h2
  rcases hc with ⟨ho, acc, c1, c2, c3, c4, _⟩ | ⟨ho, acc, u, c1, c2, c3, c4, _, c6⟩ | ⟨ho, acc, u, c1, c2, c3, c4, _, c6⟩
  · refine ⟨va.net, acc, va.user, by simp [ho], hnmN _ (fun _ => rfl), c1, c3, c4, ?_⟩
    intro log hl
    exact ⟨rfl, topoV_log hl c2⟩
  · refine ⟨vb.net, acc, u, by simp [ho], hnmN _ (fun ht => (topoV_nil ht c1).1), c2, c3, c4, ?_⟩
    intro log hl
    exact ⟨topoV_log hl c1, by rw [c6]⟩
  · refine ⟨va.net, acc, u, by simp [ho], hnmN _ (fun _ => rfl), c2, c3, c4, ?_⟩
    intro log hl
    exact ⟨topoV_log hl c1, by rw [c6]⟩

/-- `step_facts` without any assumption on the neighbourhood map. -/
theorem step_facts_any {cfg : Config L A V I σ κ} {ks : KeySpec L A V I κ} {va vb : VLoop L A V σ κ} {inp : Inp I}
    (hlen : 1 ≤ va.hist.length)
    (hs : vstep cfg ks inp va = .ok vb) :
    vb.hist = va.hist ++ [(vb.acts, vb.net)] ∧ ∃ N acc u0, (N = if cfg.order = .topologyFirst then vb.net else va.net) ∧
      computeActs cfg ks va.hist.length inp va.acts N (specPast cfg va.hist va.hist.length) va.nmap va.memo u0 = .ok acc ∧
      vb.acts = acc.curr ∧ vb.memo = acc.memo ∧
      (∀ log : σ → List (NodeCtx L A V I), LogSpec cfg log → log u0 = log va.user ∧ log vb.user = log acc.user) := by
  obtain ⟨past, hp, hh, hc⟩ := vstep_ok hs
  have hp' : past = specPast cfg va.hist va.hist.length := by
    have := pastV_spec cfg va.hist va.hist.length hlen (Nat.le_refl _)
    rw [List.take_length] at this
    rw [this] at hp
    simpa using hp.symm
  subst hp'
  refine ⟨hh, ?_⟩
  rcases hc with ⟨ho, acc, c1, c2, c3, c4, _⟩ | ⟨ho, acc, u, c1, c2, c3, c4, _, c6⟩ | ⟨ho, acc, u, c1, c2, c3, c4, _, c6⟩
  · refine ⟨va.net, acc, va.user, by simp [ho], c1, c3, c4, ?_⟩
    intro log hl
    exact ⟨rfl, topoV_log hl c2⟩
  · refine ⟨vb.net, acc, u, by simp [ho], c2, c3, c4, ?_⟩
    intro log hl
    exact ⟨topoV_log hl c1, by rw [c6]⟩
  · refine ⟨va.net, acc, u, by simp [ho], c2, c3, c4, ?_⟩
    intro log hl
    exact ⟨topoV_log hl c1, by rw [c6]⟩

theorem specPast_append (cfg : Config L A V I σ κ) (hist ext : List (Dict L V × Net L A)) (t : Nat) (h1 : 1 ≤ t)
    (h2 : t ≤ hist.length) : specPast cfg (hist ++ ext) t = specPast cfg hist t := by
  have e1 := pastV_spec cfg hist t h1 h2
  have e2 := pastV_spec cfg (hist ++ ext) t h1 (by simp; omega)
  rw [List.take_append_of_le_length h2, e1] at e2
  simpa using e2.symm

theorem StepAt.append {cfg : Config L A V I σ κ} {hist ext : List (Dict L V × Net L A)} {t : Nat} {S : Dict L V}
    {N : Net L A} {inp : Inp I} (h : StepAt cfg hist t S N inp) (ht : t < hist.length) :
    StepAt cfg (hist ++ ext) t S N inp := by
  obtain ⟨⟨B, hB, hu⟩, hn⟩ := h
  refine ⟨⟨B, by rw [List.getElem?_append_left (by omega)]; exact hB, hu⟩, ?_⟩
  unfold inForce at hn ⊢
  split at hn
  · rw [if_pos (by assumption), List.getElem?_append_left ht]; exact hn
  · rw [if_neg (by assumption), List.getElem?_append_left (by omega)]; exact hn

/-- Every context built by `mkCtx` has these parts, even from a stale neighbourhood map. -/
theorem mkCtx_base {cfg : Config L A V I σ κ} {t : Nat} {inp : Inp I} {prev : Dict L V} {n : Net L A}
    {past : Option (List (Option (Dict L V)))} {nmap : Option (Dict L (List L))} {x : L} {ctx : NodeCtx L A V I}
    (h : mkCtx cfg t inp prev n past nmap x = .ok ctx) : BaseCtx cfg.labelIdx prev t past inp x ctx := by
  unfold mkCtx at h
  cases h1 : n.inEdges x with
  | error e => simp [h1] at h
  | ok inc =>
    simp only [h1] at h
    cases h2 : neighbourLabels x nmap n inc with
    | error e => simp [h2] at h
    | ok nbrs =>
      simp only [h2] at h
      cases h3 : prev.get x with
      | error e => simp [h3] at h
      | ok cur =>
        simp only [h3] at h
        cases h4 : mapGet prev nbrs with
        | error e => simp [h4] at h
        | ok nacts =>
          simp only [h4] at h
          cases h5 : nodeInput cfg.labelIdx inp x with
          | error e => simp [h5] at h
          | ok nin =>
            simp only [h5, Except.ok.injEq] at h
            subst h
            exact ⟨rfl, rfl, rfl, rfl, nodeInput_ok_iff.1 h5⟩

/-- **All invocations of a run.**  The log consists of one segment per timestep. -/
theorem Reach.segments {cfg : Config L A V I σ κ} {ks : KeySpec L A V I κ} {d : Dict L V} {n : Net L A} {u : σ}
    {v : VLoop L A V σ κ} (h : Reach cfg ks (vinit cfg d n u) v) (hcond : cfg.FreshNbrs)
    {log : σ → List (NodeCtx L A V I)} (hl : LogSpec cfg log) :
    ∃ segs : List (List (NodeCtx L A V I)), log v.user = log u ++ segs.flatten ∧ segs.length + 1 = v.hist.length ∧
      ∀ k seg, segs[k]? = some seg → SegSpec cfg v.hist (k + 1) seg := by
  induction h with
  | refl => exact ⟨[], by simp [vinit], by simp [vinit], by simp⟩
  | @step va vb inp u' hr hc hs ih =>
    obtain ⟨segs, e1, e2, e3⟩ := ih
    have hlast := hr.last (by simp [vinit])
    obtain ⟨hh, N, acc, u0, hN, hnm, hca, ha, _, hlog⟩ := step_facts (va := { va with user := u' }) (by simp only; omega) (by simpa using Reach.nmapOk hcond hr) hs
    simp only at hh hN hnm hca
    obtain ⟨l1, l2⟩ := hlog log hl
    obtain ⟨ctxs, g1, g2, g3, g4⟩ := computeActs_log hl hca
    have hprev : va.hist[va.hist.length - 1]? = some (va.acts, va.net) := by
      rw [← List.getLast?_eq_getElem?]; exact hlast
    have hvb : vb.hist[va.hist.length]? = some (vb.acts, vb.net) := by rw [hh]; simp
    refine ⟨segs ++ [ctxs], ?_, by rw [hh]; simp; omega, ?_⟩
    · rw [l2, g1, l1]
      simp only
      rw [callInput_log hl hc, e1]; simp
    · intro k seg hk
      by_cases hkl : k < segs.length
      · rw [List.getElem?_append_left hkl] at hk
        obtain ⟨S, N', inp', s1, s2, s3, s4⟩ := e3 k seg hk
        rw [hh]
        refine ⟨S, N', inp', s1.append (by omega), ?_, s3, s4⟩
        rw [specPast_append cfg _ _ _ (by omega) (by omega)]
        exact s2
      · have hk2 : k = segs.length := by
          have := (List.getElem?_eq_some_iff.1 hk).1
          simp at this; omega
        subst hk2
        simp at hk
        subst hk
        have hke : segs.length + 1 = va.hist.length := e2
        rw [hke]
        refine ⟨va.acts, N, inp, ⟨⟨va.net, ?_, inputAt_of_call hc⟩, ?_⟩, ?_, ?_, g4⟩
        · rw [hh, List.getElem?_append_left (by omega)]; exact hprev
        · unfold inForce
          by_cases ho : cfg.order = .topologyFirst
          · simp [ho, hvb, hN]
          · simp only [ho, if_false]
            rw [hh, List.getElem?_append_left (by omega), hprev]
            simp [hN, ho]
        · intro c hcm
          obtain ⟨x, hx, hm⟩ := g2 c hcm
          refine ⟨x, hx, ?_⟩
          rw [hh, specPast_append cfg _ _ _ (by omega) (Nat.le_refl _)]
          exact (mkCtx_ok_iff hnm).1 hm
        · intro hm hr
          have := g3 hm hr
          have h2 : ∀ (cs : List (NodeCtx L A V I)) (ls : List L),
              cs.map Except.ok = ls.map (mkCtx cfg va.hist.length inp va.acts N (specPast cfg va.hist va.hist.length) va.nmap) →
              cs.map (fun c => c.node) = ls := by
            intro cs
            induction cs with
            | nil => intro ls h; cases ls <;> simp at h ⊢
            | cons c cs ihc =>
              intro ls h
              cases ls with
              | nil => simp at h
              | cons x ls =>
                simp only [List.map_cons, List.cons.injEq] at h
                simp only [List.map_cons, List.cons.injEq]
                exact ⟨((mkCtx_ok_iff hnm).1 h.1.symm).node, ihc ls h.2⟩
          exact h2 _ _ this

/-- All invocations of a run, whatever the neighbourhood map.  Only what does not involve neighbours is claimed. -/
theorem Reach.segments_any {cfg : Config L A V I σ κ} {ks : KeySpec L A V I κ} {d : Dict L V} {n : Net L A} {u : σ}
    {v : VLoop L A V σ κ} (h : Reach cfg ks (vinit cfg d n u) v)
    {log : σ → List (NodeCtx L A V I)} (hl : LogSpec cfg log) :
    ∃ segs : List (List (NodeCtx L A V I)), log v.user = log u ++ segs.flatten ∧ segs.length + 1 = v.hist.length ∧
      ∀ k seg, segs[k]? = some seg → BaseSeg cfg v.hist (k + 1) seg := by
  induction h with
  | refl => exact ⟨[], by simp [vinit], by simp [vinit], by simp⟩
  | @step va vb inp u' hr hc hs ih =>
    obtain ⟨segs, e1, e2, e3⟩ := ih
    have hlast := hr.last (by simp [vinit])
    obtain ⟨hh, N, acc, u0, hN, hca, ha, _, hlog⟩ := step_facts_any (va := { va with user := u' }) (by simp only; omega) hs
    simp only at hh hN hca
    obtain ⟨l1, l2⟩ := hlog log hl
    obtain ⟨ctxs, g1, g2, g3, g4⟩ := computeActs_log hl hca
    have hprev : va.hist[va.hist.length - 1]? = some (va.acts, va.net) := by
      rw [← List.getLast?_eq_getElem?]; exact hlast
    have hvb : vb.hist[va.hist.length]? = some (vb.acts, vb.net) := by rw [hh]; simp
    refine ⟨segs ++ [ctxs], ?_, by rw [hh]; simp; omega, ?_⟩
    · rw [l2, g1, l1]
      simp only
      rw [callInput_log hl hc, e1]; simp
    · intro k seg hk
      by_cases hkl : k < segs.length
      · rw [List.getElem?_append_left hkl] at hk
        obtain ⟨S, N', inp', s1, s2⟩ := e3 k seg hk
        rw [hh]
        refine ⟨S, N', inp', s1.append (by omega), ?_⟩
        rw [specPast_append cfg _ _ _ (by omega) (by omega)]
        exact s2
      · have hk2 : k = segs.length := by
          have := (List.getElem?_eq_some_iff.1 hk).1
          simp at this; omega
        subst hk2
        simp at hk
        subst hk
        have hke : segs.length + 1 = va.hist.length := e2
        rw [hke]
        refine ⟨va.acts, N, inp, ⟨⟨va.net, ?_, inputAt_of_call hc⟩, ?_⟩, ?_⟩
        · rw [hh, List.getElem?_append_left (by omega)]; exact hprev
        · unfold inForce
          by_cases ho : cfg.order = .topologyFirst
          · simp [ho, hvb, hN]
          · simp only [ho, if_false]
            rw [hh, List.getElem?_append_left (by omega), hprev]
            simp [hN, ho]
        · intro c hcm
          obtain ⟨x, hx, hm⟩ := g2 c hcm
          refine ⟨x, hx, ?_⟩
          rw [hh, specPast_append cfg _ _ _ (by omega) (Nat.le_refl _)]
          exact mkCtx_base hm

theorem topoV_nodup {cfg : Config L A V I σ κ} (ht : cfg.TopNodup) {t : Nat} {acts : Dict L V} {n n' : Net L A}
    (hn : n.labels.Nodup) {u u' : σ} (h : topoV cfg t acts n [] [] u = .ok (n', u')) : n'.labels.Nodup := by
  have hrule : ∀ f, cfg.topology = some f → ∀ m, ruleV f t acts m u = .ok (n', u') → n'.labels.Nodup := by
    intro f hf m hm
    unfold ruleV at hm
    cases hq : f ⟨m, acts, t⟩ u with
    | error e => simp [hq] at hm
    | ok q =>
      obtain ⟨o, u1⟩ := q
      simp only [hq] at hm
      cases hv : o.value with
      | none => simp [hv] at hm
      | some m' =>
        simp only [hv, Except.ok.injEq, Prod.mk.injEq] at hm
        rw [← hm.1]
        obtain ⟨t1, t2⟩ := ht f hf _ _ _ _ hq
        unfold TopOut.value at hv
        cases hret : o.ret with
        | none => simp [hret] at hv
        | same =>
          simp only [hret] at hv
          split at hv
          · cases hv
          · cases hv; exact t1
        | fresh m2 =>
          simp only [hret] at hv
          split at hv
          · cases hv
          · cases hv; exact t2 _ hret
  unfold topoV reqsV at h
  simp only [List.isEmpty_nil, Bool.and_self, if_true] at h
  cases htp : cfg.topology with
  | none => simp only [htp, Except.ok.injEq, Prod.mk.injEq] at h; rw [← h.1]; exact hn
  | some f =>
    simp only [htp] at h
    by_cases hc : cfg.copyNetwork = true
    · simp only [hc, if_true] at h
      cases hcp : n.copy cfg.labelCodec cfg.attrCodec with
      | error e => simp [hcp] at h
      | ok n2 => simp only [hcp] at h; exact hrule f htp n2 h
    · simp only [hc, Bool.false_eq_true, if_false] at h
      exact hrule f htp n h

theorem vstep_nodup {cfg : Config L A V I σ κ} {ks : KeySpec L A V I κ} (ht : cfg.TopNodup) (hq : cfg.NoReqs)
    {inp : Inp I} {va vb : VLoop L A V σ κ} (hn : va.net.labels.Nodup) (h : vstep cfg ks inp va = .ok vb) :
    vb.net.labels.Nodup := by
  obtain ⟨past, hp, hh, hc⟩ := vstep_ok h
  rcases hc with ⟨ho, acc, c1, c2, c3, c4, _⟩ | ⟨ho, acc, u, c1, c2, c3, c4, _, c6⟩ | ⟨ho, acc, u, c1, c2, c3, c4, _, c6⟩
  · obtain ⟨q1, q2⟩ := computeActs_noReqs hq c1
    rw [q1, q2] at c2
    exact topoV_nodup ht hn c2
  · exact topoV_nodup ht hn c1
  · exact topoV_nodup ht hn c1

theorem Reach.nodup {cfg : Config L A V I σ κ} {ks : KeySpec L A V I κ} (ht : cfg.TopNodup) (hq : cfg.NoReqs)
    {v0 v : VLoop L A V σ κ} (hn : v0.net.labels.Nodup) (h : Reach cfg ks v0 v) : v.net.labels.Nodup := by
  induction h with
  | refl => exact hn
  | step _ _ hs ih => exact vstep_nodup ht hq (va := _) (by exact ih) hs

/-- **All timesteps of a run with a stateless rule.** -/
theorem Reach.pure {cfg : Config L A V I σ κ} {ks : KeySpec L A V I κ} {d : Dict L V} {n : Net L A} {u : σ}
    {v : VLoop L A V σ κ} (h : Reach cfg ks (vinit cfg d n u) v) {G : NodeCtx L A V I → Except Err V}
    (hG : cfg.PureRule G) {P : Option (PertCtx L V I → Except Err V)} (hP : cfg.PurePert P) (hm : cfg.memoize = false)
    (hn : n.labels.Nodup) (ht : cfg.TopNodup) {t : Nat} (ht1 : 1 ≤ t) (ht2 : t < v.hist.length) :
    ∃ S N inp S', StepAt cfg v.hist t S N inp ∧ (v.hist[t]?).map Prod.fst = some S' ∧ S'.keys = N.labels ∧
      ∀ x ∈ N.labels, ∃ ctx v0 v', SpecCtx cfg.labelIdx N S t (specPast cfg v.hist t) inp x ctx ∧ G ctx = .ok v0 ∧
        (match P with | none => v' = v0 | some p => p ⟨x, v0, t, ctx.input⟩ = .ok v') ∧ S'.get? x = some v' := by
  obtain ⟨va, vb, inp, u', hr, hc, hs, hr2, hlen, htake, hget⟩ := h.transition (by simpa [vinit] using ht1) ht2
  have hlast := hr.last (by simp [vinit])
  obtain ⟨hh, N, acc, u0, hN, hnm, hca, ha, _, _⟩ :=
    step_facts (va := { va with user := u' }) (by simp only; omega) (by simpa using Reach.nmapOk (Or.inr (Or.inl hG.noReqs)) hr) hs
  simp only at hh hN hnm hca
  have hnd : N.labels.Nodup := by
    have h1 := hr.nodup ht hG.noReqs (by simpa [vinit] using hn)
    rw [hN]
    split
    · exact vstep_nodup ht hG.noReqs (va := { va with user := u' }) h1 hs
    · exact h1
  have hprev : va.hist[t - 1]? = some (va.acts, va.net) := by
    rw [← hlen, ← List.getLast?_eq_getElem?]; exact hlast
  have hprev' : v.hist[t - 1]? = some (va.acts, va.net) := by
    rw [htake, List.getElem?_take, if_pos (by omega)] at hprev; exact hprev
  obtain ⟨k1, k2, k3, k4, k5, k6⟩ := computeActs_spec hG hP hm hnd hnm hca
  have hpast : specPast cfg va.hist va.hist.length = specPast cfg v.hist t := by
    have := specPast_append cfg (v.hist.take t) (v.hist.drop t) t ht1 (by simp; omega)
    rw [List.take_append_drop] at this
    rw [this, hlen, htake]
  refine ⟨va.acts, N, inp, vb.acts, ⟨⟨va.net, hprev', by rw [← hlen]; exact inputAt_of_call hc⟩, ?_⟩, by rw [hget]; rfl, ?_, ?_⟩
  · unfold inForce
    by_cases ho : cfg.order = .topologyFirst
    · simp [ho, hget, hN]
    · simp [ho, hprev', hN]
  · rw [ha]; exact k1
  · intro x hx
    obtain ⟨ctx, v0, v', s1, s2, s3, s4⟩ := k6 x hx
    rw [hpast, hlen] at s1
    rw [hlen] at s3
    refine ⟨ctx, v0, v', s1, s2, ?_, by rw [ha]; exact s4⟩
    cases P with
    | none => exact s3
    | some p => exact s3

end
end Verif
