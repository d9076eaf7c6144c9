import Verif.Proofs.EvolutionValue
import Verif.Spec.Evolution
/-! # Runs of the value-level loop -/

namespace Verif
section
variable {L A V I σ κ : Type} [DecidableEq L] [DecidableEq V] [DecidableEq κ]

/-- States at the top of the main loop. -/
inductive Reach (cfg : Config L A V I σ κ) (ks : KeySpec L A V I κ) (v0 : VLoop L A V σ κ) : VLoop L A V σ κ → Prop where
  | refl : Reach cfg ks v0 v0
  | step {v v' : VLoop L A V σ κ} {inp : Inp I} {u : σ} : Reach cfg ks v0 v →
      callInput cfg.input v.hist.length v.acts v.net v.user = .ok (some inp, u) →
      vstep cfg ks inp { v with user := u } = .ok v' → Reach cfg ks v0 v'

theorem Reach.trans {cfg : Config L A V I σ κ} {ks : KeySpec L A V I κ} {a b c : VLoop L A V σ κ}
    (h1 : Reach cfg ks a b) (h2 : Reach cfg ks b c) : Reach cfg ks a c := by
  induction h2 with
  | refl => exact h1
  | step _ hc hs ih => exact .step ih hc hs

theorem vloop_ok {cfg : Config L A V I σ κ} {ks : KeySpec L A V I κ} {fuel : Nat} {v v' : VLoop L A V σ κ}
    (h : vloop cfg ks fuel v = .ok v') :
    ∃ v1 u, Reach cfg ks v v1 ∧ callInput cfg.input v1.hist.length v1.acts v1.net v1.user = .ok (none, u) ∧
      v' = { v1 with user := u } := by
  induction fuel generalizing v with
  | zero => simp [vloop] at h
  | succ fuel ih =>
    unfold vloop at h
    cases hc : callInput cfg.input v.hist.length v.acts v.net v.user with
    | error e => simp [hc] at h
    | ok q =>
      obtain ⟨oi, u⟩ := q
      cases oi with
      | none =>
        simp only [hc, Except.ok.injEq] at h
        exact ⟨v, u, .refl, hc, h.symm⟩
      | some inp =>
        simp only [hc] at h
        cases hs : vstep cfg ks inp { v with user := u } with
        | error e => simp [hs] at h
        | ok v2 =>
          simp only [hs] at h
          obtain ⟨v1, u1, h1, h2, h3⟩ := ih h
          exact ⟨v1, u1, (Reach.step .refl hc hs).trans h1, h2, h3⟩

/-- Case analysis of a timestep: the activities are those of `computeActs` on the network in force, the network that
of `topoV`. -/
theorem vstep_ok {cfg : Config L A V I σ κ} {ks : KeySpec L A V I κ} {inp : Inp I} {v v' : VLoop L A V σ κ}
    (h : vstep cfg ks inp v = .ok v') :
    ∃ past, pastV cfg (obsHist cfg v.hist) v.hist.length = .ok past ∧
      v'.hist = v.hist ++ [(v'.acts, v'.net)] ∧
      ((cfg.order = .activitiesFirst ∧ ∃ acc,
          computeActs cfg ks v.hist.length inp v.acts v.net past v.nmap v.memo v.user = .ok acc ∧
          topoV cfg v.hist.length acc.curr v.net acc.added acc.removed acc.user = .ok (v'.net, v'.user) ∧
          v'.acts = acc.curr ∧ v'.memo = acc.memo ∧
          v'.nmap = if acc.added.isEmpty && acc.removed.isEmpty then v.nmap else some (neighbourhoodMap v'.net)) ∨
       (cfg.order = .topologyFirst ∧ ∃ acc u,
          topoV cfg v.hist.length v.acts v.net [] [] v.user = .ok (v'.net, u) ∧
          computeActs cfg ks v.hist.length inp v.acts v'.net past v.nmap v.memo u = .ok acc ∧
          v'.acts = acc.curr ∧ v'.memo = acc.memo ∧ v'.nmap = v.nmap ∧ v'.user = acc.user) ∨
       (cfg.order = .synchronous ∧ ∃ acc u,
          topoV cfg v.hist.length v.acts v.net [] [] v.user = .ok (v'.net, u) ∧
          computeActs cfg ks v.hist.length inp v.acts v.net past v.nmap v.memo u = .ok acc ∧
          v'.acts = acc.curr ∧ v'.memo = acc.memo ∧ v'.nmap = v.nmap ∧ v'.user = acc.user)) := by
  unfold vstep at h
  cases hp : pastV cfg (obsHist cfg v.hist) v.hist.length with
  | error e => simp [hp] at h
  | ok past =>
    refine ⟨past, rfl, ?_⟩
    simp only [hp] at h
    cases ho : cfg.order with
    | activitiesFirst =>
      simp only [ho] at h
      cases hc : computeActs cfg ks v.hist.length inp v.acts v.net past v.nmap v.memo v.user with
      | error e => simp [hc] at h
      | ok acc =>
        simp only [hc] at h
        cases ht : topoV cfg v.hist.length acc.curr v.net acc.added acc.removed acc.user with
        | error e => simp [ht] at h
        | ok q =>
          obtain ⟨n, u⟩ := q
          simp only [ht, Except.ok.injEq] at h
          subst h
          exact ⟨rfl, Or.inl ⟨rfl, acc, rfl, ht, rfl, rfl, rfl⟩⟩
    | topologyFirst =>
      simp only [ho] at h
      cases ht : topoV cfg v.hist.length v.acts v.net [] [] v.user with
      | error e => simp [ht] at h
      | ok q =>
        obtain ⟨n, u⟩ := q
        simp only [ht] at h
        cases hc : computeActs cfg ks v.hist.length inp v.acts n past v.nmap v.memo u with
        | error e => simp [hc] at h
        | ok acc =>
          simp only [hc, Except.ok.injEq] at h
          subst h
          exact ⟨rfl, Or.inr (Or.inl ⟨rfl, acc, u, rfl, hc, rfl, rfl, rfl, rfl⟩)⟩
    | synchronous =>
      simp only [ho] at h
      cases ht : topoV cfg v.hist.length v.acts v.net [] [] v.user with
      | error e => simp [ht] at h
      | ok q =>
        obtain ⟨n, u⟩ := q
        simp only [ht] at h
        cases hc : computeActs cfg ks v.hist.length inp v.acts v.net past v.nmap v.memo u with
        | error e => simp [hc] at h
        | ok acc =>
          simp only [hc, Except.ok.injEq] at h
          subst h
          exact ⟨rfl, Or.inr (Or.inr ⟨rfl, acc, u, rfl, hc, rfl, rfl, rfl, rfl⟩)⟩

/-- The last entry of the history is the current state. -/
theorem Reach.last {cfg : Config L A V I σ κ} {ks : KeySpec L A V I κ} {v0 v : VLoop L A V σ κ}
    (h : Reach cfg ks v0 v) (h0 : v0.hist.getLast? = some (v0.acts, v0.net)) :
    v.hist.getLast? = some (v.acts, v.net) := by
  cases h with
  | refl => exact h0
  | step _ _ hs =>
    obtain ⟨_, _, hh, _⟩ := vstep_ok hs
    rw [hh]; simp

/-- Every timestep after the start was computed by `vstep` from a reachable state. -/
theorem Reach.transition {cfg : Config L A V I σ κ} {ks : KeySpec L A V I κ} {v0 v : VLoop L A V σ κ}
    (h : Reach cfg ks v0 v) {t : Nat} (ht0 : v0.hist.length ≤ t) (ht : t < v.hist.length) :
    ∃ va vb inp u, Reach cfg ks v0 va ∧
      callInput cfg.input va.hist.length va.acts va.net va.user = .ok (some inp, u) ∧
      vstep cfg ks inp { va with user := u } = .ok vb ∧ Reach cfg ks vb v ∧
      va.hist.length = t ∧ va.hist = v.hist.take t ∧ v.hist[t]? = some (vb.acts, vb.net) := by
  induction h with
  | refl => omega
  | @step va vb inp u hr hc hs ih =>
    obtain ⟨_, _, hh, _⟩ := vstep_ok hs
    simp only at hh
    by_cases htl : t < va.hist.length
    · obtain ⟨wa, wb, inp', u', r1, r2, r3, r4, r5, r6, r7⟩ := ih htl
      refine ⟨wa, wb, inp', u', r1, r2, r3, .step r4 hc hs, r5, ?_, ?_⟩
      · rw [hh, List.take_append_of_le_length (by omega), r6]
      · rw [hh, List.getElem?_append_left htl, r7]
    · have : t = va.hist.length := by rw [hh] at ht; simp at ht; omega
      subst this
      refine ⟨va, vb, inp, u, hr, hc, hs, .refl, rfl, ?_, ?_⟩
      · rw [hh]; simp
      · rw [hh]; simp

/-- Histories only grow. -/
theorem Reach.prefix {cfg : Config L A V I σ κ} {ks : KeySpec L A V I κ} {v0 v : VLoop L A V σ κ}
    (h : Reach cfg ks v0 v) : ∃ ext, v.hist = v0.hist ++ ext := by
  induction h with
  | refl => exact ⟨[], by simp⟩
  | step _ _ hs ih =>
    obtain ⟨_, _, hh, _⟩ := vstep_ok hs
    obtain ⟨ext, he⟩ := ih
    exact ⟨ext ++ [_], by rw [hh]; simp only; rw [he, List.append_assoc]⟩

/-! ## Contexts -/

theorem mapGet_ok {d : Dict L V} {xs : List L} {vs : List V} (h : mapGet d xs = .ok vs) :
    vs.map some = xs.map d.get? := by
  induction xs generalizing vs with
  | nil => simp [mapGet] at h; subst h; rfl
  | cons x xs ih =>
    unfold mapGet at h
    cases hx : d.get x with
    | error e => simp [hx] at h
    | ok v =>
      simp only [hx] at h
      cases hm : mapGet d xs with
      | error e => simp [hm] at h
      | ok ws =>
        simp only [hm, Except.ok.injEq] at h
        subst h
        simp [ih hm, Dict.get_eq_ok_iff.1 hx]

theorem mapGet_of_map {d : Dict L V} {xs : List L} {vs : List V} (h : vs.map some = xs.map d.get?) :
    mapGet d xs = .ok vs := by
  induction xs generalizing vs with
  | nil => simp at h; subst h; rfl
  | cons x xs ih =>
    cases vs with
    | nil => simp at h
    | cons v vs =>
      simp only [List.map_cons, List.cons.injEq] at h
      simp [mapGet, Dict.get_eq_ok_iff.2 h.1.symm, ih h.2]

/-- The neighbourhood map, if present, is the one of the network `n`. -/
def NmapOk (nmap : Option (Dict L (List L))) (n : Net L A) : Prop :=
  nmap = none ∨ nmap = some (neighbourhoodMap n)

theorem get?_map_snd {W W' : Type} (d : Dict L W') (f : W' → W) (x : L) :
    Dict.get? (d.map (fun p => (p.1, f p.2))) x = (d.get? x).map f := by
  induction d with
  | nil => rfl
  | cons p d ih =>
    rw [List.map_cons, Dict.get?_cons, Dict.get?_cons, ih]
    by_cases h : p.1 = x <;> simp [h]

theorem get?_neighbourhoodMap (n : Net L A) (x : L) : (neighbourhoodMap n).get? x = specNbrs n x := by
  unfold neighbourhoodMap specNbrs
  cases n.rotation with
  | some r => rfl
  | none => exact get?_map_snd n.nodes (fun d => d.incoming.keys) x

theorem neighbourLabels_ok {nmap : Option (Dict L (List L))} {n : Net L A} (hn : NmapOk nmap n) {x : L}
    {inc : Dict L (List (Attr A))} (hi : n.inEdges x = .ok inc) (nbrs : List L) :
    neighbourLabels x nmap n inc = .ok nbrs ↔ specNbrs n x = some nbrs := by
  have hinc : (n.nodes.get? x).map Node.incoming = some inc := by
    unfold Net.inEdges at hi
    cases hg : n.nodes.get x with
    | error e => simp [hg, Except.map] at hi
    | ok d =>
      rw [Dict.get_eq_ok_iff] at hg
      rw [Dict.get_eq_ok_iff.2 hg] at hi
      simp only [Except.map, Except.ok.injEq] at hi
      simp [hg, hi]
  unfold neighbourLabels
  rcases hn with rfl | rfl
  · simp only
    unfold specNbrs
    cases n.rotation with
    | some r => simp only; rw [Dict.get_eq_ok_iff]
    | none =>
      simp only
      cases hg : n.nodes.get? x with
      | none => simp [hg] at hinc
      | some d => simp [hg] at hinc; subst hinc; simp
  · simp only
    rw [Dict.get_eq_ok_iff, get?_neighbourhoodMap]

theorem inEdges_ok_iff {n : Net L A} {x : L} {inc : Dict L (List (Attr A))} :
    n.inEdges x = .ok inc ↔ (n.nodes.get? x).map (fun d => d.incoming) = some inc := by
  unfold Net.inEdges Dict.get
  cases n.nodes.get? x <;> simp [Except.map]

theorem nodeInput_ok_iff {labelIdx : L → Option Int} {inp : Inp I} {x : L} {i : Option I} :
    nodeInput labelIdx inp x = .ok i ↔ SpecInput labelIdx inp x i := by
  unfold nodeInput SpecInput
  cases inp with
  | timestep => simp [eq_comm]
  | scalar v => simp [eq_comm]
  | seq xs =>
    simp only
    cases labelIdx x with
    | none => simp
    | some k => simp

/-- A context is built exactly when the specification has one, and it is that one. -/
theorem mkCtx_ok_iff {cfg : Config L A V I σ κ} {t : Nat} {inp : Inp I} {prev : Dict L V} {n : Net L A}
    {past : Option (List (Option (Dict L V)))} {nmap : Option (Dict L (List L))} (hn : NmapOk nmap n) {x : L}
    {ctx : NodeCtx L A V I} :
    mkCtx cfg t inp prev n past nmap x = .ok ctx ↔ SpecCtx cfg.labelIdx n prev t past inp x ctx := by
  unfold mkCtx
  constructor
  · intro h
    cases h1 : n.inEdges x with
    | error e => simp [h1] at h
    | ok inc =>
      simp only [h1] at h
      cases h2 : neighbourLabels x nmap n inc with
      | error e => simp [h2] at h
      | ok nbrs =>
        simp only [h2] at h
        cases h3 : prev.get x with
        | error e => simp [h3] at h
        | ok cur =>
          simp only [h3] at h
          cases h4 : mapGet prev nbrs with
          | error e => simp [h4] at h
          | ok nacts =>
            simp only [h4] at h
            cases h5 : nodeInput cfg.labelIdx inp x with
            | error e => simp [h5] at h
            | ok nin =>
              simp only [h5, Except.ok.injEq] at h
              subst h
              exact ⟨rfl, rfl, rfl, (neighbourLabels_ok hn h1 nbrs).1 h2, mapGet_ok h4, inEdges_ok_iff.1 h1,
                Dict.get_eq_ok_iff.1 h3, rfl, nodeInput_ok_iff.1 h5⟩
  · intro h
    obtain ⟨nd, ct, acts, nb, na, conn, cur, pst, ci⟩ := ctx
    obtain ⟨h1, h2, h3, h4, h5, h6, h7, h8, h9⟩ := h
    simp only at h1 h2 h3 h4 h5 h6 h7 h8 h9
    subst h1 h2 h3 h8
    rw [inEdges_ok_iff.2 h6]
    simp only
    rw [(neighbourLabels_ok hn (inEdges_ok_iff.2 h6) nb).2 h4]
    simp only
    rw [Dict.get_eq_ok_iff.2 h7]
    simp only
    rw [mapGet_of_map h5]
    simp only
    rw [nodeInput_ok_iff.2 h9]

/-! ## Folding over the nodes -/

omit [DecidableEq L] in
theorem foldlM_inv {α β : Type} {f : β → α → Except Err β} {P : β → Prop} {l : List α}
    (hstep : ∀ x ∈ l, ∀ b b', P b → f b x = .ok b' → P b') {b b' : β} (hb : P b) (h : l.foldlM f b = .ok b') : P b' := by
  induction l generalizing b with
  | nil => simp [List.foldlM, pure, Except.pure] at h; subst h; exact hb
  | cons x l ih =>
    simp only [List.foldlM, bind, Except.bind] at h
    cases hx : f b x with
    | error e => simp [hx] at h
    | ok c =>
      simp only [hx] at h
      exact ih (fun y hy => hstep y (List.mem_cons_of_mem _ hy)) (hstep x List.mem_cons_self b c hb hx) h

theorem applyRule_log {cfg : Config L A V I σ κ} {ks : KeySpec L A V I κ} {rule} {log : σ → List (NodeCtx L A V I)}
    (hl : ∀ ctx u o u', rule ctx u = .ok (o, u') → log u' = log u ++ [ctx]) {ctx : NodeCtx L A V I}
    {memo memo' : Memo V κ} {u u' : σ} {o : RuleOut L A V}
    (h : applyRule cfg ks rule ctx memo u = .ok (o, memo', u')) :
    log u' = log u ++ [ctx] ∨ (cfg.memoize = true ∧ log u' = log u) := by
  unfold applyRule at h
  by_cases hm : cfg.memoize = true
  · simp only [hm, if_true] at h
    cases hf : memo.find (toKey ks ctx) with
    | some v =>
      simp only [hf, Except.ok.injEq, Prod.mk.injEq] at h
      right; exact ⟨hm, by rw [h.2.2]⟩
    | none =>
      simp only [hf] at h
      cases hr : rule ctx u with
      | error e => simp [hr] at h
      | ok q =>
        obtain ⟨o1, u1⟩ := q
        simp only [hr, Except.ok.injEq, Prod.mk.injEq] at h
        obtain ⟨_, _, rfl⟩ := h
        left; exact hl _ _ _ _ hr
  · simp only [hm, Bool.false_eq_true, if_false] at h
    cases hr : rule ctx u with
    | error e => simp [hr] at h
    | ok q =>
      obtain ⟨o1, u1⟩ := q
      simp only [hr, Except.ok.injEq, Prod.mk.injEq] at h
      obtain ⟨_, _, rfl⟩ := h
      left; exact hl _ _ _ _ hr

/-- Decomposition of the loop body. -/
theorem nodeStep_ok {cfg : Config L A V I σ κ} {ks : KeySpec L A V I κ} {rule} {t : Nat} {inp : Inp I}
    {prev : Dict L V} {n : Net L A} {past : Option (List (Option (Dict L V)))} {nmap : Option (Dict L (List L))}
    {acc acc' : Acc L A V σ κ} {x : L} (h : nodeStep cfg ks rule t inp prev n past nmap acc x = .ok acc') :
    ∃ ctx o u1, mkCtx cfg t inp prev n past nmap x = .ok ctx ∧
      applyRule cfg ks rule ctx acc.memo acc.user = .ok (o, acc'.memo, u1) ∧
      perturb cfg t x ctx.input (if x ∈ o.removed then acc.curr else acc.curr.set x o.value) u1 =
        .ok (acc'.curr, acc'.user) ∧
      acc'.added = acc.added ++ o.added ∧ acc'.removed = acc.removed ++ o.removed := by
  unfold nodeStep at h
  cases hc : mkCtx cfg t inp prev n past nmap x with
  | error e => simp [hc] at h
  | ok ctx =>
    simp only [hc] at h
    cases ha : applyRule cfg ks rule ctx acc.memo acc.user with
    | error e => simp [ha] at h
    | ok q =>
      obtain ⟨o, m, u1⟩ := q
      simp only [ha] at h
      cases hp : perturb cfg t x ctx.input (if x ∈ o.removed then acc.curr else acc.curr.set x o.value) u1 with
      | error e => simp [hp] at h
      | ok q =>
        obtain ⟨c, u2⟩ := q
        simp only [hp, Except.ok.injEq] at h
        subst h
        exact ⟨ctx, o, u1, rfl, ha, hp, rfl, rfl⟩

theorem perturb_log {cfg : Config L A V I σ κ} {log : σ → List (NodeCtx L A V I)}
    (hl : ∀ p, cfg.perturbation = some p → ∀ ctx u v u', p ctx u = .ok (v, u') → log u' = log u)
    {t : Nat} {x : L} {i : Option I} {c c' : Dict L V} {u u' : σ}
    (h : perturb cfg t x i c u = .ok (c', u')) : log u' = log u := by
  unfold perturb at h
  cases hp : cfg.perturbation with
  | none => simp only [hp, Except.ok.injEq, Prod.mk.injEq] at h; rw [h.2]
  | some p =>
    simp only [hp] at h
    cases hg : c.get x with
    | error e => simp [hg] at h
    | ok a =>
      simp only [hg] at h
      cases hq : p ⟨x, a, t, i⟩ u with
      | error e => simp [hq] at h
      | ok q =>
        obtain ⟨v, u1⟩ := q
        simp only [hq, Except.ok.injEq, Prod.mk.injEq] at h
        rw [← h.2]; exact hl p hp _ _ _ _ hq

/-- Contexts logged in one pass over the nodes. -/
theorem foldNodes_log {cfg : Config L A V I σ κ} {ks : KeySpec L A V I κ} {rule} {t : Nat} {inp : Inp I}
    {prev : Dict L V} {n : Net L A} {past : Option (List (Option (Dict L V)))} {nmap : Option (Dict L (List L))}
    {log : σ → List (NodeCtx L A V I)}
    (hl : ∀ ctx u o u', rule ctx u = .ok (o, u') → log u' = log u ++ [ctx])
    (hlp : ∀ p, cfg.perturbation = some p → ∀ ctx u v u', p ctx u = .ok (v, u') → log u' = log u)
    {l : List L} {acc acc' : Acc L A V σ κ}
    (h : l.foldlM (nodeStep cfg ks rule t inp prev n past nmap) acc = .ok acc') :
    ∃ ctxs, log acc'.user = log acc.user ++ ctxs ∧
      (∀ c ∈ ctxs, ∃ x ∈ l, mkCtx cfg t inp prev n past nmap x = .ok c) ∧
      (cfg.memoize = false → ctxs.map Except.ok = l.map (mkCtx cfg t inp prev n past nmap)) := by
  induction l generalizing acc with
  | nil =>
    simp [List.foldlM, pure, Except.pure] at h; subst h
    exact ⟨[], by simp, by simp, by simp⟩
  | cons x l ih =>
    simp only [List.foldlM, bind, Except.bind] at h
    cases hx : nodeStep cfg ks rule t inp prev n past nmap acc x with
    | error e => simp [hx] at h
    | ok acc1 =>
      simp only [hx] at h
      obtain ⟨ctxs, e1, e2, e3⟩ := ih h
      obtain ⟨ctx, o, u1, g1, g2, g3, _, _⟩ := nodeStep_ok hx
      have hp := perturb_log hlp g3
      rcases applyRule_log hl g2 with ha | ⟨hm, ha⟩
      · refine ⟨ctx :: ctxs, by rw [e1, hp, ha]; simp, ?_, ?_⟩
        · intro c hc
          rcases List.mem_cons.1 hc with rfl | hc
          · exact ⟨x, by simp, g1⟩
          · obtain ⟨y, hy, hyc⟩ := e2 c hc
            exact ⟨y, by simp [hy], hyc⟩
        · intro hm
          simp [e3 hm, g1]
      · refine ⟨ctxs, by rw [e1, hp, ha], ?_, ?_⟩
        · intro c hc
          obtain ⟨y, hy, hyc⟩ := e2 c hc
          exact ⟨y, by simp [hy], hyc⟩
        · intro hm'; simp [hm] at hm'

/-- Contexts logged in one timestep. -/
theorem computeActs_log {cfg : Config L A V I σ κ} {ks : KeySpec L A V I κ} {t : Nat} {inp : Inp I}
    {prev : Dict L V} {n : Net L A} {past : Option (List (Option (Dict L V)))} {nmap : Option (Dict L (List L))}
    {log : σ → List (NodeCtx L A V I)} (hl : LogSpec cfg log) {memo : Memo V κ} {u : σ} {acc : Acc L A V σ κ}
    (h : computeActs cfg ks t inp prev n past nmap memo u = .ok acc) :
    ∃ ctxs, log acc.user = log u ++ ctxs ∧
      (∀ c ∈ ctxs, ∃ x ∈ n.labels, mkCtx cfg t inp prev n past nmap x = .ok c) ∧
      (cfg.memoize = false → cfg.rule.isSome = true →
        ctxs.map Except.ok = n.labels.map (mkCtx cfg t inp prev n past nmap)) ∧
      (cfg.rule = none → ctxs = []) := by
  unfold computeActs at h
  cases hr : cfg.rule with
  | none =>
    simp only [hr, Except.ok.injEq] at h
    subst h
    exact ⟨[], by simp, by simp, by simp, by simp⟩
  | some rule =>
    simp only [hr] at h
    cases hd : doActivityRule cfg ks rule t inp prev n past nmap memo u with
    | error e => simp [hd] at h
    | ok acc1 =>
      simp only [hd, Except.ok.injEq] at h
      subst h
      obtain ⟨ctxs, e1, e2, e3⟩ := foldNodes_log (hl.rule rule hr) hl.pert hd
      exact ⟨ctxs, e1, e2, fun hm _ => e3 hm, by simp⟩

theorem topoV_log {cfg : Config L A V I σ κ} {log : σ → List (NodeCtx L A V I)} (hl : LogSpec cfg log) {t : Nat}
    {acts : Dict L V} {n n' : Net L A} {added : List (AddReq L A V)} {removed : List L} {u u' : σ}
    (h : topoV cfg t acts n added removed u = .ok (n', u')) : log u' = log u := by
  have hrule : ∀ f, cfg.topology = some f → ∀ m, ruleV f t acts m u = .ok (n', u') → log u' = log u := by
    intro f hf m hm
    unfold ruleV at hm
    cases hq : f ⟨m, acts, t⟩ u with
    | error e => simp [hq] at hm
    | ok q =>
      obtain ⟨o, u1⟩ := q
      simp only [hq] at hm
      cases hv : o.value with
      | none => simp [hv] at hm
      | some m' =>
        simp only [hv, Except.ok.injEq, Prod.mk.injEq] at hm
        rw [← hm.2]; exact hl.topo f hf _ _ _ _ hq
  unfold topoV at h
  cases hq : reqsV cfg n added removed with
  | error e => simp [hq] at h
  | ok n1 =>
    simp only [hq] at h
    cases ht : cfg.topology with
    | none => simp only [ht, Except.ok.injEq, Prod.mk.injEq] at h; rw [h.2]
    | some f =>
      simp only [ht] at h
      by_cases hc : cfg.copyNetwork = true
      · simp only [hc, if_true] at h
        cases hcp : n1.copy cfg.labelCodec cfg.attrCodec with
        | error e => simp [hcp] at h
        | ok n2 => simp only [hcp] at h; exact hrule f ht n2 h
      · simp only [hc, Bool.false_eq_true, if_false] at h
        exact hrule f ht n1 h

theorem callInput_log {cfg : Config L A V I σ κ} {log : σ → List (NodeCtx L A V I)} (hl : LogSpec cfg log) {t : Nat}
    {acts : Dict L V} {n : Net L A} {u u' : σ} {i : Option (Inp I)}
    (h : callInput cfg.input t acts n u = .ok (i, u')) : log u' = log u := by
  unfold callInput at h
  cases hi : cfg.input with
  | neither => simp [hi] at h
  | timesteps k => simp only [hi, Except.ok.injEq, Prod.mk.injEq] at h; rw [h.2]
  | list items => simp only [hi, Except.ok.injEq, Prod.mk.injEq] at h; rw [h.2]
  | fn f => simp only [hi] at h; exact hl.inp f hi _ _ _ _ _ _ h

theorem applyRule_noReqs {cfg : Config L A V I σ κ} {ks : KeySpec L A V I κ} {rule}
    (hl : ∀ ctx u o u', rule ctx u = .ok (o, u') → o.added = [] ∧ o.removed = []) {ctx : NodeCtx L A V I}
    {memo memo' : Memo V κ} {u u' : σ} {o : RuleOut L A V}
    (h : applyRule cfg ks rule ctx memo u = .ok (o, memo', u')) : o.added = [] ∧ o.removed = [] := by
  unfold applyRule at h
  by_cases hm : cfg.memoize = true
  · simp only [hm, if_true] at h
    cases hf : memo.find (toKey ks ctx) with
    | some v =>
      simp only [hf, Except.ok.injEq, Prod.mk.injEq] at h
      rw [← h.1]; exact ⟨rfl, rfl⟩
    | none =>
      simp only [hf] at h
      cases hr : rule ctx u with
      | error e => simp [hr] at h
      | ok q =>
        obtain ⟨o1, u1⟩ := q
        simp only [hr, Except.ok.injEq, Prod.mk.injEq] at h
        obtain ⟨rfl, _, _⟩ := h
        exact hl _ _ _ _ hr
  · simp only [hm, Bool.false_eq_true, if_false] at h
    cases hr : rule ctx u with
    | error e => simp [hr] at h
    | ok q =>
      obtain ⟨o1, u1⟩ := q
      simp only [hr, Except.ok.injEq, Prod.mk.injEq] at h
      obtain ⟨rfl, _, _⟩ := h
      exact hl _ _ _ _ hr

theorem computeActs_noReqs {cfg : Config L A V I σ κ} {ks : KeySpec L A V I κ} (hn : cfg.NoReqs) {t : Nat} {inp : Inp I}
    {prev : Dict L V} {n : Net L A} {past : Option (List (Option (Dict L V)))} {nmap : Option (Dict L (List L))}
    {memo : Memo V κ} {u : σ} {acc : Acc L A V σ κ}
    (h : computeActs cfg ks t inp prev n past nmap memo u = .ok acc) : acc.added = [] ∧ acc.removed = [] := by
  unfold computeActs at h
  cases hr : cfg.rule with
  | none => simp only [hr, Except.ok.injEq] at h; subst h; exact ⟨rfl, rfl⟩
  | some rule =>
    simp only [hr] at h
    cases hd : doActivityRule cfg ks rule t inp prev n past nmap memo u with
    | error e => simp [hd] at h
    | ok acc1 =>
      simp only [hd, Except.ok.injEq] at h
      subst h
      have : acc1.added = [] ∧ acc1.removed = [] := by
        refine foldlM_inv (P := fun a : Acc L A V σ κ => a.added = [] ∧ a.removed = []) ?_ ⟨rfl, rfl⟩ hd
        intro x _ b b' hb hs
        obtain ⟨ctx, o, u1, _, g2, _, g4, g5⟩ := nodeStep_ok hs
        have := applyRule_noReqs (hn rule hr) g2
        rw [g4, g5, hb.1, hb.2, this.1, this.2]; exact ⟨rfl, rfl⟩
      exact this

/-- The neighbourhood map of a reachable state is up to date if there is no topology rule or there are no requests. -/
theorem Reach.nmapOk {cfg : Config L A V I σ κ} {ks : KeySpec L A V I κ} {d : Dict L V} {n : Net L A} {u : σ}
    {v : VLoop L A V σ κ} (hcfg : cfg.FreshNbrs) (h : Reach cfg ks (vinit cfg d n u) v) :
    (cfg.topology = none ∧ v.nmap = some (neighbourhoodMap v.net)) ∨ (cfg.topology ≠ none ∧ v.nmap = none) := by
  induction h with
  | refl =>
    cases ht : cfg.topology with
    | none => left; simp [vinit, ht]
    | some f => right; simp [vinit, ht]
  | @step va vb inp u' _ _ hs ih =>
    obtain ⟨past, _, _, hcase⟩ := vstep_ok hs
    rcases ih with ⟨ht, ih⟩ | ⟨ht, ih⟩
    · left
      refine ⟨ht, ?_⟩
      rcases hcase with ⟨_, acc, h1, h2, _, _, h5⟩ | ⟨_, acc, w, h1, _, _, _, h5, _⟩ | ⟨_, acc, w, h1, _, _, _, h5, _⟩
      · rw [h5]
        by_cases hreq : (acc.added.isEmpty && acc.removed.isEmpty) = true
        · simp only [hreq, if_true, ih]
          simp only [topoV, reqsV, hreq, if_true, ht, Except.ok.injEq, Prod.mk.injEq] at h2
          rw [h2.1]
        · simp only [hreq, Bool.false_eq_true, if_false]
      · rw [h5]; simp only [topoV, reqsV, ht, List.isEmpty_nil, Bool.and_self, if_true, Except.ok.injEq, Prod.mk.injEq] at h1
        rw [← h1.1]; exact ih
      · rw [h5]; simp only [topoV, reqsV, ht, List.isEmpty_nil, Bool.and_self, if_true, Except.ok.injEq, Prod.mk.injEq] at h1
        rw [← h1.1]; exact ih
    · right
      refine ⟨ht, ?_⟩
      rcases hcase with ⟨hord, acc, h1, h2, _, _, h5⟩ | ⟨_, acc, w, h1, _, _, _, h5, _⟩ | ⟨_, acc, w, h1, _, _, _, h5, _⟩
      · have hno : cfg.NoReqs := by
          rcases hcfg with h | h | h
          · exact absurd h ht
          · exact h
          · exact absurd hord h
        rw [h5]
        have := computeActs_noReqs hno h1
        simp [this.1, this.2]; exact ih
      · rw [h5]; exact ih
      · rw [h5]; exact ih

end
end Verif
