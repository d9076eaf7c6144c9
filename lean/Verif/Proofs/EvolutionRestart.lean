import Verif.Proofs.EvolutionFlags
/-! # Prefix and restart -/

namespace Verif
section
variable {L A V I σ κ : Type} [DecidableEq L] [DecidableEq V] [DecidableEq κ]

theorem mkCtx_time (cfg : Config L A V I σ κ) (t t' : Nat) (inp : Inp I) (prev : Dict L V) (n : Net L A)
    (past : Option (List (Option (Dict L V)))) (nmap : Option (Dict L (List L))) (x : L) :
    mkCtx cfg t' inp prev n past nmap x = (mkCtx cfg t inp prev n past nmap x).map (fun c => { c with t := t' }) := by
  unfold mkCtx
  cases n.inEdges x with
  | error e => rfl
  | ok inc =>
    simp only
    cases neighbourLabels x nmap n inc with
    | error e => rfl
    | ok nb =>
      simp only
      cases prev.get x with
      | error e => rfl
      | ok c =>
        simp only
        cases mapGet prev nb with
        | error e => rfl
        | ok a =>
          simp only
          cases nodeInput cfg.labelIdx inp x <;> rfl

theorem perturb_time {cfg : Config L A V I σ κ} (h : cfg.TimeFree) (t t' : Nat) (x : L) (i : Option I) (c : Dict L V)
    (u : σ) : perturb cfg t' x i c u = perturb cfg t x i c u := by
  unfold perturb
  cases hp : cfg.perturbation with
  | none => rfl
  | some p =>
    simp only
    cases c.get x with
    | error e => rfl
    | ok a =>
      simp only
      have := h.pert p hp ⟨x, a, t, i⟩ t' u
      simp only at this
      rw [this]

theorem nodeStep_time {cfg : Config L A V I σ κ} (h : cfg.TimeFree) (hm : cfg.memoize = false) {rule}
    (hr : cfg.rule = some rule) (ks ks' : KeySpec L A V I κ) (t t' : Nat) (inp : Inp I) (prev : Dict L V) (n : Net L A)
    (past : Option (List (Option (Dict L V)))) (nmap : Option (Dict L (List L))) (acc : Acc L A V σ κ) (x : L) :
    nodeStep cfg ks' rule t' inp prev n past nmap acc x = nodeStep cfg ks rule t inp prev n past nmap acc x := by
  unfold nodeStep
  rw [mkCtx_time cfg t t']
  cases mkCtx cfg t inp prev n past nmap x with
  | error e => rfl
  | ok ctx =>
    simp only [Except.map]
    have : applyRule cfg ks' rule { ctx with t := t' } acc.memo acc.user = applyRule cfg ks rule ctx acc.memo acc.user := by
      unfold applyRule
      simp only [hm, Bool.false_eq_true, if_false]
      rw [h.rule rule hr]
    rw [this]
    cases applyRule cfg ks rule ctx acc.memo acc.user with
    | error e => rfl
    | ok q =>
      obtain ⟨o, m, u⟩ := q
      simp only
      rw [perturb_time h t t']

theorem computeActs_time {cfg : Config L A V I σ κ} (h : cfg.TimeFree) (hm : cfg.memoize = false)
    (ks ks' : KeySpec L A V I κ) (t t' : Nat) (inp : Inp I) (prev : Dict L V) (n : Net L A)
    (past : Option (List (Option (Dict L V)))) (nmap : Option (Dict L (List L))) (memo : Memo V κ) (u : σ) :
    computeActs cfg ks' t' inp prev n past nmap memo u = computeActs cfg ks t inp prev n past nmap memo u := by
  unfold computeActs doActivityRule
  cases hr : cfg.rule with
  | none => rfl
  | some rule =>
    simp only
    have : nodeStep cfg ks' rule t' inp prev n past nmap = nodeStep cfg ks rule t inp prev n past nmap := by
      funext acc x; exact nodeStep_time h hm hr ks ks' t t' inp prev n past nmap acc x
    rw [this]

theorem topoV_time {cfg : Config L A V I σ κ} (h : cfg.TimeFree) (t t' : Nat) (acts : Dict L V) (n : Net L A)
    (added : List (AddReq L A V)) (removed : List L) (u : σ) :
    topoV cfg t' acts n added removed u = topoV cfg t acts n added removed u := by
  unfold topoV
  cases reqsV cfg n added removed with
  | error e => rfl
  | ok n1 =>
    simp only
    cases hr : cfg.topology with
    | none => rfl
    | some rule =>
      have : ∀ m, ruleV rule t' acts m u = ruleV rule t acts m u := by
        intro m
        unfold ruleV
        have := h.topo rule hr ⟨m, acts, t⟩ t' u
        simp only at this
        rw [this]
      simp only [this]

theorem applyRule_memo_off {cfg : Config L A V I σ κ} (hm : cfg.memoize = false) {ks : KeySpec L A V I κ} {rule}
    {ctx : NodeCtx L A V I} {memo memo' : Memo V κ} {u u' : σ} {o : RuleOut L A V}
    (h : applyRule cfg ks rule ctx memo u = .ok (o, memo', u')) : memo' = memo := by
  unfold applyRule at h
  simp only [hm, Bool.false_eq_true, if_false] at h
  cases hr : rule ctx u with
  | error e => simp [hr] at h
  | ok q => simp only [hr, Except.ok.injEq, Prod.mk.injEq] at h; exact h.2.1.symm

theorem computeActs_memo_off {cfg : Config L A V I σ κ} (hm : cfg.memoize = false) {ks : KeySpec L A V I κ} {t : Nat}
    {inp : Inp I} {prev : Dict L V} {n : Net L A} {past : Option (List (Option (Dict L V)))}
    {nmap : Option (Dict L (List L))} {memo : Memo V κ} {u : σ} {acc : Acc L A V σ κ}
    (h : computeActs cfg ks t inp prev n past nmap memo u = .ok acc) : acc.memo = memo := by
  unfold computeActs at h
  cases hr : cfg.rule with
  | none => simp only [hr, Except.ok.injEq] at h; rw [← h]
  | some rule =>
    simp only [hr] at h
    cases hd : doActivityRule cfg ks rule t inp prev n past nmap memo u with
    | error e => simp [hd] at h
    | ok a =>
      simp only [hd, Except.ok.injEq] at h
      subst h
      have : a.memo = memo := by
        unfold doActivityRule at hd
        refine foldlM_inv (P := fun a : Acc L A V σ κ => a.memo = memo) ?_ ?_ hd
        · intro x _ b b' hb hs
          obtain ⟨ctx, o, u1, _, g2, _⟩ := nodeStep_ok hs
          rw [applyRule_memo_off hm g2, hb]
        · rfl
      exact this

/-- The two loops differ only in the history `H` that precedes the second one. -/
structure Shift (H : List (Dict L V × Net L A)) (v v' : VLoop L A V σ κ) : Prop where
  hist : v.hist = H ++ v'.hist
  acts : v.acts = v'.acts
  net : v.net = v'.net
  memo : v.memo = v'.memo
  nmap : v.nmap = v'.nmap
  user : v.user = v'.user

theorem vstep_shift {cfg : Config L A V I σ κ} (h : cfg.TimeFree) (hm : cfg.memoize = false) (hp : cfg.past = [])
    (ks ks' : KeySpec L A V I κ) (inp : Inp I) {H : List (Dict L V × Net L A)} {v v' : VLoop L A V σ κ}
    (hv : Shift H v v') :
    match vstep cfg ks' inp v' with
    | .error e => vstep cfg ks inp v = .error e
    | .ok w' => ∃ w, vstep cfg ks inp v = .ok w ∧ Shift H w w' := by
  have hpast : ∀ obs t, pastV cfg obs t = .ok none := by intro obs t; unfold pastV; rw [hp]; rfl
  obtain ⟨h1, a1, n1, m1, nm1, u1⟩ := v
  obtain ⟨h2, a2, n2, m2, nm2, u2⟩ := v'
  obtain ⟨e1, e2, e3, e4, e5, e6⟩ := hv
  simp only at e1 e2 e3 e4 e5 e6
  subst e1 e2 e3 e4 e5 e6
  unfold vstep
  rw [hpast, hpast]
  cases cfg.order with
  | activitiesFirst =>
    simp only
    rw [computeActs_time h hm ks ks' (H ++ h2).length h2.length]
    cases computeActs cfg ks (H ++ h2).length inp a1 n1 none nm1 m1 u1 with
    | error e => rfl
    | ok acc =>
      simp only
      rw [topoV_time h (H ++ h2).length h2.length]
      cases topoV cfg (H ++ h2).length acc.curr n1 acc.added acc.removed acc.user with
      | error e => rfl
      | ok q => exact ⟨_, rfl, by simp, rfl, rfl, rfl, rfl, rfl⟩
  | topologyFirst =>
    simp only
    rw [topoV_time h (H ++ h2).length h2.length]
    cases topoV cfg (H ++ h2).length a1 n1 [] [] u1 with
    | error e => rfl
    | ok q =>
      simp only
      rw [computeActs_time h hm ks ks' (H ++ h2).length h2.length]
      cases computeActs cfg ks (H ++ h2).length inp a1 q.1 none nm1 m1 q.2 with
      | error e => rfl
      | ok acc => exact ⟨_, rfl, by simp, rfl, rfl, rfl, rfl, rfl⟩
  | synchronous =>
    simp only
    rw [topoV_time h (H ++ h2).length h2.length]
    cases topoV cfg (H ++ h2).length a1 n1 [] [] u1 with
    | error e => rfl
    | ok q =>
      simp only
      rw [computeActs_time h hm ks ks' (H ++ h2).length h2.length]
      cases computeActs cfg ks (H ++ h2).length inp a1 n1 none nm1 m1 q.2 with
      | error e => rfl
      | ok acc => exact ⟨_, rfl, by simp, rfl, rfl, rfl, rfl, rfl⟩

theorem vstep_withT (cfg : Config L A V I σ κ) (T U : Int) (ks : KeySpec L A V I κ) (inp : Inp I)
    (v : VLoop L A V σ κ) : vstep (cfg.withT T) ks inp v = vstep (cfg.withT U) ks inp v := by
  have e1 : ∀ obs t, pastV (cfg.withT T) obs t = pastV (cfg.withT U) obs t := by
    intro obs t
    unfold pastV
    have : ∀ k τ acc, pastLoopV (cfg.withT T) obs k τ acc = pastLoopV (cfg.withT U) obs k τ acc := by
      intro k
      induction k with
      | zero => intros; rfl
      | succ k ih =>
        intro τ acc
        unfold pastLoopV
        have : pastEntryV (cfg.withT T) obs τ = pastEntryV (cfg.withT U) obs τ := rfl
        rw [this]
        cases pastEntryV (cfg.withT U) obs τ with
        | error e => rfl
        | ok d => exact ih _ _
    rw [this]; rfl
  unfold vstep
  rw [e1]; rfl

theorem vloop_shift {cfg : Config L A V I σ κ} (h : cfg.TimeFree) (hm : cfg.memoize = false) (hp : cfg.past = [])
    (ks ks' : KeySpec L A V I κ) (U T : Int) {H : List (Dict L V × Net L A)} (hTU : T = U + H.length) (fuel : Nat)
    {v v' : VLoop L A V σ κ} (hv : Shift H v v') :
    match vloop (cfg.withT U) ks' fuel v' with
    | .error e => vloop (cfg.withT T) ks fuel v = .error e
    | .ok w' => ∃ w, vloop (cfg.withT T) ks fuel v = .ok w ∧ Shift H w w' := by
  induction fuel generalizing v v' with
  | zero => rfl
  | succ fuel ih =>
    unfold vloop
    have i1 : (cfg.withT U).input = .timesteps U := rfl
    have i2 : (cfg.withT T).input = .timesteps T := rfl
    rw [i1, i2]
    simp only [callInput]
    have hl : v.hist.length = H.length + v'.hist.length := by rw [hv.hist]; simp
    by_cases hU : (v'.hist.length : Int) = U
    · have hT : (v.hist.length : Int) = T := by rw [hl]; push_cast; omega
      simp only [hU, hT, if_true]
      exact ⟨_, rfl, hv⟩
    · have hT : ¬ (v.hist.length : Int) = T := by rw [hl]; push_cast; omega
      simp only [hU, hT, if_false]
      have hs := vstep_shift (cfg := cfg.withT U) ⟨h.rule, h.pert, h.topo⟩ hm hp ks ks' .timestep hv
      rw [vstep_withT cfg T U]
      cases h2 : vstep (cfg.withT U) ks' .timestep v' with
      | error e => simp only [h2] at hs; simp only [hs]
      | ok w' =>
        simp only [h2] at hs
        obtain ⟨w, g1, g2⟩ := hs
        simp only [g1]
        exact ih g2

/-- A finished run of `T` timesteps is the beginning of a longer one. -/
theorem vloop_continue {cfg : Config L A V I σ κ} {ks : KeySpec L A V I κ} {T U : Int} (hTU : T ≤ U) {f : Nat}
    {v a : VLoop L A V σ κ} (ht : (v.hist.length : Int) ≤ T) (h : vloop (cfg.withT T) ks f v = .ok a) :
    (a.hist.length : Int) = T ∧ Reach (cfg.withT T) ks v a ∧
    ∃ k, k ≤ f ∧ ∀ f', vloop (cfg.withT U) ks (f' + k) v = vloop (cfg.withT U) ks f' a := by
  induction f generalizing v with
  | zero => cases h
  | succ f ih =>
    unfold vloop at h
    have hin : (cfg.withT T).input = .timesteps T := rfl
    by_cases hT : (v.hist.length : Int) = T
    · simp only [hin, callInput, hT, if_true, Except.ok.injEq] at h
      subst h
      exact ⟨hT, .refl, 0, by omega, fun f' => rfl⟩
    · simp only [hin, callInput, hT, if_false] at h
      cases hs : vstep (cfg.withT T) ks .timestep v with
      | error e => simp [hs] at h
      | ok w =>
        simp only [hs] at h
        obtain ⟨_, _, hh, _⟩ := vstep_ok hs
        have hl : w.hist.length = v.hist.length + 1 := by rw [hh]; simp
        obtain ⟨g1, g2, k, g3, g4⟩ := ih (by rw [hl]; push_cast; omega) h
        have hstep : Reach (cfg.withT T) ks v w :=
          .step (v := v) (inp := .timestep) (u := v.user) .refl (by simp [hin, callInput, hT]) hs
        refine ⟨g1, hstep.trans g2, k + 1, by omega, ?_⟩
        intro f'
        rw [← g4 f']
        show vloop (cfg.withT U) ks (f' + k + 1) v = _
        conv => lhs; unfold vloop
        have hin' : (cfg.withT U).input = .timesteps U := rfl
        have hU : ¬ (v.hist.length : Int) = U := by omega
        simp only [hin', callInput, hU, if_false]
        rw [vstep_withT cfg U T]
        rw [hs]

/-- A shorter run finishes when a longer one does, and its history is the beginning of the longer one. -/
theorem vloop_prefix {cfg : Config L A V I σ κ} {ks : KeySpec L A V I κ} {T U : Int} (hTU : T ≤ U) {f' : Nat}
    {v b : VLoop L A V σ κ} (ht : (v.hist.length : Int) ≤ T) (hb : vloop (cfg.withT U) ks f' v = .ok b) :
    (∃ a, vloop (cfg.withT T) ks f' v = .ok a) ∧
    ∀ f a, vloop (cfg.withT T) ks f v = .ok a → (a.hist.length : Int) = T ∧ a.hist <+: b.hist := by
  induction f' generalizing v with
  | zero => cases hb
  | succ f' ih =>
    unfold vloop at hb
    have hin : ∀ X, (cfg.withT X).input = .timesteps X := fun _ => rfl
    by_cases hT : (v.hist.length : Int) = T
    · refine ⟨⟨v, ?_⟩, ?_⟩
      · unfold vloop; simp only [hin, callInput, hT, if_true]
      · intro f a ha
        cases f with
        | zero => cases ha
        | succ f =>
          unfold vloop at ha
          simp only [hin, callInput, hT, if_true, Except.ok.injEq] at ha
          subst ha
          refine ⟨hT, ?_⟩
          by_cases hU : (v.hist.length : Int) = U
          · simp only [hin, callInput, hU, if_true, Except.ok.injEq] at hb
            subst hb; exact List.prefix_refl _
          · simp only [hin, callInput, hU, if_false] at hb
            cases hs : vstep (cfg.withT U) ks .timestep v with
            | error e => simp [hs] at hb
            | ok w =>
              simp only [hs] at hb
              obtain ⟨v1, u1, hr, _, rfl⟩ := vloop_ok hb
              obtain ⟨ext, he⟩ := hr.prefix
              obtain ⟨_, _, hh, _⟩ := vstep_ok hs
              simp only [he, hh, List.append_assoc]
              exact List.prefix_append _ _
    · have hU : ¬ (v.hist.length : Int) = U := by omega
      simp only [hin, callInput, hU, if_false] at hb
      cases hs : vstep (cfg.withT U) ks .timestep v with
      | error e => simp [hs] at hb
      | ok w =>
        simp only [hs] at hb
        obtain ⟨_, _, hh, _⟩ := vstep_ok hs
        have hl : w.hist.length = v.hist.length + 1 := by rw [hh]; simp
        obtain ⟨⟨a, g1⟩, g2⟩ := ih (by rw [hl]; push_cast; omega) hb
        refine ⟨⟨a, ?_⟩, ?_⟩
        · unfold vloop
          simp only [hin, callInput, hT, if_false]
          rw [vstep_withT cfg T U, hs]
          exact g1
        · intro f a' ha
          cases f with
          | zero => cases ha
          | succ f =>
            unfold vloop at ha
            simp only [hin, callInput, hT, if_false] at ha
            rw [vstep_withT cfg T U, hs] at ha
            exact g2 f a' ha

theorem vevolve_prefix {cfg : Config L A V I σ κ} {T U : Nat} (hT : 1 ≤ T) (hTU : T ≤ U) {f' : Nat}
    {init : Option (Conds L V)} {n : Net L A} {u : σ} {b : VLoop L A V σ κ}
    (hb : vevolve f' (cfg.withT U) init n u = .ok b) :
    (∃ a, vevolve f' (cfg.withT T) init n u = .ok a) ∧
    ∀ f a, vevolve f (cfg.withT T) init n u = .ok a → a.hist.length = T ∧ a.hist <+: b.hist := by
  unfold vevolve at hb ⊢
  have e1 : ∀ X, initDict (cfg.withT X) init = initDict cfg init := by intro X; cases init <;> rfl
  have e2 : ∀ X d m, vcheck (cfg.withT X) d m = vcheck (cfg.withT T) d m := fun _ _ _ => rfl
  have e3 : ∀ X m, effectiveKey (cfg.withT X) m = effectiveKey cfg m := fun _ _ => rfl
  have e4 : ∀ X d m u, vinit (cfg.withT X) d m u = vinit cfg d m u := fun _ _ _ _ => rfl
  rw [e1, e2, e3, e4] at hb
  rw [e1, e3, e4]
  cases hc : vcheck (cfg.withT T) (initDict cfg init) n with
  | error e => simp [hc] at hb
  | ok x =>
    simp only [hc] at hb
    simp only
    obtain ⟨g1, g2⟩ := vloop_prefix (T := T) (U := U) (by omega) (by simp [vinit]; omega) hb
    refine ⟨g1, fun f a ha => ?_⟩
    obtain ⟨q1, q2⟩ := g2 f a ha
    exact ⟨by omega, q2⟩

theorem Reach.memo_nil {cfg : Config L A V I σ κ} (hm : cfg.memoize = false) {ks : KeySpec L A V I κ}
    {v0 v : VLoop L A V σ κ} (h : Reach cfg ks v0 v) : v.memo = v0.memo := by
  induction h with
  | refl => rfl
  | step _ _ hs ih =>
    obtain ⟨past, _, _, hcase⟩ := vstep_ok hs
    rcases hcase with ⟨_, acc, h1, _, _, h4, _⟩ | ⟨_, acc, w, _, h2, _, h4, _, _⟩ | ⟨_, acc, w, _, h2, _, h4, _, _⟩
    · rw [h4, computeActs_memo_off hm h1]; exact ih
    · rw [h4, computeActs_memo_off hm h2]; exact ih
    · rw [h4, computeActs_memo_off hm h2]; exact ih

/-- Restart: continuing the run from its last state is the longer run. -/
theorem vevolve_restart {cfg : Config L A V I σ κ} (htf : cfg.TimeFree) (hm : cfg.memoize = false) (hp : cfg.past = [])
    (hfr : cfg.FreshNbrs) {T U : Nat} (hT : 1 ≤ T) {f : Nat} {init : Option (Conds L V)} {n : Net L A} {u : σ}
    {vT : VLoop L A V σ κ} (h : vevolve f (cfg.withT T) init n u = .ok vT)
    (hc : cfg.rule.isSome = true → vT.acts.length = vT.net.size) :
    vT.hist.length = T ∧ vT.hist.getLast? = some (vT.acts, vT.net) ∧
    ∃ k, k ≤ f ∧ ∀ f',
      match vevolve f' (cfg.withT (U + 1)) (some (.dict vT.acts)) vT.net vT.user with
      | .error e => vevolve (f' + k) (cfg.withT (T + U)) init n u = .error e
      | .ok w' => ∃ w, vevolve (f' + k) (cfg.withT (T + U)) init n u = .ok w ∧ Shift (vT.hist.take (T - 1)) w w' := by
  unfold vevolve at h
  have e1 : ∀ X, initDict (cfg.withT X) init = initDict cfg init := by intro X; cases init <;> rfl
  have e2 : ∀ X d m, vcheck (cfg.withT X) d m = vcheck (cfg.withT T) d m := fun _ _ _ => rfl
  have e3 : ∀ X m, effectiveKey (cfg.withT X) m = effectiveKey cfg m := fun _ _ => rfl
  have e4 : ∀ X d m u, vinit (cfg.withT X) d m u = vinit cfg d m u := fun _ _ _ _ => rfl
  rw [e1, e3, e4] at h
  cases hcheck : vcheck (cfg.withT T) (initDict cfg init) n with
  | error e => simp [hcheck] at h
  | ok x =>
    simp only [hcheck] at h
    obtain ⟨g1, g2, k, g3, g4⟩ := vloop_continue (T := T) (U := T + U) (by omega) (by simp [vinit]; omega) h
    have hlen : vT.hist.length = T := by omega
    have hlast := g2.last (by simp [vinit])
    refine ⟨hlen, hlast, k, g3, ?_⟩
    intro f'
    have hck2 : vcheck (cfg.withT (U + 1)) vT.acts vT.net = .ok () := by
      have : ∀ d : Dict L V, (cfg.rule.isSome = true → d.length = vT.net.size) →
          vcheck (cfg.withT (U + 1)) d vT.net = .ok () := by
        intro d hd
        unfold vcheck
        have hi : (cfg.withT (U + 1)).input = .timesteps (U + 1) := rfl
        have hr : (cfg.withT (U + 1)).rule = cfg.rule := rfl
        rw [hi, hr]
        by_cases h2 : cfg.rule.isSome = true
        · simp [hd h2]
        · simp [h2]
      exact this _ hc
    have hshift : Shift (vT.hist.take (T - 1)) vT (vinit cfg vT.acts vT.net vT.user) := by
      refine ⟨?_, rfl, rfl, ?_, ?_, rfl⟩
      · have : vT.hist = vT.hist.take (T - 1) ++ vT.hist.drop (T - 1) := (List.take_append_drop _ _).symm
        conv => lhs; rw [this]
        congr 1
        rw [List.getLast?_eq_getElem?] at hlast
        rw [hlen] at hlast
        rw [List.drop_eq_getElem?_toList_append]
        rw [hlast]
        rw [List.drop_eq_nil_of_le (by omega)]
        rfl
      · rw [g2.memo_nil (cfg := cfg.withT T) hm]; rfl
      · have hfr' : (cfg.withT T).FreshNbrs := hfr
        rcases Reach.nmapOk hfr' g2 with ⟨ht, hn⟩ | ⟨ht, hn⟩
        · rw [hn]
          have ht' : cfg.topology = none := ht
          simp [vinit, ht']
        · rw [hn]
          have ht' : cfg.topology ≠ none := fun e => ht e
          simp only [vinit]
          cases hx : cfg.topology with
          | none => exact absurd hx ht'
          | some _ => rfl
    have := vloop_shift htf hm hp (effectiveKey cfg n) (effectiveKey cfg vT.net) (U + 1) (T + U)
      (H := vT.hist.take (T - 1)) (by rw [List.length_take, hlen, Nat.min_eq_left (by omega)]; omega) f' hshift
    unfold vevolve
    rw [e1 (T + U), e2 (T + U), e3 (T + U), e4 (T + U), hcheck]
    have e5 : initDict (cfg.withT (U + 1)) (some (.dict vT.acts)) = vT.acts := rfl
    rw [e5, hck2]
    simp only
    rw [e3, e4, g4]
    exact this

end
end Verif
