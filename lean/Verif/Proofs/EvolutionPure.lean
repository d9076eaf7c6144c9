import Verif.Proofs.EvolutionRun
/-! # Stateless rules, past activities, and termination -/

namespace Verif
section
variable {L A V I σ κ : Type} [DecidableEq L] [DecidableEq V] [DecidableEq κ]

/-! ## Finished runs -/

theorem evolve_ok {cfg : Config L A V I σ κ} (hs : cfg.Safe) (hp : cfg.PackOk) {fuel : Nat}
    {init : Option (Conds L V)} {r : Nat} {w : World L A σ} {n : Net L A} (hr : w.heap[r]? = some n)
    {res : Evolved L A V σ} (h : evolve fuel cfg init r w = .ok res) :
    ∃ v ext, vevolve fuel cfg init n w.user = .ok v ∧ res.world = ⟨w.heap ++ ext, v.user⟩ ∧
      Observes cfg res v.hist := by
  have := evolve_refines hs hp fuel init hr
  cases hv : vevolve fuel cfg init n w.user with
  | error e => simp only [hv] at this; rw [this] at h; cases h
  | ok v =>
    simp only [hv] at this
    obtain ⟨states, ext, e1, e2, e3⟩ := this
    rw [e1] at h
    simp only [Except.ok.injEq] at h
    subst h
    refine ⟨v, ext, rfl, rfl, e2, ?_, ?_⟩
    all_goals
      intro t
      simp only [Evolved.acts, Evolved.net]
      cases hs : states[t]? with
      | none =>
        have : v.hist[t]? = none := by rw [List.getElem?_eq_none_iff] at hs ⊢; omega
        simp [this]
      | some st =>
        cases hh : v.hist[t]? with
        | none => rw [List.getElem?_eq_none_iff, ← e2, ← List.getElem?_eq_none_iff, hs] at hh; cases hh
        | some p =>
          first
          | exact (e3 t st p hs hh).acts
          | exact (e3 t st p hs hh).net

/-- The value-level result is the result, when it succeeds. -/
theorem evolve_of_vevolve {cfg : Config L A V I σ κ} (hs : cfg.Safe) (hp : cfg.PackOk) {fuel : Nat}
    {init : Option (Conds L V)} {r : Nat} {w : World L A σ} {n : Net L A} (hr : w.heap[r]? = some n)
    {v : VLoop L A V σ κ} (h : vevolve fuel cfg init n w.user = .ok v) :
    ∃ res ext, evolve fuel cfg init r w = .ok res ∧ res.world = ⟨w.heap ++ ext, v.user⟩ ∧ Observes cfg res v.hist := by
  have := evolve_refines hs hp fuel init hr
  simp only [h] at this
  obtain ⟨states, ext, e1, _⟩ := this
  obtain ⟨v', ext', e2, e3, e4⟩ := evolve_ok hs hp hr e1
  rw [h] at e2
  cases e2
  exact ⟨_, ext', e1, e3, e4⟩

/-- The two levels raise the same errors. -/
theorem evolve_error_iff {cfg : Config L A V I σ κ} (hs : cfg.Safe) (hp : cfg.PackOk) {fuel : Nat}
    {init : Option (Conds L V)} {r : Nat} {w : World L A σ} {n : Net L A} (hr : w.heap[r]? = some n) (e : Err) :
    evolve fuel cfg init r w = .error e ↔ vevolve fuel cfg init n w.user = .error e := by
  have := evolve_refines hs hp fuel init hr
  cases hv : vevolve fuel cfg init n w.user with
  | error e' => simp only [hv] at this; rw [this]; simp
  | ok v =>
    simp only [hv] at this
    obtain ⟨states, ext, e1, _⟩ := this
    rw [e1]; simp

/-! ## Past activities -/

theorem pastEntryV_eq (cfg : Config L A V I σ κ) (obs : List (Option (Dict L V))) (τ : Int)
    (h1 : -(cfg.past.length : Int) ≤ τ) (h2 : τ < obs.length) :
    pastEntryV cfg obs (τ + 1) = .ok (pastVal cfg obs τ) := by
  unfold pastEntryV pastVal
  have e : τ + 1 - 1 = τ := by omega
  rw [e]
  by_cases h : τ < 0
  · rw [if_pos (by omega), if_pos h]
    have hidx : pyIndex cfg.past.length τ = some (cfg.past.length + τ).toNat := by
      unfold pyIndex
      rw [if_neg (by omega), if_pos (by omega), Int.add_comm]
    have hlt : (cfg.past.length + τ).toNat < cfg.past.length := by omega
    simp [pyGet, hidx, hlt]
  · rw [if_neg (by omega), if_neg h]
    have hlt : τ.toNat < obs.length := by omega
    simp [hlt]

theorem pastLoopV_eq (cfg : Config L A V I σ κ) (obs : List (Option (Dict L V))) (k : Nat) (τ : Int)
    (acc : List (Option (Dict L V))) (h1 : -(cfg.past.length : Int) + k ≤ τ + 1) (h2 : τ < obs.length) :
    pastLoopV cfg obs k (τ + 1) acc =
      .ok ((List.range k).map (fun (i : Nat) => pastVal cfg obs (τ - (k - 1 - (i : Int)))) ++ acc) := by
  induction k generalizing τ acc with
  | zero => simp [pastLoopV]
  | succ k ih =>
    unfold pastLoopV
    rw [pastEntryV_eq cfg obs τ (by omega) h2]
    simp only
    have : τ + 1 - 1 = (τ - 1) + 1 := by omega
    rw [this, ih (τ - 1) _ (by omega) (by omega), List.range_succ]
    simp only [List.map_append, List.map_cons, List.map_nil, List.append_assoc, List.singleton_append]
    congr 2
    · apply List.map_congr_left
      intro i _
      congr 1; omega
    · congr 2; omega

/-- The past activities of timestep `t`: position `i` holds the activities of time `(t-1) - (k-i)`. -/
theorem pastV_eq (cfg : Config L A V I σ κ) (obs : List (Option (Dict L V))) (t : Nat) (ht : 1 ≤ t)
    (hobs : t ≤ obs.length) :
    pastV cfg obs t = .ok (if cfg.past.isEmpty then none else
      some ((List.range cfg.past.length).map (fun (i : Nat) => pastVal cfg obs ((t : Int) - 1 - (cfg.past.length - (i : Int)))))) := by
  unfold pastV
  by_cases hp : cfg.past.isEmpty = true
  · simp [hp]
  · simp only [hp, Bool.false_eq_true, if_false]
    have : (t : Int) - 1 = ((t : Int) - 2) + 1 := by omega
    rw [this, pastLoopV_eq cfg obs _ _ _ (by omega) (by omega)]
    simp only [List.append_nil, Except.ok.injEq, Option.some.injEq]
    apply List.map_congr_left
    intro i _
    congr 1; omega

/-! ## Stateless rules -/

/-- `[f(x) for x in xs]` where `f` may raise. -/
def mapE {α β : Type} (f : α → Except Err β) : List α → Except Err (List β)
  | [] => .ok []
  | x :: xs => match f x with
    | .error e => .error e
    | .ok v => match mapE f xs with
      | .error e => .error e
      | .ok vs => .ok (v :: vs)

omit [DecidableEq L] in
theorem mapE_ok_iff {α β : Type} {f : α → Except Err β} {xs : List α} {vs : List β} :
    mapE f xs = .ok vs ↔ vs.map Except.ok = xs.map f := by
  induction xs generalizing vs with
  | nil => cases vs <;> simp [mapE]
  | cons x xs ih =>
    unfold mapE
    cases hx : f x with
    | error e =>
      constructor
      · intro h; cases h
      · intro h
        cases vs with
        | nil => simp at h
        | cons v vs => simp [hx] at h
    | ok v =>
      simp only
      cases hm : mapE f xs with
      | error e =>
        constructor
        · intro h; cases h
        · intro h
          cases vs with
          | nil => simp at h
          | cons w ws =>
            simp only [List.map_cons, List.cons.injEq] at h
            rw [ih.2 h.2] at hm; cases hm
      | ok ws =>
        have := (ih (vs := ws)).1 hm
        constructor
        · intro h
          simp only [Except.ok.injEq] at h
          subst h; simp [hx, this]
        · intro h
          cases vs with
          | nil => simp at h
          | cons w vs =>
            simp only [List.map_cons, List.cons.injEq, hx, Except.ok.injEq] at h
            have := ih.2 h.2
            rw [hm] at this
            simp only [Except.ok.injEq] at this
            rw [h.1, this]

omit [DecidableEq L] in
theorem mapE_total {α β : Type} {f : α → Except Err β} {g : α → β} {xs : List α} (h : ∀ x ∈ xs, f x = .ok (g x)) :
    mapE f xs = .ok (xs.map g) := by
  rw [mapE_ok_iff, List.map_map]
  exact List.map_congr_left (fun x hx => (h x hx).symm)

theorem Config.PureRule.noReqs {cfg : Config L A V I σ κ} {G : NodeCtx L A V I → Except Err V} (h : cfg.PureRule G) :
    cfg.NoReqs := by
  intro rule hr ctx u o u' hq
  rw [h] at hr
  cases hr
  simp only [pureRule] at hq
  cases hg : G ctx with
  | error e => simp [hg] at hq
  | ok v =>
    simp only [hg, Except.ok.injEq, Prod.mk.injEq] at hq
    rw [← hq.1]; exact ⟨rfl, rfl⟩

/-- New activity of one node. -/
def nodeVal (cfg : Config L A V I σ κ) (G : NodeCtx L A V I → Except Err V)
    (P : Option (PertCtx L V I → Except Err V)) (t : Nat) (inp : Inp I) (prev : Dict L V) (n : Net L A)
    (past : Option (List (Option (Dict L V)))) (nmap : Option (Dict L (List L))) (x : L) : Except Err V :=
  match mkCtx cfg t inp prev n past nmap x with
  | .error e => .error e
  | .ok ctx => match G ctx with
    | .error e => .error e
    | .ok v => match P with
      | none => .ok v
      | some p => p ⟨x, v, t, ctx.input⟩

theorem nodeStep_pure {cfg : Config L A V I σ κ} {G : NodeCtx L A V I → Except Err V}
    {P : Option (PertCtx L V I → Except Err V)} (hP : cfg.PurePert P) (hm : cfg.memoize = false)
    (ks : KeySpec L A V I κ) (t : Nat) (inp : Inp I) (prev : Dict L V) (n : Net L A)
    (past : Option (List (Option (Dict L V)))) (nmap : Option (Dict L (List L))) (acc : Acc L A V σ κ) {x : L}
    (hx : x ∉ acc.curr.keys) :
    nodeStep cfg ks (pureRule G) t inp prev n past nmap acc x =
    match nodeVal cfg G P t inp prev n past nmap x with
    | .error e => .error e
    | .ok v => .ok { acc with curr := acc.curr ++ [(x, v)] } := by
  unfold nodeStep nodeVal
  cases mkCtx cfg t inp prev n past nmap x with
  | error e => rfl
  | ok ctx =>
    simp only [applyRule, pureRule, hm, Bool.false_eq_true, if_false]
    cases hg : G ctx with
    | error e => rfl
    | ok v =>
      simp only [List.not_mem_nil, if_false, Dict.set_of_not_mem hx]
      unfold perturb
      rw [hP]
      cases P with
      | none => simp
      | some p =>
        simp only [Option.map_some]
        have hget : Dict.get (acc.curr ++ [(x, v)] : List (L × V)) x = .ok v := by
          rw [← Dict.set_of_not_mem hx, Dict.get_eq_ok_iff]; simp
        rw [hget]
        simp only
        cases hp : p ⟨x, v, t, ctx.input⟩ with
        | error e => rfl
        | ok v' =>
          simp only [List.append_nil]
          congr 2
          have : ∀ d : Dict L V, x ∉ d.keys → Dict.set (d ++ [(x, v)] : List (L × V)) x v' = d ++ [(x, v')] := by
            intro d hd
            induction d with
            | nil => simp [Dict.set]
            | cons q d ih =>
              simp only [Dict.keys_cons, List.mem_cons, not_or] at hd
              have hne : ¬ q.1 = x := fun e => hd.1 e.symm
              obtain ⟨a, b⟩ := q
              simp only [List.cons_append, Dict.set]
              rw [if_neg hne, ih hd.2]
          exact this _ hx

theorem foldNodes_pure {cfg : Config L A V I σ κ} {G : NodeCtx L A V I → Except Err V}
    {P : Option (PertCtx L V I → Except Err V)} (hP : cfg.PurePert P) (hm : cfg.memoize = false)
    (ks : KeySpec L A V I κ) (t : Nat) (inp : Inp I) (prev : Dict L V) (n : Net L A)
    (past : Option (List (Option (Dict L V)))) (nmap : Option (Dict L (List L))) (l : List L) (acc : Acc L A V σ κ)
    (hnd : (acc.curr.keys ++ l).Nodup) :
    l.foldlM (nodeStep cfg ks (pureRule G) t inp prev n past nmap) acc =
    match mapE (nodeVal cfg G P t inp prev n past nmap) l with
    | .error e => .error e
    | .ok vs => .ok { acc with curr := acc.curr ++ l.zip vs } := by
  induction l generalizing acc with
  | nil => simp [mapE, List.foldlM, pure, Except.pure]
  | cons x l ih =>
    have hx : x ∉ acc.curr.keys := by
      rw [List.nodup_append] at hnd
      intro h
      exact hnd.2.2 x h x (by simp) rfl
    simp only [List.foldlM, bind, Except.bind]
    rw [nodeStep_pure hP hm ks t inp prev n past nmap acc hx]
    unfold mapE
    cases hv : nodeVal cfg G P t inp prev n past nmap x with
    | error e => rfl
    | ok v =>
      simp only
      rw [ih]
      · cases hml : mapE (nodeVal cfg G P t inp prev n past nmap) l with
        | error e => rfl
        | ok vs => simp
      · simpa [Dict.keys_append] using hnd

/-- Activities of one timestep for a stateless rule. -/
theorem computeActs_pure {cfg : Config L A V I σ κ} {G : NodeCtx L A V I → Except Err V} (hG : cfg.PureRule G)
    {P : Option (PertCtx L V I → Except Err V)} (hP : cfg.PurePert P) (hm : cfg.memoize = false)
    (ks : KeySpec L A V I κ) (t : Nat) (inp : Inp I) (prev : Dict L V) (n : Net L A) (hn : n.labels.Nodup)
    (past : Option (List (Option (Dict L V)))) (nmap : Option (Dict L (List L))) (memo : Memo V κ) (u : σ) :
    computeActs cfg ks t inp prev n past nmap memo u =
    match mapE (nodeVal cfg G P t inp prev n past nmap) n.labels with
    | .error e => .error e
    | .ok vs => .ok ⟨n.labels.zip vs, [], [], memo, u⟩ := by
  unfold computeActs doActivityRule
  rw [hG]
  simp only
  rw [foldNodes_pure hP hm ks t inp prev n past nmap n.labels ⟨[], [], [], memo, u⟩ (by simpa using hn)]
  cases mapE (nodeVal cfg G P t inp prev n past nmap) n.labels with
  | error e => rfl
  | ok vs => simp

omit [DecidableEq V] [DecidableEq κ] in
theorem get?_zip {l : List L} {vs : List V} {f : L → Except Err V} (hnd : l.Nodup) (h : vs.map Except.ok = l.map f) :
    Dict.keys (l.zip vs) = l ∧ ∀ x ∈ l, ∃ v, f x = .ok v ∧ Dict.get? (l.zip vs) x = some v := by
  induction l generalizing vs with
  | nil => simp
  | cons a l ih =>
    cases vs with
    | nil => simp at h
    | cons v vs =>
      simp only [List.map_cons, List.cons.injEq] at h
      rw [List.nodup_cons] at hnd
      obtain ⟨h1, h2⟩ := ih hnd.2 h.2
      refine ⟨by simp [h1], ?_⟩
      intro x hx
      rcases List.mem_cons.1 hx with rfl | hx
      · exact ⟨v, h.1.symm, by simp [Dict.get?_cons]⟩
      · obtain ⟨w, hw1, hw2⟩ := h2 x hx
        refine ⟨w, hw1, ?_⟩
        have : ¬ a = x := by rintro rfl; exact hnd.1 hx
        simp [Dict.get?_cons, this, hw2]

/-- A finished timestep with a stateless rule: every node has the value of its specified context. -/
theorem computeActs_spec {cfg : Config L A V I σ κ} {G : NodeCtx L A V I → Except Err V} (hG : cfg.PureRule G)
    {P : Option (PertCtx L V I → Except Err V)} (hP : cfg.PurePert P) (hm : cfg.memoize = false)
    {ks : KeySpec L A V I κ} {t : Nat} {inp : Inp I} {prev : Dict L V} {n : Net L A} (hn : n.labels.Nodup)
    {past : Option (List (Option (Dict L V)))} {nmap : Option (Dict L (List L))} (hnm : NmapOk nmap n)
    {memo : Memo V κ} {u : σ} {acc : Acc L A V σ κ}
    (h : computeActs cfg ks t inp prev n past nmap memo u = .ok acc) :
    acc.curr.keys = n.labels ∧ acc.added = [] ∧ acc.removed = [] ∧ acc.memo = memo ∧ acc.user = u ∧
    ∀ x ∈ n.labels, ∃ ctx v v', SpecCtx cfg.labelIdx n prev t past inp x ctx ∧ G ctx = .ok v ∧
      (match P with | none => v' = v | some p => p ⟨x, v, t, ctx.input⟩ = .ok v') ∧ acc.curr.get? x = some v' := by
  rw [computeActs_pure hG hP hm ks t inp prev n hn] at h
  cases hme : mapE (nodeVal cfg G P t inp prev n past nmap) n.labels with
  | error e => simp [hme] at h
  | ok vs =>
    simp only [hme, Except.ok.injEq] at h
    subst h
    obtain ⟨h1, h2⟩ := get?_zip hn (mapE_ok_iff.1 hme)
    refine ⟨h1, rfl, rfl, rfl, rfl, ?_⟩
    intro x hx
    obtain ⟨v', hv, hget⟩ := h2 x hx
    unfold nodeVal at hv
    cases hc : mkCtx cfg t inp prev n past nmap x with
    | error e => simp [hc] at hv
    | ok ctx =>
      simp only [hc] at hv
      cases hg : G ctx with
      | error e => simp [hg] at hv
      | ok v =>
        simp only [hg] at hv
        refine ⟨ctx, v, v', (mkCtx_ok_iff hnm).1 hc, hg, ?_, hget⟩
        cases P with
        | none => simp only [Except.ok.injEq] at hv; exact hv.symm
        | some p => exact hv

/-! ## Input sources and termination -/

/-- The inputs that a timestep count or an input list supplies before the end. -/
def staticInputs : InputSrc L A V I σ → Option (List (Inp I))
  | .timesteps k => if 1 ≤ k then some (List.replicate (k - 1).toNat .timestep) else none
  | .list items => some ((items.takeWhile (fun o => o.isSome)).filterMap id)
  | _ => none

/-- Running a fixed list of inputs. -/
def vrun (cfg : Config L A V I σ κ) (ks : KeySpec L A V I κ) :
    List (Inp I) → VLoop L A V σ κ → Except Err (VLoop L A V σ κ)
  | [], v => .ok v
  | i :: is, v => match vstep cfg ks i v with
    | .error e => .error e
    | .ok v' => vrun cfg ks is v'

theorem vstep_length {cfg : Config L A V I σ κ} {ks : KeySpec L A V I κ} {inp : Inp I} {v v' : VLoop L A V σ κ}
    (h : vstep cfg ks inp v = .ok v') : v'.hist.length = v.hist.length + 1 := by
  obtain ⟨_, _, hh, _⟩ := vstep_ok h
  rw [hh]; simp

theorem vrun_length {cfg : Config L A V I σ κ} {ks : KeySpec L A V I κ} {is : List (Inp I)} {v v' : VLoop L A V σ κ}
    (h : vrun cfg ks is v = .ok v') : v'.hist.length = v.hist.length + is.length := by
  induction is generalizing v with
  | nil => simp [vrun] at h; subst h; rfl
  | cons i is ih =>
    unfold vrun at h
    cases hs : vstep cfg ks i v with
    | error e => simp [hs] at h
    | ok v1 =>
      simp only [hs] at h
      rw [ih h, vstep_length hs]; simp; omega

/-- If the input source yields `is` from time `v.t` on and then ends, the loop runs exactly these inputs. -/
theorem vloop_eq_vrun {cfg : Config L A V I σ κ} {ks : KeySpec L A V I κ} (is : List (Inp I)) (fuel : Nat)
    (v : VLoop L A V σ κ)
    (h1 : ∀ k i, is[k]? = some i → ∀ d n u, callInput cfg.input (v.hist.length + k) d n u = .ok (some i, u))
    (h2 : ∀ d n u, callInput cfg.input (v.hist.length + is.length) d n u = .ok (none, u))
    (hf : is.length < fuel) : vloop cfg ks fuel v = vrun cfg ks is v := by
  induction is generalizing fuel v with
  | nil =>
    cases fuel with
    | zero => omega
    | succ fuel =>
      unfold vloop vrun
      have := h2 v.acts v.net v.user
      simp only [List.length_nil, Nat.add_zero] at this
      rw [this]
  | cons i is ih =>
    cases fuel with
    | zero => simp at hf
    | succ fuel =>
      unfold vloop vrun
      have := h1 0 i (by simp) v.acts v.net v.user
      simp only [Nat.add_zero] at this
      rw [this]
      simp only
      cases hs : vstep cfg ks i v with
      | error e => rfl
      | ok v' =>
        simp only
        have hl := vstep_length hs
        apply ih
        · intro k j hj d n u
          have := h1 (k + 1) j (by simpa using hj) d n u
          rw [hl]
          have e : v.hist.length + 1 + k = v.hist.length + (k + 1) := by omega
          rw [e]; exact this
        · intro d n u
          have := h2 d n u
          rw [hl]
          have e : v.hist.length + 1 + is.length = v.hist.length + (i :: is).length := by simp; omega
          rw [e]; exact this
        · simp at hf; omega

theorem takeWhile_inputs (items : List (Option (Inp I))) (k : Nat) :
    (items[k]?).getD none = ((items.takeWhile (fun o => o.isSome)).filterMap id)[k]? ∨
    ((items.takeWhile (fun o => o.isSome)).filterMap id).length < k := by
  induction items generalizing k with
  | nil => cases k <;> simp
  | cons o items ih =>
    cases o with
    | none => cases k <;> simp
    | some i =>
      cases k with
      | zero => simp
      | succ k =>
        rcases ih k with h | h
        · left; simpa using h
        · right; simpa using h

/-- Termination for timestep counts and input lists: any fuel above the number of inputs gives the same result. -/
theorem vloop_static {cfg : Config L A V I σ κ} {ks : KeySpec L A V I κ} {is : List (Inp I)}
    (hi : staticInputs cfg.input = some is) {fuel : Nat} (hf : is.length < fuel) (v : VLoop L A V σ κ)
    (hv : v.hist.length = 1) : vloop cfg ks fuel v = vrun cfg ks is v := by
  apply vloop_eq_vrun is fuel v _ _ hf
  · intro k i hk d n u
    rw [hv]
    have hlt := (List.getElem?_eq_some_iff.1 hk).1
    cases hc : cfg.input with
    | neither => simp [staticInputs, hc] at hi
    | fn f => simp [staticInputs, hc] at hi
    | timesteps m =>
      simp only [staticInputs, hc] at hi
      split at hi
      · simp only [Option.some.injEq] at hi
        subst hi
        simp only [List.length_replicate] at hlt
        rw [List.getElem?_replicate] at hk
        simp only [hlt, if_true, Option.some.injEq] at hk
        subst hk
        simp only [callInput]
        rw [if_neg (by omega)]
      · cases hi
    | list items =>
      simp only [staticInputs, hc, Option.some.injEq] at hi
      subst hi
      simp only [callInput]
      have e : 1 + k - 1 = k := by omega
      rw [e]
      rcases takeWhile_inputs items k with h | h
      · rw [h, hk]
      · omega
  · intro d n u
    rw [hv]
    cases hc : cfg.input with
    | neither => simp [staticInputs, hc] at hi
    | fn f => simp [staticInputs, hc] at hi
    | timesteps m =>
      simp only [staticInputs, hc] at hi
      split at hi
      · rename_i hm
        simp only [Option.some.injEq] at hi
        subst hi
        simp only [callInput, List.length_replicate]
        rw [if_pos (by omega)]
      · cases hi
    | list items =>
      simp only [staticInputs, hc, Option.some.injEq] at hi
      subst hi
      simp only [callInput]
      rcases takeWhile_inputs items ((items.takeWhile (fun o => o.isSome)).filterMap id).length with h | h
      · have e : 1 + ((items.takeWhile (fun o => o.isSome)).filterMap id).length - 1 =
          ((items.takeWhile (fun o => o.isSome)).filterMap id).length := by omega
        rw [e, h]; simp
      · omega

/-- A timestep count below 1 never ends. -/
theorem vloop_diverges {cfg : Config L A V I σ κ} {ks : KeySpec L A V I κ} {m : Int} (hi : cfg.input = .timesteps m)
    (hm : m < 1) (fuel : Nat) (v v' : VLoop L A V σ κ) (hv : 1 ≤ v.hist.length) : vloop cfg ks fuel v ≠ .ok v' := by
  induction fuel generalizing v with
  | zero => simp [vloop]
  | succ fuel ih =>
    unfold vloop
    rw [hi]
    simp only [callInput]
    rw [if_neg (by omega)]
    simp only
    cases hs : vstep cfg ks .timestep v with
    | error e => simp
    | ok v1 =>
      simp only
      exact ih v1 (by rw [vstep_length hs]; omega)

end
end Verif
