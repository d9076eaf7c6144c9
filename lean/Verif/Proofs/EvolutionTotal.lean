import Verif.Proofs.EvolutionLog
/-! # Runs that cannot fail, and explicit runs of stateless rules -/

namespace Verif
section
variable {L A V I σ κ : Type} [DecidableEq L] [DecidableEq V] [DecidableEq κ]

/-! ## Progress -/

theorem mapGet_total {d : Dict L V} {xs : List L} (h : ∀ x ∈ xs, x ∈ d.keys) : ∃ vs, mapGet d xs = .ok vs := by
  induction xs with
  | nil => exact ⟨[], rfl⟩
  | cons x xs ih =>
    obtain ⟨v, hv⟩ := Dict.exists_get?_of_mem_keys (h x (by simp))
    obtain ⟨vs, hvs⟩ := ih (fun y hy => h y (by simp [hy]))
    exact ⟨v :: vs, by simp [mapGet, Dict.get_eq_ok_iff.2 hv, hvs]⟩

theorem mkCtx_total {cfg : Config L A V I σ κ} {t : Nat} {prev : Dict L V} {n : Net L A}
    {past : Option (List (Option (Dict L V)))} {nmap : Option (Dict L (List L))} (hnm : NmapOk nmap n)
    (hcl : NetClosed n) (hk : ∀ x ∈ n.labels, x ∈ prev.keys) {x : L} (hx : x ∈ n.labels) :
    ∃ ctx, mkCtx cfg t .timestep prev n past nmap x = .ok ctx := by
  obtain ⟨nb, h1, h2⟩ := hcl x hx
  obtain ⟨vs, hvs⟩ := mapGet_total (d := prev) (xs := nb) (fun y hy => hk y (h2 y hy))
  obtain ⟨c, hc⟩ := Dict.exists_get?_of_mem_keys (hk x hx)
  obtain ⟨nd, hnd⟩ := Dict.exists_get?_of_mem_keys (d := n.nodes) (by simpa [Net.labels] using hx)
  refine ⟨⟨x, t, prev, nb, vs, nd.incoming, c, past, none⟩, ?_⟩
  rw [mkCtx_ok_iff hnm]
  exact ⟨rfl, rfl, rfl, h1, mapGet_ok hvs, by simp [hnd], hc, rfl, rfl⟩

omit [DecidableEq L] in
theorem foldlM_total {α β : Type} {f : β → α → Except Err β} {P : List α → β → Prop} (l : List α) (pre : List α) (b : β)
    (hb : P pre b) (hstep : ∀ pre x suf b, pre ++ x :: suf = pre ++ x :: suf → x ∈ l → P pre b →
      ∃ b', f b x = .ok b' ∧ P (pre ++ [x]) b') :
    ∃ b', l.foldlM f b = .ok b' ∧ P (pre ++ l) b' := by
  induction l generalizing pre b with
  | nil => exact ⟨b, rfl, by simpa using hb⟩
  | cons x l ih =>
    obtain ⟨b1, h1, h2⟩ := hstep pre x l b rfl (by simp) hb
    obtain ⟨b2, h3, h4⟩ := ih (pre ++ [x]) b1 h2 (fun pre y suf b e hy hP => hstep pre y suf b e (by simp [hy]) hP)
    refine ⟨b2, ?_, by simpa using h4⟩
    simp only [List.foldlM, bind, Except.bind, h1, h3]

theorem nodeStep_total {cfg : Config L A V I σ κ} (hT : cfg.Total) {ks : KeySpec L A V I κ} {rule}
    (hrule : cfg.rule = some rule) {t : Nat} {inp : Inp I}
    {prev : Dict L V} {n : Net L A} {past : Option (List (Option (Dict L V)))} {nmap : Option (Dict L (List L))}
    (acc : Acc L A V σ κ) {x : L} {ctx : NodeCtx L A V I} (hc : mkCtx cfg t inp prev n past nmap x = .ok ctx) :
    ∃ acc', nodeStep cfg ks rule t inp prev n past nmap acc x = .ok acc' ∧ acc'.added = acc.added ∧
      acc'.removed = acc.removed ∧ (∀ y, y ∈ acc'.curr.keys ↔ y ∈ acc.curr.keys ∨ y = x) := by
  obtain ⟨v, memo, u', ha⟩ : ∃ v memo u', applyRule cfg ks rule ctx acc.memo acc.user = .ok (⟨v, [], []⟩, memo, u') := by
    unfold applyRule
    by_cases hm : cfg.memoize = true
    · simp only [hm, if_true]
      cases hf : acc.memo.find (toKey ks ctx) with
      | some v => exact ⟨v, _, _, rfl⟩
      | none =>
        obtain ⟨v, u', h⟩ := hT.rule rule hrule ctx acc.user
        exact ⟨v, acc.memo ++ [(toKey ks ctx, v)], u', by simp [h]⟩
    · simp only [hm, Bool.false_eq_true, if_false]
      obtain ⟨v, u', h⟩ := hT.rule rule hrule ctx acc.user
      exact ⟨v, acc.memo, u', by simp [h]⟩
  unfold nodeStep
  simp only [hc, ha, List.not_mem_nil, if_false]
  have hkeys : ∀ w y, y ∈ (acc.curr.set x w).keys ↔ y ∈ acc.curr.keys ∨ y = x := by
    intro w y; rw [Dict.mem_keys_set]; exact Or.comm
  unfold perturb
  cases hp : cfg.perturbation with
  | none => exact ⟨_, rfl, by simp, by simp, hkeys v⟩
  | some p =>
    simp only
    have hg : Dict.get (acc.curr.set x v) x = .ok v := by rw [Dict.get_eq_ok_iff]; simp
    rw [hg]
    simp only
    obtain ⟨v', u'', h⟩ := hT.pert p hp ⟨x, v, t, ctx.input⟩ u'
    rw [h]
    refine ⟨_, rfl, by simp, by simp, ?_⟩
    intro y
    simp only
    rw [Dict.mem_keys_set, hkeys]
    constructor
    · rintro (h | h)
      · exact Or.inr h
      · exact h
    · exact Or.inr

theorem computeActs_total {cfg : Config L A V I σ κ} (hT : cfg.Total) (hr : cfg.rule.isSome = true)
    (ks : KeySpec L A V I κ) (t : Nat)
    {prev : Dict L V} {n : Net L A} (past : Option (List (Option (Dict L V)))) {nmap : Option (Dict L (List L))}
    (hnm : NmapOk nmap n) (hcl : NetClosed n) (hk : ∀ x ∈ n.labels, x ∈ prev.keys) (memo : Memo V κ) (u : σ) :
    ∃ acc, computeActs cfg ks t .timestep prev n past nmap memo u = .ok acc ∧ acc.added = [] ∧ acc.removed = [] ∧
      ∀ y, y ∈ acc.curr.keys ↔ y ∈ n.labels := by
  cases hru : cfg.rule with
  | none => simp [hru] at hr
  | some rule =>
    unfold computeActs doActivityRule
    simp only [hru]
    obtain ⟨acc, h1, h2, h3, h4⟩ := foldlM_total (f := nodeStep cfg ks rule t .timestep prev n past nmap)
      (P := fun pre acc => acc.added = [] ∧ acc.removed = [] ∧ ∀ y, y ∈ acc.curr.keys ↔ y ∈ pre) n.labels []
      ⟨[], [], [], memo, u⟩ (by simp) (by
        intro pre x suf acc _ hx hP
        obtain ⟨ctx, hc⟩ := mkCtx_total (cfg := cfg) (t := t) (past := past) hnm hcl hk hx
        obtain ⟨acc', g1, g2, g3, g4⟩ := nodeStep_total (ks := ks) hT hru acc hc
        refine ⟨acc', g1, by rw [g2, hP.1], by rw [g3, hP.2.1], ?_⟩
        intro y; rw [g4, hP.2.2]; simp)
    rw [h1]
    simp only [h2, List.foldl_nil]
    exact ⟨_, rfl, rfl, h3, by simpa using h4⟩

theorem topoV_none {cfg : Config L A V I σ κ} (ht : cfg.topology = none) (t : Nat) (acts : Dict L V) (n : Net L A) (u : σ) :
    topoV cfg t acts n [] [] u = .ok (n, u) := by
  simp [topoV, reqsV, ht]

/-- With a total rule and a fixed closed network, a timestep cannot fail. -/
theorem vstep_total {cfg : Config L A V I σ κ} (hT : cfg.Total) (hr : cfg.rule.isSome = true) (ht : cfg.topology = none)
    (ks : KeySpec L A V I κ) {v : VLoop L A V σ κ} (hcl : NetClosed v.net) (hk : ∀ x ∈ v.net.labels, x ∈ v.acts.keys)
    (hnm : v.nmap = some (neighbourhoodMap v.net)) (hlen : 1 ≤ v.hist.length) :
    ∃ v', vstep cfg ks .timestep v = .ok v' ∧ v'.net = v.net ∧ v'.nmap = v.nmap ∧
      (∀ x, x ∈ v'.acts.keys ↔ x ∈ v.net.labels) ∧ v'.hist = v.hist ++ [(v'.acts, v'.net)] := by
  have hp := pastV_spec cfg v.hist v.hist.length hlen (Nat.le_refl _)
  rw [List.take_length] at hp
  have hnmok : NmapOk v.nmap v.net := Or.inr hnm
  obtain ⟨acc, h1, h2, h3, h4⟩ := computeActs_total hT hr ks v.hist.length
    (specPast cfg v.hist v.hist.length) hnmok hcl hk v.memo v.user
  unfold vstep
  rw [hp]
  cases ho : cfg.order with
  | activitiesFirst =>
    simp only [h1, h2, h3, topoV_none ht, List.isEmpty_nil, Bool.and_self, if_true]
    exact ⟨_, rfl, rfl, rfl, h4, rfl⟩
  | topologyFirst =>
    simp only [topoV_none ht, h1]
    exact ⟨_, rfl, rfl, rfl, h4, rfl⟩
  | synchronous =>
    simp only [topoV_none ht, h1]
    exact ⟨_, rfl, rfl, rfl, h4, rfl⟩

theorem vrun_total {cfg : Config L A V I σ κ} (hT : cfg.Total) (hr : cfg.rule.isSome = true) (ht : cfg.topology = none)
    (ks : KeySpec L A V I κ) (k : Nat) {v : VLoop L A V σ κ} (hcl : NetClosed v.net)
    (hk : ∀ x ∈ v.net.labels, x ∈ v.acts.keys) (hnm : v.nmap = some (neighbourhoodMap v.net)) (hlen : 1 ≤ v.hist.length) :
    ∃ v', vrun cfg ks (List.replicate k .timestep) v = .ok v' := by
  induction k generalizing v with
  | zero => exact ⟨v, rfl⟩
  | succ k ih =>
    obtain ⟨v1, h1, h2, h3, h4, h5⟩ := vstep_total hT hr ht ks hcl hk hnm hlen
    simp only [List.replicate_succ, vrun, h1]
    apply ih
    · rw [h2]; exact hcl
    · intro x hx; rw [h4, ← h2]; exact hx
    · rw [h3, h2]; exact hnm
    · rw [h5]; simp

/-- **Progress.**  A run with a total rule on a closed network without topology rule returns a trajectory. -/
theorem vevolve_total {cfg : Config L A V I σ κ} (hT : cfg.Total) (hr : cfg.rule.isSome = true) (ht : cfg.topology = none)
    {T : Nat} (hT1 : 1 ≤ T) (hin : cfg.input = .timesteps T) {init : Option (Conds L V)} {n : Net L A} (u : σ)
    (hcl : NetClosed n) (hlen : (initDict cfg init).length = n.size) (hk : ∀ x ∈ n.labels, x ∈ (initDict cfg init).keys)
    {fuel : Nat} (hf : T ≤ fuel) : ∃ v, vevolve fuel cfg init n u = .ok v := by
  unfold vevolve
  have hc : vcheck cfg (initDict cfg init) n = .ok () := by simp [vcheck, hin, hlen]
  rw [hc]
  simp only
  have hi : staticInputs cfg.input = some (List.replicate (T - 1) (.timestep : Inp I)) := by
    rw [hin]; simp [staticInputs]; omega
  rw [vloop_static hi (by simp; omega) _ (by simp [vinit])]
  exact vrun_total hT hr ht _ _ (by simpa [vinit] using hcl) (by simpa [vinit] using hk) (by simp [vinit, ht]) (by simp [vinit])

/-! ## Fuel -/

theorem evolveStep_t {cfg : Config L A V I σ κ} {ks : KeySpec L A V I κ} {inp : Inp I} {s s' : Loop L A V σ κ}
    (h : evolveStep cfg ks inp s = .ok s') : s'.t = s.t + 1 := by
  unfold evolveStep at h
  split at h
  · cases h
  · simp only at h
    split at h
    all_goals
      split at h
      · cases h
      · split at h
        · cases h
        · split at h
          · cases h
          · split at h
            · cases h
            · cases h; rfl

/-- Static input sources do not look at the state. -/
theorem callInput_static {src : InputSrc L A V I σ} {is : List (Inp I)} (hi : staticInputs src = some is) (k : Nat)
    (hk : k ≤ is.length) (d : Dict L V) (n : Net L A) (u : σ) : callInput src (1 + k) d n u = .ok (is[k]?, u) := by
  cases src with
  | neither => simp [staticInputs] at hi
  | fn f => simp [staticInputs] at hi
  | timesteps m =>
    simp only [staticInputs] at hi
    split at hi
    · simp only [Option.some.injEq] at hi
      subst hi
      simp only [List.length_replicate] at hk
      simp only [callInput, List.getElem?_replicate]
      by_cases h : k < (m - 1).toNat
      · rw [if_neg (by omega), if_pos h]
      · rw [if_pos (by omega), if_neg h]
    · cases hi
  | list items =>
    simp only [staticInputs, Option.some.injEq] at hi
    subst hi
    simp only [callInput]
    have e : 1 + k - 1 = k := by omega
    rw [e]
    rcases takeWhile_inputs items k with h | h
    · rw [h]
    · omega

theorem evolveLoop_fuel {cfg : Config L A V I σ κ} {ks : KeySpec L A V I κ} {is : List (Inp I)}
    (hi : staticInputs cfg.input = some is) (k : Nat) (fuel fuel' : Nat) (s : Loop L A V σ κ) (ht : s.t = 1 + k)
    (hk : k ≤ is.length) (hf : is.length < fuel + k) (hf' : is.length < fuel' + k) :
    evolveLoop cfg ks fuel s = evolveLoop cfg ks fuel' s := by
  induction fuel generalizing fuel' s k with
  | zero => omega
  | succ fuel ih =>
    cases fuel' with
    | zero => omega
    | succ fuel' =>
      unfold evolveLoop
      have hcall := callInput_static hi k hk s.prevActs (s.world.deref s.prevNet) s.world.user
      rw [← ht] at hcall
      rw [hcall]
      cases hik : is[k]? with
      | none => rfl
      | some inp =>
        simp only
        cases hs : evolveStep cfg ks inp { s with world := { s.world with user := s.world.user } } with
        | error e => rfl
        | ok s' =>
          simp only
          have hlt := (List.getElem?_eq_some_iff.1 hik).1
          have := evolveStep_t hs
          simp only at this
          exact ih (k + 1) fuel' s' (by omega) (by omega) (by omega) (by omega)

/-- For timestep counts `≥ 1` and input lists, the result is the same for all sufficient fuel. -/
theorem evolve_fuel {cfg : Config L A V I σ κ} {is : List (Inp I)} (hi : staticInputs cfg.input = some is)
    {fuel fuel' : Nat} (hf : is.length < fuel) (hf' : is.length < fuel') (init : Option (Conds L V)) (r : Nat)
    (w : World L A σ) : evolve fuel cfg init r w = evolve fuel' cfg init r w := by
  unfold evolve
  cases hini : evolveInit cfg (initDict cfg init) r w with
  | error e => rfl
  | ok s =>
    simp only
    have ht : s.t = 1 + 0 := by
      unfold evolveInit at hini
      split at hini
      · cases hini
      · split at hini
        · cases hini
        · split at hini
          · cases hini
          · split at hini
            · cases hini
            · cases hini; rfl
    rw [evolveLoop_fuel hi 0 fuel fuel' s ht (by omega) (by omega) (by omega)]

/-- Length of a finished run on a static input. -/
theorem vevolve_length {cfg : Config L A V I σ κ} {is : List (Inp I)} (hi : staticInputs cfg.input = some is)
    {fuel : Nat} (hf : is.length < fuel) {init : Option (Conds L V)} {n : Net L A} {u : σ} {v : VLoop L A V σ κ}
    (h : vevolve fuel cfg init n u = .ok v) : v.hist.length = is.length + 1 := by
  unfold vevolve at h
  cases hc : vcheck cfg (initDict cfg init) n with
  | error e => simp [hc] at h
  | ok x =>
    simp only [hc] at h
    rw [vloop_static hi hf _ (by simp [vinit])] at h
    rw [vrun_length h]; simp [vinit]; omega

/-- Without topology rule and requests the network never changes. -/
theorem Reach.fixed_net {cfg : Config L A V I σ κ} {ks : KeySpec L A V I κ} {d : Dict L V} {n : Net L A} {u : σ}
    {v : VLoop L A V σ κ} (h : Reach cfg ks (vinit cfg d n u) v) (ht : cfg.topology = none)
    (hq : cfg.NoReqs ∨ cfg.order ≠ .activitiesFirst) :
    v.net = n ∧ ∀ (t : Nat) (p : Dict L V × Net L A), v.hist[t]? = some p → p.2 = n := by
  induction h with
  | refl =>
    refine ⟨rfl, ?_⟩
    intro t p hp
    simp only [vinit] at hp
    cases t with
    | zero => simp at hp; rw [← hp]
    | succ t => simp at hp
  | @step va vb inp u' _ _ hs ih =>
    obtain ⟨past, _, hh, hcase⟩ := vstep_ok hs
    have hnet : vb.net = va.net := by
      rcases hcase with ⟨ho, acc, h1, h2, _⟩ | ⟨_, acc, w, h1, _⟩ | ⟨_, acc, w, h1, _⟩
      · obtain ⟨q1, q2⟩ := computeActs_noReqs (hq.resolve_right (by simp [ho])) h1
        rw [q1, q2] at h2
        exact (topoV_nil ht h2).1
      · exact (topoV_nil ht h1).1
      · exact (topoV_nil ht h1).1
    refine ⟨by rw [hnet]; exact ih.1, ?_⟩
    intro t p hp
    rw [hh] at hp
    simp only at hp
    by_cases hlt : t < va.hist.length
    · rw [List.getElem?_append_left hlt] at hp; exact ih.2 t p hp
    · have : t = va.hist.length := by
        have := (List.getElem?_eq_some_iff.1 hp).1
        simp at this; omega
      subst this
      simp at hp
      rw [← hp]; simp only; rw [hnet]; exact ih.1

theorem hist_head {cfg : Config L A V I σ κ} {fuel : Nat} {init : Option (Conds L V)} {n : Net L A} {u : σ}
    {v : VLoop L A V σ κ} (h : vevolve fuel cfg init n u = .ok v) : v.hist[0]? = some (initDict cfg init, n) := by
  obtain ⟨_, v1, u1, hr, _, rfl⟩ := vevolve_ok h
  obtain ⟨ext, he⟩ := hr.prefix
  simp only [he, vinit]
  simp

/-! ## Explicit runs -/

/-- Activities of timestep `t` of an explicit run. -/
def plainActs (labels : List L) (d : Dict L V) (f : Nat → L → V) (t : Nat) : Dict L V :=
  if t = 0 then d else Dict.ofKeys labels (f t)

/-- The first `T` timesteps of `f` follow the stateless rule `G` on the neighbourhoods `nb`. -/
def Follows (cfg : Config L A V I σ κ) (n : Net L A) (nb : L → List L) (G : NodeCtx L A V I → Except Err V) (d : Dict L V)
    (f : Nat → L → V) (T : Nat) : Prop :=
  ∀ t, t + 1 < T → ∀ x ∈ n.labels, G ⟨x, t + 1, plainActs n.labels d f t, nb x, (nb x).map (f t),
    ((n.nodes.get? x).map (fun nd => nd.incoming)).getD [], f t x,
    specPast cfg ((List.range (t + 1)).map (fun s => (plainActs n.labels d f s, n))) (t + 1), none⟩ = .ok (f (t + 1) x)

omit [DecidableEq V] [DecidableEq κ] in
theorem get?_plainActs {labels : List L} {d : Dict L V} {f : Nat → L → V} (h0 : ∀ x ∈ labels, d.get? x = some (f 0 x))
    (t : Nat) {x : L} (hx : x ∈ labels) : (plainActs labels d f t).get? x = some (f t x) := by
  unfold plainActs
  by_cases ht : t = 0
  · subst ht; simp [h0 x hx]
  · simp [ht, Dict.get?_ofKeys, hx]

/-- One explicit timestep. -/
theorem vstep_plain {cfg : Config L A V I σ κ} {G : NodeCtx L A V I → Except Err V}
    (hG : cfg.PureRule G) (hP : cfg.perturbation = none)
    (hm : cfg.memoize = false) (ht : cfg.topology = none) {n : Net L A} (hn : n.labels.Nodup) {nb : L → List L}
    (hnb : ∀ x ∈ n.labels, specNbrs n x = some (nb x) ∧ ∀ y ∈ nb x, y ∈ n.labels) {d : Dict L V} {f : Nat → L → V}
    (h0 : ∀ x ∈ n.labels, d.get? x = some (f 0 x)) {T : Nat} (hf : Follows cfg n nb G d f T) (ks : KeySpec L A V I κ) (t : Nat)
    (htT : t + 1 < T)
    {v : VLoop L A V σ κ} (hacts : v.acts = plainActs n.labels d f t) (hnet : v.net = n)
    (hhist : v.hist = (List.range (t + 1)).map (fun s => (plainActs n.labels d f s, n)))
    (hnm : v.nmap = some (neighbourhoodMap n)) :
    vstep cfg ks .timestep v = .ok ⟨(List.range (t + 2)).map (fun s => (plainActs n.labels d f s, n)),
      plainActs n.labels d f (t + 1), n, v.memo, v.nmap, v.user⟩ := by
  have hlen : v.hist.length = t + 1 := by rw [hhist]; simp
  have hp := pastV_spec cfg v.hist v.hist.length (by omega) (Nat.le_refl _)
  rw [List.take_length] at hp
  have hca : computeActs cfg ks v.hist.length .timestep v.acts n (specPast cfg v.hist v.hist.length) v.nmap v.memo v.user =
      .ok ⟨plainActs n.labels d f (t + 1), [], [], v.memo, v.user⟩ := by
    rw [computeActs_pure (P := none) hG (by simpa [Config.PurePert] using hP) hm ks _ _ _ n hn]
    have : mapE (nodeVal cfg G none v.hist.length .timestep v.acts n
        (specPast cfg v.hist v.hist.length) v.nmap) n.labels = .ok (n.labels.map (f (t + 1))) := by
      apply mapE_total
      intro x hx
      obtain ⟨nd, hnd⟩ := Dict.exists_get?_of_mem_keys (d := n.nodes) (by simpa [Net.labels] using hx)
      have hctx : mkCtx cfg v.hist.length .timestep v.acts n (specPast cfg v.hist v.hist.length) v.nmap x =
          .ok ⟨x, t + 1, plainActs n.labels d f t, nb x, (nb x).map (f t), nd.incoming, f t x,
            specPast cfg v.hist v.hist.length, none⟩ := by
        rw [mkCtx_ok_iff (Or.inr hnm)]
        refine ⟨rfl, hlen.symm, hacts.symm, (hnb x hx).1, ?_, by simp [hnd], by rw [hacts]; exact get?_plainActs h0 t hx,
          rfl, rfl⟩
        simp only [List.map_map]
        apply List.map_congr_left
        intro y hy
        rw [hacts, get?_plainActs h0 t ((hnb x hx).2 y hy)]; rfl
      unfold nodeVal
      rw [hctx]
      simp only
      have := hf t htT x hx
      rw [hnd] at this
      rw [hlen, hhist]
      simp only [Option.map_some, Option.getD_some] at this
      rw [this]
    rw [this]
    simp only
    have hz : ∀ ls : List L, ls.zip (ls.map (f (t + 1))) = Dict.ofKeys ls (f (t + 1)) := by
      intro ls
      induction ls with
      | nil => rfl
      | cons a ls ih => simp [ih, Dict.ofKeys]
    rw [hz]
    simp [plainActs]
  have hres : v.hist ++ [(plainActs n.labels d f (t + 1), n)] =
      (List.range (t + 2)).map (fun s => (plainActs n.labels d f s, n)) := by
    rw [hhist, List.range_succ (n := t + 1)]; simp
  unfold vstep
  rw [hp]
  cases ho : cfg.order with
  | activitiesFirst =>
    simp only [hnet, hca, topoV_none ht, List.isEmpty_nil, Bool.and_self, if_true, hres]
  | topologyFirst =>
    simp only [hnet, topoV_none ht, hca, hres]
  | synchronous =>
    simp only [hnet, topoV_none ht, hca, hres]

theorem vrun_plain {cfg : Config L A V I σ κ} {G : NodeCtx L A V I → Except Err V}
    (hG : cfg.PureRule G) (hP : cfg.perturbation = none)
    (hm : cfg.memoize = false) (ht : cfg.topology = none) {n : Net L A} (hn : n.labels.Nodup) {nb : L → List L}
    (hnb : ∀ x ∈ n.labels, specNbrs n x = some (nb x) ∧ ∀ y ∈ nb x, y ∈ n.labels) {d : Dict L V} {f : Nat → L → V}
    (h0 : ∀ x ∈ n.labels, d.get? x = some (f 0 x)) {T : Nat} (hf : Follows cfg n nb G d f T) (ks : KeySpec L A V I κ) (k t : Nat)
    (htT : t + k < T)
    {v : VLoop L A V σ κ} (hacts : v.acts = plainActs n.labels d f t) (hnet : v.net = n)
    (hhist : v.hist = (List.range (t + 1)).map (fun s => (plainActs n.labels d f s, n)))
    (hnm : v.nmap = some (neighbourhoodMap n)) :
    ∃ v', vrun cfg ks (List.replicate k .timestep) v = .ok v' ∧
      v'.hist = (List.range (t + k + 1)).map (fun s => (plainActs n.labels d f s, n)) ∧ v'.user = v.user := by
  induction k generalizing v t with
  | zero => exact ⟨v, rfl, hhist, rfl⟩
  | succ k ih =>
    have hs := vstep_plain hG hP hm ht hn hnb h0 hf ks t (by omega) hacts hnet hhist hnm
    simp only [List.replicate_succ, vrun, hs]
    obtain ⟨v', h1, h2, h3⟩ := ih (t + 1) (by omega) (v := ⟨_, plainActs n.labels d f (t + 1), n, v.memo, v.nmap, v.user⟩)
      rfl rfl rfl hnm
    refine ⟨v', h1, ?_, h3⟩
    rw [h2]
    have : t + 1 + k + 1 = t + (k + 1) + 1 := by omega
    rw [this]

/-- **Explicit trajectory** of a stateless rule on a fixed network. -/
theorem evolve_plain {cfg : Config L A V I σ κ} {G : NodeCtx L A V I → Except Err V}
    (hG : cfg.PureRule G) (hP : cfg.perturbation = none)
    (hm : cfg.memoize = false) (ht : cfg.topology = none) (hpk : cfg.PackOk) {n : Net L A} (hn : n.labels.Nodup)
    {nb : L → List L} (hnb : ∀ x ∈ n.labels, specNbrs n x = some (nb x) ∧ ∀ y ∈ nb x, y ∈ n.labels)
    {init : Option (Conds L V)} {f : Nat → L → V} (hlen : (initDict cfg init).length = n.size)
    (h0 : ∀ x ∈ n.labels, (initDict cfg init).get? x = some (f 0 x))
    {T : Nat} (hf : Follows cfg n nb G (initDict cfg init) f T) (hT1 : 1 ≤ T) (hin : cfg.input = .timesteps T) {r : Nat} {w : World L A σ} (hr : w.heap[r]? = some n)
    {fuel : Nat} (hfu : T ≤ fuel) :
    ∃ res, evolve fuel cfg init r w = .ok res ∧
      Observes cfg res ((List.range T).map (fun s => (plainActs n.labels (initDict cfg init) f s, n))) := by
  have hs : cfg.Safe := Or.inr (fun rule h => by rw [ht] at h; cases h)
  have hv : ∃ v, vevolve fuel cfg init n w.user = .ok v ∧
      v.hist = (List.range T).map (fun s => (plainActs n.labels (initDict cfg init) f s, n)) := by
    unfold vevolve
    have hc : vcheck cfg (initDict cfg init) n = .ok () := by simp [vcheck, hin, hlen]
    rw [hc]
    simp only
    have hi : staticInputs cfg.input = some (List.replicate (T - 1) (.timestep : Inp I)) := by
      rw [hin]; simp [staticInputs]; omega
    rw [vloop_static hi (by simp; omega) _ (by simp [vinit])]
    obtain ⟨v', h1, h2, _⟩ := vrun_plain hG hP hm ht hn hnb h0 hf (effectiveKey cfg n) (T - 1) 0 (by omega)
      (v := vinit cfg (initDict cfg init) n w.user) (by simp [vinit, plainActs]) (by simp [vinit])
      (by simp [vinit, plainActs]) (by simp [vinit, ht])
    refine ⟨v', h1, ?_⟩
    rw [h2]
    have : 0 + (T - 1) + 1 = T := by omega
    rw [this]
  obtain ⟨v, hv1, hv2⟩ := hv
  obtain ⟨res, ext, h1, h2, h3⟩ := evolve_of_vevolve hs hpk hr hv1
  exact ⟨res, h1, by rw [hv2] at h3; exact h3⟩

end
end Verif
