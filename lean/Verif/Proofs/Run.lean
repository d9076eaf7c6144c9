import Verif.Proofs.EvolutionTotal
/-! # Explicit runs on a fixed network, for rules with state and with memoization -/

namespace Verif
section
variable {L A V I σ κ : Type} [DecidableEq L] [DecidableEq V] [DecidableEq κ]

/-- Context of node `x` at timestep `t + 1` of the explicit run `f`. -/
def runCtx (cfg : Config L A V I σ κ) (n : Net L A) (nb : L → List L) (d : Dict L V) (f : Nat → L → V)
    (nin : Nat → L → Option I) (t : Nat) (x : L) : NodeCtx L A V I :=
  ⟨x, t + 1, plainActs n.labels d f t, nb x, (nb x).map (f t),
    ((n.nodes.get? x).map (fun nd => nd.incoming)).getD [], f t x,
    specPast cfg ((List.range (t + 1)).map (fun s => (plainActs n.labels d f s, n))) (t + 1), nin t x⟩

/-- `f` is the run of `rule` from `d` on the network `n`.  `Pre t` holds of the memo table and the user's state after
timestep `t`; `Mid t done` holds of them during timestep `t + 1`, when the nodes `done` have been visited. -/
structure RunSteps (cfg : Config L A V I σ κ) (ks : KeySpec L A V I κ)
    (rule : NodeCtx L A V I → σ → Except Err (RuleOut L A V × σ)) (n : Net L A) (nb : L → List L) (d : Dict L V)
    (f : Nat → L → V) (inp : Nat → Inp I) (nin : Nat → L → Option I) (Pre : Nat → Memo V κ → σ → Prop)
    (Mid : Nat → List L → Memo V κ → σ → Prop) (T : Nat) : Prop where
  start : ∀ t m u, t + 1 < T → Pre t m u →
    ∃ u', callInput cfg.input (t + 1) (plainActs n.labels d f t) n u = .ok (some (inp t), u') ∧ Mid t [] m u'
  input : ∀ t x, t + 1 < T → x ∈ n.labels → SpecInput cfg.labelIdx (inp t) x (nin t x)
  node : ∀ t done x rest m u, t + 1 < T → n.labels = done ++ x :: rest → Mid t done m u →
    ∃ m' u', applyRule cfg ks rule (runCtx cfg n nb d f nin t x) m u = .ok (⟨f (t + 1) x, [], []⟩, m', u') ∧
      Mid t (done ++ [x]) m' u'
  post : ∀ t m u, t + 1 < T → Mid t n.labels m u → Pre (t + 1) m u

/-- `RunSteps`, and the run ends after `T` states. -/
structure RunSpec (cfg : Config L A V I σ κ) (ks : KeySpec L A V I κ)
    (rule : NodeCtx L A V I → σ → Except Err (RuleOut L A V × σ)) (n : Net L A) (nb : L → List L) (d : Dict L V)
    (f : Nat → L → V) (inp : Nat → Inp I) (nin : Nat → L → Option I) (Pre : Nat → Memo V κ → σ → Prop)
    (Mid : Nat → List L → Memo V κ → σ → Prop) (T : Nat) : Prop
    extends RunSteps cfg ks rule n nb d f inp nin Pre Mid T where
  stop : ∀ m u, Pre (T - 1) m u →
    ∃ u', callInput cfg.input T (plainActs n.labels d f (T - 1)) n u = .ok (none, u')

/-- The fold over the nodes. -/
theorem nodes_run {cfg : Config L A V I σ κ} {ks : KeySpec L A V I κ} {rule} (hP : cfg.perturbation = none)
    {n : Net L A} (hn : n.labels.Nodup) {nb : L → List L} {d : Dict L V} {f : Nat → L → V} {inp : Nat → Inp I}
    {nin : Nat → L → Option I} {Pre : Nat → Memo V κ → σ → Prop} {Mid : Nat → List L → Memo V κ → σ → Prop} {T : Nat}
    (hR : RunSteps cfg ks rule n nb d f inp nin Pre Mid T) {t : Nat} (ht : t + 1 < T) {prev : Dict L V}
    {past : Option (List (Option (Dict L V)))} {nmap : Option (Dict L (List L))}
    (hctx : ∀ x ∈ n.labels, mkCtx cfg (t + 1) (inp t) prev n past nmap x = .ok (runCtx cfg n nb d f nin t x))
    (rest : List L) : ∀ (done : List L) (m : Memo V κ) (u : σ), n.labels = done ++ rest → Mid t done m u →
    ∃ m' u', rest.foldlM (nodeStep cfg ks rule (t + 1) (inp t) prev n past nmap)
      ⟨Dict.ofKeys done (f (t + 1)), [], [], m, u⟩ = .ok ⟨Dict.ofKeys n.labels (f (t + 1)), [], [], m', u'⟩ ∧
      Mid t n.labels m' u' := by
  induction rest with
  | nil =>
    intro done m u hl hm
    rw [List.append_nil] at hl
    exact ⟨m, u, by rw [hl]; rfl, by rw [hl]; exact hm⟩
  | cons x rest ih =>
    intro done m u hl hm
    obtain ⟨m1, u1, h1, h2⟩ := hR.node t done x rest m u ht hl hm
    have hx : x ∈ n.labels := by rw [hl]; simp
    have hxd : x ∉ done := by
      intro hd
      rw [hl, List.nodup_append] at hn
      exact hn.2.2 x hd x (by simp) rfl
    have hset : (Dict.ofKeys done (f (t + 1))).set x (f (t + 1) x) = Dict.ofKeys (done ++ [x]) (f (t + 1)) := by
      rw [Dict.set_of_not_mem (by rw [Dict.keys_ofKeys]; exact hxd)]
      simp [Dict.ofKeys]
    obtain ⟨m', u', h3, h4⟩ := ih (done ++ [x]) m1 u1 (by rw [hl]; simp) h2
    refine ⟨m', u', ?_, h4⟩
    simp only [List.foldlM, bind, Except.bind]
    have : nodeStep cfg ks rule (t + 1) (inp t) prev n past nmap ⟨Dict.ofKeys done (f (t + 1)), [], [], m, u⟩ x =
        .ok ⟨Dict.ofKeys (done ++ [x]) (f (t + 1)), [], [], m1, u1⟩ := by
      unfold nodeStep
      rw [hctx x hx]
      simp only [h1, perturb, hP, List.not_mem_nil, if_false, hset, List.append_nil]
    rw [this]
    exact h3

/-- One explicit timestep. -/
theorem vstep_run {cfg : Config L A V I σ κ} {ks : KeySpec L A V I κ} {rule} (hG : cfg.rule = some rule)
    (hP : cfg.perturbation = none) (htop : cfg.topology = none)
    {n : Net L A} (hn : n.labels.Nodup) {nb : L → List L}
    (hnb : ∀ x ∈ n.labels, specNbrs n x = some (nb x) ∧ ∀ y ∈ nb x, y ∈ n.labels)
    {d : Dict L V} {f : Nat → L → V} (h0 : ∀ x ∈ n.labels, d.get? x = some (f 0 x)) {inp : Nat → Inp I}
    {nin : Nat → L → Option I} {Pre : Nat → Memo V κ → σ → Prop} {Mid : Nat → List L → Memo V κ → σ → Prop} {T : Nat}
    (hR : RunSteps cfg ks rule n nb d f inp nin Pre Mid T) {t : Nat} (ht : t + 1 < T)
    {v : VLoop L A V σ κ} (hacts : v.acts = plainActs n.labels d f t) (hnet : v.net = n)
    (hhist : v.hist = (List.range (t + 1)).map (fun s => (plainActs n.labels d f s, n)))
    (hnm : v.nmap = some (neighbourhoodMap n)) (hmid : Mid t [] v.memo v.user) :
    ∃ m' u', Mid t n.labels m' u' ∧
      vstep cfg ks (inp t) v = .ok ⟨(List.range (t + 2)).map (fun s => (plainActs n.labels d f s, n)),
        plainActs n.labels d f (t + 1), n, m', v.nmap, u'⟩ := by
  have hlen : v.hist.length = t + 1 := by rw [hhist]; simp
  have hp := pastV_spec cfg v.hist v.hist.length (by omega) (Nat.le_refl _)
  rw [List.take_length] at hp
  have hctx : ∀ x ∈ n.labels, mkCtx cfg v.hist.length (inp t) v.acts n (specPast cfg v.hist v.hist.length) v.nmap x =
      .ok (runCtx cfg n nb d f nin t x) := by
    intro x hx
    obtain ⟨nd, hnd⟩ := Dict.exists_get?_of_mem_keys (d := n.nodes) (by simpa [Net.labels] using hx)
    rw [mkCtx_ok_iff (Or.inr hnm)]
    refine ⟨rfl, by simp [runCtx, hlen], hacts.symm, (hnb x hx).1, ?_, by simp [runCtx, hnd],
      by rw [hacts]; exact get?_plainActs h0 t hx, by rw [hlen, hhist]; rfl, hR.input t x ht hx⟩
    simp only [runCtx, List.map_map]
    apply List.map_congr_left
    intro y hy
    rw [hacts, get?_plainActs h0 t ((hnb x hx).2 y hy)]; rfl
  obtain ⟨m', u', h1, h2⟩ := nodes_run hP hn hR ht (prev := v.acts) (past := specPast cfg v.hist v.hist.length)
    (nmap := v.nmap) (by rw [← hlen]; exact hctx) n.labels [] v.memo v.user rfl hmid
  refine ⟨m', u', h2, ?_⟩
  have hca : computeActs cfg ks v.hist.length (inp t) v.acts n (specPast cfg v.hist v.hist.length) v.nmap v.memo v.user =
      .ok ⟨plainActs n.labels d f (t + 1), [], [], m', u'⟩ := by
    unfold computeActs doActivityRule
    rw [hG]
    simp only
    have hz : (Dict.ofKeys [] (f (t + 1)) : Dict L V) = [] := rfl
    rw [hz, ← hlen] at h1
    rw [h1]
    simp [plainActs, hlen]
  have hres : v.hist ++ [(plainActs n.labels d f (t + 1), n)] =
      (List.range (t + 2)).map (fun s => (plainActs n.labels d f s, n)) := by
    rw [hhist, List.range_succ (n := t + 1)]; simp
  unfold vstep
  rw [hp]
  cases ho : cfg.order with
  | activitiesFirst =>
    simp only [hnet, hca, topoV_none htop, List.isEmpty_nil, Bool.and_self, if_true, hres]
  | topologyFirst =>
    simp only [hnet, topoV_none htop, hca, hres]
  | synchronous =>
    simp only [hnet, topoV_none htop, hca, hres]

theorem vloop_run {cfg : Config L A V I σ κ} {ks : KeySpec L A V I κ} {rule} (hG : cfg.rule = some rule)
    (hP : cfg.perturbation = none) (htop : cfg.topology = none)
    {n : Net L A} (hn : n.labels.Nodup) {nb : L → List L}
    (hnb : ∀ x ∈ n.labels, specNbrs n x = some (nb x) ∧ ∀ y ∈ nb x, y ∈ n.labels)
    {d : Dict L V} {f : Nat → L → V} (h0 : ∀ x ∈ n.labels, d.get? x = some (f 0 x)) {inp : Nat → Inp I}
    {nin : Nat → L → Option I} {Pre : Nat → Memo V κ → σ → Prop} {Mid : Nat → List L → Memo V κ → σ → Prop} {T : Nat}
    (hR : RunSpec cfg ks rule n nb d f inp nin Pre Mid T) (k : Nat) : ∀ (t : Nat) (_ : t + 1 + k = T)
    (v : VLoop L A V σ κ) (_ : v.acts = plainActs n.labels d f t) (_ : v.net = n)
    (_ : v.hist = (List.range (t + 1)).map (fun s => (plainActs n.labels d f s, n)))
    (_ : v.nmap = some (neighbourhoodMap n)) (_ : Pre t v.memo v.user) (fuel : Nat) (_ : k < fuel),
    ∃ v' m u, vloop cfg ks fuel v = .ok v' ∧
      v'.hist = (List.range T).map (fun s => (plainActs n.labels d f s, n)) ∧ Pre (T - 1) m u ∧
      callInput cfg.input T (plainActs n.labels d f (T - 1)) n u = .ok (none, v'.user) := by
  induction k with
  | zero =>
    intro t htk v hacts hnet hhist hnm hpre fuel hfu
    obtain ⟨fuel, rfl⟩ : ∃ k', fuel = k' + 1 := ⟨fuel - 1, by omega⟩
    have hT : T - 1 = t := by omega
    rw [← hT] at hpre
    obtain ⟨u', hu⟩ := hR.stop _ _ hpre
    have hlen : v.hist.length = T := by rw [hhist]; simp; omega
    refine ⟨{ v with user := u' }, v.memo, v.user, ?_, ?_, hpre, hu⟩
    · simp only [vloop]
      rw [hlen, hacts, hnet, ← hT, hu]
    · simp only [hhist]
      rw [show t + 1 = T by omega]
  | succ k ih =>
    intro t htk v hacts hnet hhist hnm hpre fuel hfu
    obtain ⟨fuel, rfl⟩ : ∃ k', fuel = k' + 1 := ⟨fuel - 1, by omega⟩
    obtain ⟨u1, h1, h2⟩ := hR.start t _ _ (by omega) hpre
    have hlen : v.hist.length = t + 1 := by rw [hhist]; simp
    obtain ⟨m', u', h3, h4⟩ := vstep_run hG hP htop hn hnb h0 hR.toRunSteps (by omega : t + 1 < T) (v := { v with user := u1 })
      hacts hnet hhist hnm h2
    have hci : callInput cfg.input v.hist.length v.acts v.net v.user = .ok (some (inp t), u1) := by
      rw [hlen, hacts, hnet]; exact h1
    simp only [vloop]
    rw [hci]
    simp only
    rw [h4]
    simp only
    exact ih (t + 1) (by omega) ⟨(List.range (t + 2)).map (fun s => (plainActs n.labels d f s, n)),
        plainActs n.labels d f (t + 1), n, m', v.nmap, u'⟩ rfl rfl rfl hnm (hR.post t m' u' (by omega) h3) fuel (by omega)

/-- **Explicit trajectory.** -/
theorem evolve_run {cfg : Config L A V I σ κ} {rule} (hG : cfg.rule = some rule)
    (hP : cfg.perturbation = none) (htop : cfg.topology = none) (hpk : cfg.PackOk)
    {n : Net L A} (hn : n.labels.Nodup) {nb : L → List L}
    (hnb : ∀ x ∈ n.labels, specNbrs n x = some (nb x) ∧ ∀ y ∈ nb x, y ∈ n.labels)
    {init : Option (Conds L V)} {f : Nat → L → V} (hlen : (initDict cfg init).length = n.size)
    (h0 : ∀ x ∈ n.labels, (initDict cfg init).get? x = some (f 0 x)) {inp : Nat → Inp I}
    {nin : Nat → L → Option I} {Pre : Nat → Memo V κ → σ → Prop} {Mid : Nat → List L → Memo V κ → σ → Prop} {T : Nat}
    (hR : RunSpec cfg (effectiveKey cfg n) rule n nb (initDict cfg init) f inp nin Pre Mid T) (hT1 : 1 ≤ T)
    (hin : cfg.input ≠ .neither) {r : Nat} {w : World L A σ} (hr : w.heap[r]? = some n) (hpre : Pre 0 [] w.user)
    {fuel : Nat} (hfu : T ≤ fuel) :
    ∃ res m u ext, evolve fuel cfg init r w = .ok res ∧ res.world.heap = w.heap ++ ext ∧
      Observes cfg res ((List.range T).map (fun s => (plainActs n.labels (initDict cfg init) f s, n))) ∧
      Pre (T - 1) m u ∧
      callInput cfg.input T (plainActs n.labels (initDict cfg init) f (T - 1)) n u = .ok (none, res.world.user) := by
  have hs : cfg.Safe := Or.inr (fun rule h => by rw [htop] at h; cases h)
  obtain ⟨v', m, u, h1, h2, h3, h4⟩ := vloop_run hG hP htop hn hnb h0 hR (T - 1) 0 (by omega)
    (vinit cfg (initDict cfg init) n w.user) (by simp [vinit, plainActs]) (by simp [vinit])
    (by simp [vinit, plainActs]) (by simp [vinit, htop]) (by simpa [vinit] using hpre) fuel (by omega)
  have hv : vevolve fuel cfg init n w.user = .ok v' := by
    unfold vevolve
    have hc : vcheck cfg (initDict cfg init) n = .ok () := by
      unfold vcheck
      cases hi : cfg.input <;> simp_all
    rw [hc]
    exact h1
  obtain ⟨res, ext, e1, e2, e3⟩ := evolve_of_vevolve hs hpk hr hv
  rw [h2] at e3
  exact ⟨res, m, u, ext, e1, by rw [e2], e3, h3, by rw [h4, e2]⟩

/-- The loop after `k` timesteps of an explicit run. -/
theorem vloop_steps {cfg : Config L A V I σ κ} {ks : KeySpec L A V I κ} {rule} (hG : cfg.rule = some rule)
    (hP : cfg.perturbation = none) (htop : cfg.topology = none)
    {n : Net L A} (hn : n.labels.Nodup) {nb : L → List L}
    (hnb : ∀ x ∈ n.labels, specNbrs n x = some (nb x) ∧ ∀ y ∈ nb x, y ∈ n.labels)
    {d : Dict L V} {f : Nat → L → V} (h0 : ∀ x ∈ n.labels, d.get? x = some (f 0 x)) {inp : Nat → Inp I}
    {nin : Nat → L → Option I} {Pre : Nat → Memo V κ → σ → Prop} {Mid : Nat → List L → Memo V κ → σ → Prop} {T : Nat}
    (hR : RunSteps cfg ks rule n nb d f inp nin Pre Mid T) (k : Nat) : ∀ (t : Nat) (_ : t + 1 + k = T)
    (v : VLoop L A V σ κ) (_ : v.acts = plainActs n.labels d f t) (_ : v.net = n)
    (_ : v.hist = (List.range (t + 1)).map (fun s => (plainActs n.labels d f s, n)))
    (_ : v.nmap = some (neighbourhoodMap n)) (_ : Pre t v.memo v.user) (fuel : Nat),
    ∃ v', vloop cfg ks (fuel + k) v = vloop cfg ks fuel v' ∧ v'.acts = plainActs n.labels d f (T - 1) ∧ v'.net = n ∧
      v'.hist = (List.range T).map (fun s => (plainActs n.labels d f s, n)) ∧
      v'.nmap = some (neighbourhoodMap n) ∧ Pre (T - 1) v'.memo v'.user := by
  induction k with
  | zero =>
    intro t htk v hacts hnet hhist hnm hpre fuel
    have hT : T - 1 = t := by omega
    refine ⟨v, rfl, by rw [hT]; exact hacts, hnet, by rw [hhist, show t + 1 = T by omega], hnm, by rw [hT]; exact hpre⟩
  | succ k ih =>
    intro t htk v hacts hnet hhist hnm hpre fuel
    obtain ⟨u1, h1, h2⟩ := hR.start t _ _ (by omega) hpre
    have hlen : v.hist.length = t + 1 := by rw [hhist]; simp
    obtain ⟨m', u', h3, h4⟩ := vstep_run hG hP htop hn hnb h0 hR (by omega : t + 1 < T) (v := { v with user := u1 })
      hacts hnet hhist hnm h2
    have hci : callInput cfg.input v.hist.length v.acts v.net v.user = .ok (some (inp t), u1) := by
      rw [hlen, hacts, hnet]; exact h1
    obtain ⟨v', e1, e2⟩ := ih (t + 1) (by omega) ⟨(List.range (t + 2)).map (fun s => (plainActs n.labels d f s, n)),
        plainActs n.labels d f (t + 1), n, m', v.nmap, u'⟩ rfl rfl rfl hnm (hR.post t m' u' (by omega) h3) fuel
    refine ⟨v', ?_, e2⟩
    rw [← e1, show fuel + (k + 1) = (fuel + k) + 1 by omega]
    simp only [vloop]
    rw [hci]
    simp only
    rw [h4]

/-- A timestep in which the rule raises at node `x`, the nodes `done` having been visited. -/
theorem vstep_fail {cfg : Config L A V I σ κ} {ks : KeySpec L A V I κ} {rule} (hG : cfg.rule = some rule)
    (hP : cfg.perturbation = none) (htop : cfg.topology = none)
    {n : Net L A} {nb : L → List L}
    (hnb : ∀ x ∈ n.labels, specNbrs n x = some (nb x) ∧ ∀ y ∈ nb x, y ∈ n.labels)
    {d : Dict L V} {f : Nat → L → V} (h0 : ∀ x ∈ n.labels, d.get? x = some (f 0 x)) {i : Inp I}
    {nin : Nat → L → Option I} {Mid : List L → Memo V κ → σ → Prop} {t : Nat}
    (hin : ∀ x ∈ n.labels, SpecInput cfg.labelIdx i x (nin t x)) {done : List L} {x : L} {rest : List L} {e : Err}
    (hl : n.labels = done ++ x :: rest)
    (hdone : ∀ d1 y d2 m u, done = d1 ++ y :: d2 → Mid d1 m u → ∃ v m' u',
      applyRule cfg ks rule (runCtx cfg n nb d f nin t y) m u = .ok (⟨v, [], []⟩, m', u') ∧ Mid (d1 ++ [y]) m' u')
    (hfail : ∀ m u, Mid done m u → applyRule cfg ks rule (runCtx cfg n nb d f nin t x) m u = .error e)
    {v : VLoop L A V σ κ} (hacts : v.acts = plainActs n.labels d f t) (hnet : v.net = n)
    (hhist : v.hist = (List.range (t + 1)).map (fun s => (plainActs n.labels d f s, n)))
    (hnm : v.nmap = some (neighbourhoodMap n)) (hmid : Mid [] v.memo v.user) :
    vstep cfg ks i v = .error e := by
  have hlen : v.hist.length = t + 1 := by rw [hhist]; simp
  have hp := pastV_spec cfg v.hist v.hist.length (by omega) (Nat.le_refl _)
  rw [List.take_length] at hp
  have hctx : ∀ x ∈ n.labels, mkCtx cfg v.hist.length i v.acts n (specPast cfg v.hist v.hist.length) v.nmap x =
      .ok (runCtx cfg n nb d f nin t x) := by
    intro x hx
    obtain ⟨nd, hnd⟩ := Dict.exists_get?_of_mem_keys (d := n.nodes) (by simpa [Net.labels] using hx)
    rw [mkCtx_ok_iff (Or.inr hnm)]
    refine ⟨rfl, by simp [runCtx, hlen], hacts.symm, (hnb x hx).1, ?_, by simp [runCtx, hnd],
      by rw [hacts]; exact get?_plainActs h0 t hx, by rw [hlen, hhist]; rfl, hin x hx⟩
    simp only [runCtx, List.map_map]
    apply List.map_congr_left
    intro y hy
    rw [hacts, get?_plainActs h0 t ((hnb x hx).2 y hy)]; rfl
  have hfold : ∀ (d2 d1 : List L) (c : Dict L V) (m : Memo V κ) (u : σ), done = d1 ++ d2 → Mid d1 m u →
      (d2 ++ x :: rest).foldlM (nodeStep cfg ks rule v.hist.length i v.acts n (specPast cfg v.hist v.hist.length) v.nmap)
        ⟨c, [], [], m, u⟩ = .error e := by
    intro d2
    induction d2 with
    | nil =>
      intro d1 c m u hd hm
      rw [List.append_nil] at hd
      subst hd
      have : nodeStep cfg ks rule v.hist.length i v.acts n (specPast cfg v.hist v.hist.length) v.nmap
          ⟨c, [], [], m, u⟩ x = .error e := by
        unfold nodeStep
        rw [hctx x (by rw [hl]; simp)]
        simp only [hfail m u hm]
      simp only [List.nil_append, List.foldlM, bind, Except.bind, this]
    | cons y d2 ih =>
      intro d1 c m u hd hm
      obtain ⟨w, m', u', a1, a2⟩ := hdone d1 y d2 m u hd hm
      have : nodeStep cfg ks rule v.hist.length i v.acts n (specPast cfg v.hist v.hist.length) v.nmap
          ⟨c, [], [], m, u⟩ y = .ok ⟨c.set y w, [], [], m', u'⟩ := by
        unfold nodeStep
        rw [hctx y (by rw [hl, hd]; simp)]
        simp only [a1, perturb, hP, List.not_mem_nil, if_false, List.append_nil]
      simp only [List.cons_append, List.foldlM, bind, Except.bind, this]
      exact ih (d1 ++ [y]) _ m' u' (by rw [hd]; simp) a2
  have hca : computeActs cfg ks v.hist.length i v.acts n (specPast cfg v.hist v.hist.length) v.nmap v.memo v.user =
      .error e := by
    unfold computeActs doActivityRule
    rw [hG]
    simp only
    rw [hl, hfold done [] [] v.memo v.user (by simp) hmid]
  unfold vstep
  rw [hp]
  cases ho : cfg.order with
  | activitiesFirst => simp only [hnet, hca]
  | topologyFirst => simp only [hnet, topoV_none htop, hca]
  | synchronous => simp only [hnet, topoV_none htop, hca]

/-- **A run that raises**: `T` states are computed, then the rule raises. -/
theorem evolve_fail {cfg : Config L A V I σ κ} {rule} (hG : cfg.rule = some rule)
    (hP : cfg.perturbation = none) (htop : cfg.topology = none) (hpk : cfg.PackOk)
    {n : Net L A} (hn : n.labels.Nodup) {nb : L → List L}
    (hnb : ∀ x ∈ n.labels, specNbrs n x = some (nb x) ∧ ∀ y ∈ nb x, y ∈ n.labels)
    {init : Option (Conds L V)} {f : Nat → L → V} (hlen : (initDict cfg init).length = n.size)
    (h0 : ∀ x ∈ n.labels, (initDict cfg init).get? x = some (f 0 x)) {inp : Nat → Inp I}
    {nin : Nat → L → Option I} {Pre : Nat → Memo V κ → σ → Prop} {Mid : Nat → List L → Memo V κ → σ → Prop} {T : Nat}
    (hR : RunSteps cfg (effectiveKey cfg n) rule n nb (initDict cfg init) f inp nin Pre Mid T) (hT1 : 1 ≤ T)
    (hin : cfg.input ≠ .neither) {r : Nat} {w : World L A σ} (hr : w.heap[r]? = some n) (hpre : Pre 0 [] w.user)
    (hstart : ∀ m u, Pre (T - 1) m u → ∃ u', callInput cfg.input T (plainActs n.labels (initDict cfg init) f (T - 1)) n u =
      .ok (some (inp (T - 1)), u') ∧ Mid (T - 1) [] m u')
    (hinp : ∀ x ∈ n.labels, SpecInput cfg.labelIdx (inp (T - 1)) x (nin (T - 1) x))
    {done : List L} {x : L} {rest : List L} {e : Err} (hl : n.labels = done ++ x :: rest)
    (hdone : ∀ d1 y d2 m u, done = d1 ++ y :: d2 → Mid (T - 1) d1 m u → ∃ v m' u',
      applyRule cfg (effectiveKey cfg n) rule (runCtx cfg n nb (initDict cfg init) f nin (T - 1) y) m u =
        .ok (⟨v, [], []⟩, m', u') ∧ Mid (T - 1) (d1 ++ [y]) m' u')
    (hfail : ∀ m u, Mid (T - 1) done m u →
      applyRule cfg (effectiveKey cfg n) rule (runCtx cfg n nb (initDict cfg init) f nin (T - 1) x) m u = .error e)
    {fuel : Nat} (hfu : T ≤ fuel) : evolve fuel cfg init r w = .error e := by
  have hs : cfg.Safe := Or.inr (fun rule h => by rw [htop] at h; cases h)
  obtain ⟨k, rfl⟩ : ∃ k, fuel = k + 1 + (T - 1) := ⟨fuel - T, by omega⟩
  obtain ⟨v', e1, e2, e3, e4, e5, e6⟩ := vloop_steps hG hP htop hn hnb h0 hR (T - 1) 0 (by omega)
    (vinit cfg (initDict cfg init) n w.user) (by simp [vinit, plainActs]) (by simp [vinit])
    (by simp [vinit, plainActs]) (by simp [vinit, htop]) (by simpa [vinit] using hpre) (k + 1)
  rw [evolve_error_iff hs hpk hr]
  unfold vevolve
  have hc : vcheck cfg (initDict cfg init) n = .ok () := by
    unfold vcheck
    cases hi : cfg.input <;> simp_all
  rw [hc]
  show vloop cfg (effectiveKey cfg n) (k + 1 + (T - 1)) _ = _
  rw [e1]
  obtain ⟨u', g1, g2⟩ := hstart _ _ e6
  simp only [vloop]
  have hvl : v'.hist.length = T := by rw [e4]; simp
  have g1' : callInput cfg.input v'.hist.length v'.acts v'.net v'.user = .ok (some (inp (T - 1)), u') := by
    rw [hvl, e2, e3]; exact g1
  rw [g1']
  simp only
  rw [vstep_fail hG hP htop hnb h0 (Mid := Mid (T - 1)) (t := T - 1) hinp hl hdone hfail (v := { v' with user := u' })
    e2 e3 (by show v'.hist = _; rw [e4, Nat.sub_add_cancel hT1]) e5 g2]

/-- **A run without end**: no amount of fuel is enough. -/
theorem evolve_diverges {cfg : Config L A V I σ κ} {rule} (hG : cfg.rule = some rule)
    (hP : cfg.perturbation = none) (htop : cfg.topology = none) (hpk : cfg.PackOk)
    {n : Net L A} (hn : n.labels.Nodup) {nb : L → List L}
    (hnb : ∀ x ∈ n.labels, specNbrs n x = some (nb x) ∧ ∀ y ∈ nb x, y ∈ n.labels)
    {init : Option (Conds L V)} {f : Nat → L → V} (hlen : (initDict cfg init).length = n.size)
    (h0 : ∀ x ∈ n.labels, (initDict cfg init).get? x = some (f 0 x)) {inp : Nat → Inp I}
    {nin : Nat → L → Option I} {Pre : Nat → Memo V κ → σ → Prop} {Mid : Nat → List L → Memo V κ → σ → Prop}
    (hR : ∀ T, RunSteps cfg (effectiveKey cfg n) rule n nb (initDict cfg init) f inp nin Pre Mid T)
    (hin : cfg.input ≠ .neither) {r : Nat} {w : World L A σ} (hr : w.heap[r]? = some n) (hpre : Pre 0 [] w.user)
    (fuel : Nat) : evolve fuel cfg init r w = .error .outOfFuel := by
  have hs : cfg.Safe := Or.inr (fun rule h => by rw [htop] at h; cases h)
  obtain ⟨v', e1, _⟩ := vloop_steps hG hP htop hn hnb h0 (hR (fuel + 1)) fuel 0 (by omega)
    (vinit cfg (initDict cfg init) n w.user) (by simp [vinit, plainActs]) (by simp [vinit])
    (by simp [vinit, plainActs]) (by simp [vinit, htop]) (by simpa [vinit] using hpre) 0
  rw [evolve_error_iff hs hpk hr]
  unfold vevolve
  have hc : vcheck cfg (initDict cfg init) n = .ok () := by
    unfold vcheck
    cases hi : cfg.input <;> simp_all
  rw [hc]
  show vloop cfg (effectiveKey cfg n) fuel _ = _
  rw [Nat.zero_add] at e1
  rw [e1]
  rfl

end
end Verif
