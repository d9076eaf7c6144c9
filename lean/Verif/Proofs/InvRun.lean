import Verif.Proofs.JointRun
/-! # Invariants of runs, for rules with state, any update order and any input -/

namespace Verif
open MG
section
variable {L A V I σ κ : Type} [DecidableEq L] [DecidableEq V] [DecidableEq κ]

/-- The neighbourhood map kept by a run from the network `n`. -/
def keptMap (cfg : Config L A V I σ κ) (n : Net L A) : Option (Dict L (List L)) :=
  if cfg.topology.isSome then none else some (neighbourhoodMap n)

/-- Timestep `t` with input `i` leads from activities `d`, network `n` and state `u` to `d'`, `n'`, `u'`, without memoization and requests. -/
def StepOk (cfg : Config L A V I σ κ) (nm : Option (Dict L (List L))) (t : Nat) (i : Inp I) (d : Dict L V) (n : Net L A) (u : σ) (d' : Dict L V)
    (n' : Net L A) (u' : σ) : Prop :=
  ∀ (ks : KeySpec L A V I κ) past (memo : Memo V κ), ∃ u1, match cfg.order with
    | .activitiesFirst => computeActs cfg ks t i d n past nm memo u = .ok ⟨d', [], [], memo, u1⟩ ∧ topoV cfg t d' n [] [] u1 = .ok (n', u')
    | .topologyFirst => topoV cfg t d n [] [] u = .ok (n', u1) ∧ computeActs cfg ks t i d n' past nm memo u1 = .ok ⟨d', [], [], memo, u'⟩
    | .synchronous => topoV cfg t d n [] [] u = .ok (n', u1) ∧ computeActs cfg ks t i d n past nm memo u1 = .ok ⟨d', [], [], memo, u'⟩

/-- The history of such a run. -/
structure InvAre (cfg : Config L A V I σ κ) (Inv : Nat → Dict L V → Net L A → σ → Prop) (Rel : Nat → Dict L V → Net L A → σ → Dict L V → Net L A → σ → Prop)
    (d0 : Dict L V) (n0 : Net L A) (u0 : σ) (t : Nat) (v : VLoop L A V σ κ) (ds : Nat → Dict L V) (ns : Nat → Net L A) (us : Nat → σ) : Prop where
  hist : v.hist = (List.range (t + 1)).map (fun s => (ds s, ns s))
  net : v.net = ns t
  acts : v.acts = ds t
  user : v.user = us t
  nmap : v.nmap = keptMap cfg n0
  start : ds 0 = d0 ∧ ns 0 = n0 ∧ us 0 = u0
  invs : ∀ s, s ≤ t → Inv s (ds s) (ns s) (us s)
  rels : ∀ s, s < t → Rel s (ds s) (ns s) (us s) (ds (s + 1)) (ns (s + 1)) (us (s + 1))

theorem invAre_step {cfg : Config L A V I σ κ} {Inv : Nat → Dict L V → Net L A → σ → Prop}
    {Rel : Nat → Dict L V → Net L A → σ → Dict L V → Net L A → σ → Prop} {d0 : Dict L V} {n0 : Net L A} {u0 : σ} {t : Nat}
    {v : VLoop L A V σ κ} {ds : Nat → Dict L V} {ns : Nat → Net L A} {us : Nat → σ} (h : InvAre cfg Inv Rel d0 n0 u0 t v ds ns us)
    {i : Inp I} {u1 : σ} {d' : Dict L V} {n' : Net L A} {u' : σ} (hs : StepOk cfg (keptMap cfg n0) (t + 1) i (ds t) (ns t) u1 d' n' u')
    (hi : Inv (t + 1) d' n' u') (hr : Rel t (ds t) (ns t) (us t) d' n' u') (ks : KeySpec L A V I κ) :
    ∃ v' ds' ns' us', vstep cfg ks i { v with user := u1 } = .ok v' ∧ InvAre cfg Inv Rel d0 n0 u0 (t + 1) v' ds' ns' us' := by
  have hl : v.hist.length = t + 1 := by rw [h.hist]; simp
  have hv : ∃ m, vstep cfg ks i { v with user := u1 } = .ok ⟨v.hist ++ [(d', n')], d', n', m, v.nmap, u'⟩ := by
    unfold vstep
    rw [pastV_eq cfg _ _ (by simp only [hl]; omega) (by simp [obsHist])]
    simp only
    obtain ⟨u2, h2⟩ := hs ks (if cfg.past.isEmpty then none else some ((List.range cfg.past.length).map (fun (i : Nat) =>
      pastVal cfg (obsHist cfg v.hist) ((v.hist.length : Int) - 1 - (cfg.past.length - (i : Int)))))) v.memo
    cases ho : cfg.order with
    | activitiesFirst =>
      simp only [ho] at h2
      simp only [hl] at h2 ⊢
      rw [h.acts, h.net, h.nmap]
      simp only [h2.1, h2.2, List.isEmpty_nil, Bool.and_self, if_true]
      exact ⟨_, rfl⟩
    | topologyFirst =>
      simp only [ho] at h2
      simp only [hl] at h2 ⊢
      rw [h.acts, h.net, h.nmap]
      simp only [h2.1, h2.2]
      exact ⟨_, rfl⟩
    | synchronous =>
      simp only [ho] at h2
      simp only [hl] at h2 ⊢
      rw [h.acts, h.net, h.nmap]
      simp only [h2.1, h2.2]
      exact ⟨_, rfl⟩
  obtain ⟨m, hv⟩ := hv
  refine ⟨_, fun s => if s = t + 1 then d' else ds s, fun s => if s = t + 1 then n' else ns s, fun s => if s = t + 1 then u' else us s, hv,
    ?_, by simp, by simp, by simp, h.nmap, ?_, ?_, ?_⟩
  · simp only
    rw [h.hist, List.range_succ (n := t + 1), List.map_append, List.map_singleton, if_pos rfl, if_pos rfl]
    congr 1
    apply List.map_congr_left
    intro s hs
    rw [List.mem_range] at hs
    rw [if_neg (by omega), if_neg (by omega)]
  · simp only [show ¬ (0 = t + 1) from by omega, if_false]
    exact h.start
  · intro s hs
    by_cases e : s = t + 1
    · simp only [e, if_true]; exact hi
    · simp only [if_neg e]; exact h.invs s (by omega)
  · intro s hs
    by_cases e : s = t
    · subst e
      simp only [if_true, show ¬ (s = s + 1) from by omega, if_false]
      exact hr
    · simp only [show ¬ (s = t + 1) from by omega, show ¬ (s + 1 = t + 1) from by omega, if_false]
      exact h.rels s (by omega)

theorem vloop_invAre {cfg : Config L A V I σ κ} {Inv : Nat → Dict L V → Net L A → σ → Prop}
    {Rel : Nat → Dict L V → Net L A → σ → Dict L V → Net L A → σ → Prop} {d0 : Dict L V} {n0 : Net L A} {u0 : σ} {T : Nat}
    (hstep : ∀ t d n u, t + 1 < T → Inv t d n u → ∃ i u1 d' n' u', callInput cfg.input (t + 1) d n u = .ok (some i, u1) ∧
      StepOk cfg (keptMap cfg n0) (t + 1) i d n u1 d' n' u' ∧ Inv (t + 1) d' n' u' ∧ Rel t d n u d' n' u')
    (hstop : ∀ d n u, Inv (T - 1) d n u → ∃ u', callInput cfg.input T d n u = .ok (none, u')) (ks : KeySpec L A V I κ) (k : Nat) :
    ∀ (fuel t : Nat) (v : VLoop L A V σ κ) ds ns us, k < fuel → t + 1 + k = T → InvAre cfg Inv Rel d0 n0 u0 t v ds ns us →
      ∃ v' u' ds' ns' us', vloop cfg ks fuel v = .ok { v' with user := u' } ∧ callInput cfg.input T (ds' (T - 1)) (ns' (T - 1)) (us' (T - 1)) = .ok (none, u') ∧
        InvAre cfg Inv Rel d0 n0 u0 (T - 1) v' ds' ns' us' := by
  induction k with
  | zero =>
    intro fuel t v ds ns us hf hT h
    obtain ⟨f, rfl⟩ : ∃ f, fuel = f + 1 := ⟨fuel - 1, by omega⟩
    have ht : t = T - 1 := by omega
    subst ht
    obtain ⟨u', hu⟩ := hstop _ _ _ (h.invs _ (Nat.le_refl _))
    refine ⟨v, u', ds, ns, us, ?_, hu, h⟩
    unfold vloop
    rw [show v.hist.length = T from by rw [h.hist]; simp; omega, h.acts, h.net, h.user, hu]
  | succ k ih =>
    intro fuel t v ds ns us hf hT h
    obtain ⟨f, rfl⟩ : ∃ f, fuel = f + 1 := ⟨fuel - 1, by omega⟩
    obtain ⟨i, u1, d', n', u', h1, h2, h3, h4⟩ := hstep t _ _ _ (by omega) (h.invs t (Nat.le_refl _))
    obtain ⟨v', ds', ns', us', h5, h6⟩ := invAre_step h h2 h3 h4 ks
    obtain ⟨v'', u'', r⟩ := ih f (t + 1) v' ds' ns' us' (by omega) (by omega) h6
    refine ⟨v'', u'', ?_⟩
    have hc : callInput cfg.input v.hist.length v.acts v.net v.user = .ok (some i, u1) := by
      rw [show v.hist.length = t + 1 from by rw [h.hist]; simp, h.acts, h.net, h.user, h1]
    unfold vloop
    rw [hc]
    simp only [h5]
    exact r

/-- **Invariants of runs.**  `Inv t` holds of the activities, the network and the user's state of state `t`; `Rel t` relates them to those of the
next state. -/
theorem inv_run {cfg : Config L A V I σ κ} (hs : cfg.Safe) (hpk : cfg.PackOk) {Inv : Nat → Dict L V → Net L A → σ → Prop}
    {Rel : Nat → Dict L V → Net L A → σ → Dict L V → Net L A → σ → Prop} {T : Nat} {n0 : Net L A}
    (hstep : ∀ t d n u, t + 1 < T → Inv t d n u → ∃ i u1 d' n' u', callInput cfg.input (t + 1) d n u = .ok (some i, u1) ∧
      StepOk cfg (keptMap cfg n0) (t + 1) i d n u1 d' n' u' ∧ Inv (t + 1) d' n' u' ∧ Rel t d n u d' n' u')
    (hstop : ∀ d n u, Inv (T - 1) d n u → ∃ u', callInput cfg.input T d n u = .ok (none, u'))
    (hT : 1 ≤ T) {init : Option (Conds L V)} {r : Nat} {w : World L A σ} (hin : cfg.input ≠ .neither)
    (hlen : (initDict cfg init).length = n0.size) (hr : w.heap[r]? = some n0) (h0 : Inv 0 (initDict cfg init) n0 w.user) {fuel : Nat} (hf : T ≤ fuel) :
    ∃ (res : Evolved L A V σ) (ds : Nat → Dict L V) (ns : Nat → Net L A) (us : Nat → σ), evolve fuel cfg init r w = .ok res ∧
      ds 0 = initDict cfg init ∧ ns 0 = n0 ∧ us 0 = w.user ∧ Observes cfg res ((List.range T).map (fun s => (ds s, ns s))) ∧
      (∀ t, t < T → Inv t (ds t) (ns t) (us t)) ∧ (∀ t, t + 1 < T → Rel t (ds t) (ns t) (us t) (ds (t + 1)) (ns (t + 1)) (us (t + 1))) ∧
      callInput cfg.input T (ds (T - 1)) (ns (T - 1)) (us (T - 1)) = .ok (none, res.world.user) := by
  obtain ⟨v, u', ds, ns, us, e1, e2, e3⟩ := vloop_invAre (d0 := initDict cfg init) (u0 := w.user) hstep hstop (effectiveKey cfg n0) (T - 1) fuel 0
    (vinit cfg (initDict cfg init) n0 w.user) (fun _ => initDict cfg init) (fun _ => n0) (fun _ => w.user) (by omega) (by omega)
    ⟨by simp [vinit], rfl, rfl, rfl, rfl, ⟨rfl, rfl, rfl⟩, fun s hs => by rw [show s = 0 by omega]; exact h0, fun s hs => absurd hs (by omega)⟩
  have hev : vevolve fuel cfg init n0 w.user = .ok { v with user := u' } := by
    unfold vevolve
    have hc : vcheck cfg (initDict cfg init) n0 = .ok () := by
      unfold vcheck
      cases hi : cfg.input <;> simp_all
    rw [hc]
    exact e1
  obtain ⟨res, ext, f1, f2, f3⟩ := evolve_of_vevolve hs hpk hr hev
  refine ⟨res, ds, ns, us, f1, e3.start.1, e3.start.2.1, e3.start.2.2, ?_, fun t ht => e3.invs t (by omega), fun t ht => e3.rels t (by omega), ?_⟩
  · have := e3.hist
    rw [show T - 1 + 1 = T by omega] at this
    rwa [show ({ v with user := u' } : VLoop L A V σ κ).hist = v.hist from rfl, this] at f3
  · rw [f2]
    exact e2

/-! ## One timestep of a rule with state -/

/-- The nodes in order, each with the state left by those before it. -/
def seqRun (step : L → σ → V × σ) : List L → σ → Dict L V × σ
  | [], u => ([], u)
  | x :: l, u => ((x, (step x u).1) :: (seqRun step l (step x u).2).1, (seqRun step l (step x u).2).2)

omit [DecidableEq L] [DecidableEq V] in
theorem keys_seqRun (step : L → σ → V × σ) : ∀ (l : List L) (u : σ), (seqRun step l u).1.keys = l
  | [], _ => rfl
  | x :: l, u => by simp only [seqRun, Dict.keys_cons, keys_seqRun step l]

theorem foldNodes_seq {cfg : Config L A V I σ κ} {rule : NodeCtx L A V I → σ → Except Err (RuleOut L A V × σ)} (hP : cfg.perturbation = none)
    (hm : cfg.memoize = false) (ks : KeySpec L A V I κ) {t : Nat} {inp : Inp I} {prev : Dict L V} {n : Net L A}
    {past : Option (List (Option (Dict L V)))} {nmap : Option (Dict L (List L))} {step : L → σ → V × σ} {Ok : σ → Prop} (l : List L)
    (hx : ∀ x ∈ l, ∀ u, Ok u → Ok (step x u).2 ∧ ∃ ctx, mkCtx cfg t inp prev n past nmap x = .ok ctx ∧ rule ctx u = .ok (⟨(step x u).1, [], []⟩, (step x u).2)) :
    ∀ (acc : Acc L A V σ κ), (acc.curr.keys ++ l).Nodup → Ok acc.user → l.foldlM (nodeStep cfg ks rule t inp prev n past nmap) acc =
      .ok ⟨acc.curr ++ (seqRun step l acc.user).1, acc.added, acc.removed, acc.memo, (seqRun step l acc.user).2⟩ := by
  induction l with
  | nil => intro acc _ _; simp [List.foldlM, pure, Except.pure, seqRun]
  | cons x l ih =>
    intro acc hnd hok
    have hxn : x ∉ acc.curr.keys := by
      rw [List.nodup_append] at hnd
      intro h
      exact hnd.2.2 x h x (by simp) rfl
    obtain ⟨hok', ctx, h1, h2⟩ := hx x (by simp) acc.user hok
    have hone : nodeStep cfg ks rule t inp prev n past nmap acc x =
        .ok ⟨acc.curr ++ [(x, (step x acc.user).1)], acc.added, acc.removed, acc.memo, (step x acc.user).2⟩ := by
      unfold nodeStep
      rw [h1]
      simp only [applyRule, hm, Bool.false_eq_true, if_false, h2, List.not_mem_nil, Dict.set_of_not_mem hxn, perturb, hP, List.append_nil]
    simp only [List.foldlM, bind, Except.bind]
    rw [hone]
    simp only
    rw [ih (fun y hy => hx y (by simp [hy])) _ (by simpa [Dict.keys_append] using hnd) hok']
    simp [seqRun]

theorem computeActs_seq {cfg : Config L A V I σ κ} {rule : NodeCtx L A V I → σ → Except Err (RuleOut L A V × σ)} (hR : cfg.rule = some rule)
    (hP : cfg.perturbation = none) (hm : cfg.memoize = false) (ks : KeySpec L A V I κ) {t : Nat} {inp : Inp I} {prev : Dict L V} {n : Net L A}
    (hn : n.labels.Nodup) {past : Option (List (Option (Dict L V)))} {nmap : Option (Dict L (List L))} {step : L → σ → V × σ} {Ok : σ → Prop}
    (hx : ∀ x ∈ n.labels, ∀ u, Ok u → Ok (step x u).2 ∧
      ∃ ctx, mkCtx cfg t inp prev n past nmap x = .ok ctx ∧ rule ctx u = .ok (⟨(step x u).1, [], []⟩, (step x u).2)) (memo : Memo V κ) {u : σ} (hu : Ok u) :
    computeActs cfg ks t inp prev n past nmap memo u = .ok ⟨(seqRun step n.labels u).1, [], [], memo, (seqRun step n.labels u).2⟩ := by
  unfold computeActs doActivityRule
  rw [hR]
  simp only
  rw [foldNodes_seq hP hm ks n.labels hx ⟨[], [], [], memo, u⟩ (by simpa using hn) hu]
  simp

/-- The context of a node, on the network of a multigraph. -/
theorem mkCtx_ofMG {cfg : Config L A V I σ κ} {g : MG L A} (hg : g.Valid) (hrot : g.rot = none) {d : Dict L V} {f : L → V}
    (hd : ∀ x ∈ g.labels, d.get? x = some (f x)) (t : Nat) (past : Option (List (Option (Dict L V)))) {i : Inp I} {o : Option I}
    {nm : Option (Dict L (List L))} (hnm : nm = none ∨ nm = some (neighbourhoodMap (ofMG g))) {x : L}
    (hx : x ∈ g.labels) (hi : SpecInput cfg.labelIdx i x o) :
    mkCtx cfg t i d (ofMG g) past nm x =
      .ok ⟨x, t, d, sources g.edges x, (sources g.edges x).map f, incomingOf g.edges x, f x, past, o⟩ := by
  obtain ⟨a, h1, h2⟩ := get?_ofMG_of_mem hx
  have hnb : specNbrs (ofMG g) x = some (sources g.edges x) := by
    unfold specNbrs
    have : (ofMG g).rotation = none := hrot
    rw [this, h2]
    simp only [Option.map_some, nodeOf]
    rw [keys_incomingOf]
  rw [mkCtx_ok_iff hnm]
  refine ⟨rfl, rfl, rfl, hnb, ?_, ?_, hd x hx, rfl, hi⟩
  · rw [List.map_map]
    apply List.map_congr_left
    intro y hy
    exact (hd y (mem_labels_of_mem_sources hg hy).1).symm
  · rw [h2]; rfl

/-- Without topology rule the update order does not matter. -/
theorem stepOk_static {cfg : Config L A V I σ κ} (htop : cfg.topology = none) {nm : Option (Dict L (List L))} {t : Nat} {i : Inp I} {d d' : Dict L V}
    {n : Net L A} {u u' : σ} (h : ∀ (ks : KeySpec L A V I κ) past (memo : Memo V κ), computeActs cfg ks t i d n past nm memo u = .ok ⟨d', [], [], memo, u'⟩) :
    StepOk cfg nm t i d n u d' n u' := by
  intro ks past memo
  have ht : ∀ (c : Dict L V) (u : σ), topoV cfg t c n [] [] u = .ok (n, u) := by
    intro c u
    unfold topoV reqsV
    simp only [List.isEmpty_nil, Bool.and_self, if_true, htop]
  cases ho : cfg.order with
  | activitiesFirst => exact ⟨u', h ks past memo, ht _ _⟩
  | topologyFirst => exact ⟨u, ht _ _, h ks past memo⟩
  | synchronous => exact ⟨u, ht _ _, h ks past memo⟩

omit [DecidableEq V] [DecidableEq κ] in
/-- What an observed history shows. -/
theorem shows_hist {cfg : Config L A V I σ κ} {T : Nat} (hpers : cfg.persistActs = true) (hcomp : cfg.compression = false) {ds : Nat → Dict L V}
    {ns : Nat → Net L A} {res : Evolved L A V σ} (ho : Observes cfg res ((List.range T).map (fun s => (ds s, ns s)))) :
    res.states.length = T ∧ ∀ t, t < T → ds t ≠ [] → res.acts cfg t = some (ds t) := by
  refine ⟨by rw [ho.len]; simp, ?_⟩
  intro t ht hne
  rw [ho.acts]
  simp only [List.getElem?_map, List.getElem?_range ht, Option.map_some, Option.bind_some, obsActs]
  rw [if_pos, hcomp]
  · simp
  · refine ⟨Or.inr hpers, ?_⟩
    cases hp : ds t with
    | nil => exact absurd hp hne
    | cons a l => rfl

end
end Verif
