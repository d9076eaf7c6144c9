import Verif.Proofs.Run
import Verif.Proofs.Memo
/-! # Explicit runs of stateless rules on a fixed network, with and without memoization -/

namespace Verif
section
variable {L A V I σ κ : Type} [DecidableEq L] [DecidableEq V] [DecidableEq κ]

/-- Context of node `x` at timestep `t + 1` of an explicit run with `timesteps`. -/
def plainCtx (cfg : Config L A V I σ κ) (n : Net L A) (nb : L → List L) (d : Dict L V) (f : Nat → L → V) (t : Nat) (x : L) :
    NodeCtx L A V I := runCtx cfg n nb d f (fun _ _ => none) t x

/-- Contexts of the run with equal keys have equal results. -/
def KeysAgree (cfg : Config L A V I σ κ) (ks : KeySpec L A V I κ) (n : Net L A) (nb : L → List L) (d : Dict L V)
    (f : Nat → L → V) (T : Nat) : Prop :=
  ∀ t t' x x', t + 1 < T → t' + 1 < T → x ∈ n.labels → x' ∈ n.labels →
    MemoKey.eq (toKey ks (plainCtx cfg n nb d f t x)) (toKey ks (plainCtx cfg n nb d f t' x')) = true →
    f (t + 1) x = f (t' + 1) x'

/-- **Explicit trajectory** of a stateless rule on a fixed network, with or without memoization. -/
theorem evolve_pure {cfg : Config L A V I σ κ} {G : NodeCtx L A V I → Except Err V} (hG : cfg.PureRule G)
    (hP : cfg.perturbation = none) (ht : cfg.topology = none) (hpk : cfg.PackOk) {n : Net L A} (hn : n.labels.Nodup)
    {nb : L → List L} (hnb : ∀ x ∈ n.labels, specNbrs n x = some (nb x) ∧ ∀ y ∈ nb x, y ∈ n.labels)
    {init : Option (Conds L V)} {f : Nat → L → V} (hlen : (initDict cfg init).length = n.size)
    (h0 : ∀ x ∈ n.labels, (initDict cfg init).get? x = some (f 0 x)) {T : Nat}
    (hf : ∀ t, t + 1 < T → ∀ x ∈ n.labels, G (plainCtx cfg n nb (initDict cfg init) f t x) = .ok (f (t + 1) x))
    (hk : cfg.memoize = true → KeysAgree cfg (effectiveKey cfg n) n nb (initDict cfg init) f T)
    (hT1 : 1 ≤ T) (hin : cfg.input = .timesteps T) {r : Nat} {w : World L A σ} (hr : w.heap[r]? = some n)
    {fuel : Nat} (hfu : T ≤ fuel) :
    ∃ res ext, evolve fuel cfg init r w = .ok res ∧ res.world = ⟨w.heap ++ ext, w.user⟩ ∧
      Observes cfg res ((List.range T).map (fun s => (plainActs n.labels (initDict cfg init) f s, n))) := by
  have hR : RunSpec cfg (effectiveKey cfg n) (pureRule G) n nb (initDict cfg init) f (fun _ => .timestep)
      (fun _ _ => none)
      (fun _ m u => u = w.user ∧ ∀ p ∈ m, ∃ t' x', t' + 1 < T ∧ x' ∈ n.labels ∧
        p.1 = toKey (effectiveKey cfg n) (plainCtx cfg n nb (initDict cfg init) f t' x') ∧ p.2 = f (t' + 1) x')
      (fun _ _ m u => u = w.user ∧ ∀ p ∈ m, ∃ t' x', t' + 1 < T ∧ x' ∈ n.labels ∧
        p.1 = toKey (effectiveKey cfg n) (plainCtx cfg n nb (initDict cfg init) f t' x') ∧ p.2 = f (t' + 1) x') T := by
    refine ⟨⟨?_, ?_, ?_, ?_⟩, ?_⟩
    · intro t m u htT h
      refine ⟨u, ?_, h⟩
      rw [hin]
      simp only [callInput, Except.ok.injEq, Prod.mk.injEq, and_true]
      rw [if_neg (by omega)]
    · intro t x _ _; rfl
    · intro t done x rest m u htT hl ⟨hu, hm⟩
      have hx : x ∈ n.labels := by rw [hl]; simp
      have hg := hf t htT x hx
      unfold applyRule
      by_cases hme : cfg.memoize = true
      · rw [if_pos hme]
        cases hfd : m.find (toKey (effectiveKey cfg n) (runCtx cfg n nb (initDict cfg init) f (fun _ _ => none) t x)) with
        | some v =>
          simp only
          unfold Memo.find at hfd
          obtain ⟨p, hp1, rfl⟩ := Option.map_eq_some_iff.1 hfd
          have hp2 := List.find?_some hp1
          obtain ⟨t', x', a1, a2, a3, a4⟩ := hm p (List.mem_of_find?_eq_some hp1)
          rw [a3] at hp2
          have := hk hme t' t x' x a1 htT a2 hx hp2
          exact ⟨m, u, by rw [a4, this], hu, hm⟩
        | none =>
          simp only
          unfold plainCtx at hg
          rw [pureRule, hg]
          refine ⟨_, u, rfl, hu, ?_⟩
          intro p hp
          rcases List.mem_append.1 hp with hp | hp
          · exact hm p hp
          · simp only [List.mem_singleton] at hp
            subst hp
            exact ⟨t, x, htT, hx, rfl, rfl⟩
      · rw [if_neg hme]
        unfold plainCtx at hg
        rw [pureRule, hg]
        exact ⟨m, u, rfl, hu, hm⟩
    · intro t m u _ h; exact h
    · intro m u h
      refine ⟨u, ?_⟩
      rw [hin]
      simp only [callInput, Except.ok.injEq, Prod.mk.injEq, and_true]
      rw [if_pos trivial]
  obtain ⟨res, m, u, ext, e1, e2, e3, ⟨e4, _⟩, e5⟩ := evolve_run hG hP ht hpk hn hnb hlen h0 hR hT1
    (by rw [hin]; intro h; cases h) hr ⟨rfl, fun p hp => by cases hp⟩ hfu
  refine ⟨res, ext, e1, ?_, e3⟩
  rw [hin, callInput] at e5
  simp only [Except.ok.injEq, Prod.mk.injEq] at e5
  have e6 : res.world.user = w.user := by rw [← e5.2, e4]
  cases hw : res.world with
  | mk h u' => rw [hw] at e2 e6; simp only at e2 e6; rw [e2, e6]

/-- Converse: a finished run is an explicit run. -/
theorem pure_of_evolve {cfg : Config L A V I σ κ} {G : NodeCtx L A V I → Except Err V} (hG : cfg.PureRule G)
    (hP : cfg.perturbation = none) (hm : cfg.memoize = false) (ht : cfg.topology = none) (hpk : cfg.PackOk) {n : Net L A}
    (hn : n.labels.Nodup)
    {nb : L → List L} (hnb : ∀ x ∈ n.labels, specNbrs n x = some (nb x) ∧ ∀ y ∈ nb x, y ∈ n.labels)
    {init : Option (Conds L V)} {f0 : L → V}
    (h0 : ∀ x ∈ n.labels, (initDict cfg init).get? x = some (f0 x)) {T : Nat}
    (hT1 : 1 ≤ T) (hin : cfg.input = .timesteps T) {r : Nat} {w : World L A σ} (hr : w.heap[r]? = some n)
    {fuel : Nat} (hfu : T ≤ fuel) {res : Evolved L A V σ} (h : evolve fuel cfg init r w = .ok res) :
    ∃ f, (∀ x ∈ n.labels, f 0 x = f0 x) ∧
      (∀ t, t + 1 < T → ∀ x ∈ n.labels, G (plainCtx cfg n nb (initDict cfg init) f t x) = .ok (f (t + 1) x)) ∧
      Observes cfg res ((List.range T).map (fun s => (plainActs n.labels (initDict cfg init) f s, n))) := by
  have hs : cfg.Safe := Or.inr (fun rule h => by rw [ht] at h; cases h)
  have htn : cfg.TopNodup := fun rule h => by rw [ht] at h; cases h
  obtain ⟨v, ext, e1, e2, e3⟩ := evolve_ok hs hpk hr h
  have hi : staticInputs cfg.input = some (List.replicate (T - 1) (.timestep : Inp I)) := by
    rw [hin]; simp [staticInputs]; omega
  have hlen : v.hist.length = T := by
    have := vevolve_length hi (fuel := fuel) (by simp; omega) e1
    simp at this; omega
  have hhead := hist_head e1
  obtain ⟨_, v1, u1, hreach, hc, rfl⟩ := vevolve_ok e1
  simp only at hlen hhead
  have hfix := (hreach.fixed_net ht (Or.inl hG.noReqs)).2
  -- the trajectory
  let f : Nat → L → V := fun t x => ((v1.hist[t]?).bind (fun p => p.1.get? x)).getD (f0 x)
  have hf0 : ∀ x ∈ n.labels, f 0 x = f0 x := by
    intro x hx
    show ((v1.hist[0]?).bind (fun p => p.1.get? x)).getD (f0 x) = f0 x
    rw [hhead]
    simp [h0 x hx]
  have hstep : ∀ t, t + 1 < T → ∃ S inp S', (v1.hist[t]? = some (S, n)) ∧ InputAt cfg.input (t + 1) S n inp ∧
      v1.hist[t + 1]? = some (S', n) ∧ S'.keys = n.labels ∧
      ∀ x ∈ n.labels, ∃ ctx v, SpecCtx cfg.labelIdx n S (t + 1) (specPast cfg v1.hist (t + 1)) inp x ctx ∧ G ctx = .ok v ∧
          S'.get? x = some v := by
    intro t htT
    obtain ⟨S, N, inp, S', ⟨⟨B, b1, b2⟩, a1⟩, a2, a3, a4⟩ :=
      hreach.pure hG (P := none) (by simpa [Config.PurePert] using hP) hm hn htn (by omega : 1 ≤ t + 1) (by omega)
    have hN : N = n := by
      unfold inForce at a1
      obtain ⟨p, hp, rfl⟩ := Option.map_eq_some_iff.1 a1
      exact hfix _ p hp
    subst hN
    obtain ⟨p, hp, rfl⟩ := Option.map_eq_some_iff.1 a2
    have hB := hfix _ _ b1
    have hp2 := hfix _ _ hp
    simp only at hB
    subst hB
    refine ⟨S, inp, p.1, b1, b2, by rw [hp, ← hp2], a3, ?_⟩
    intro x hx
    obtain ⟨ctx, v0, v', c1, c2, c3, c4⟩ := a4 x hx
    simp only at c3
    subst c3
    exact ⟨ctx, v', c1, c2, c4⟩
  have hhist : v1.hist = (List.range T).map (fun s => (plainActs n.labels (initDict cfg init) f s, n)) := by
    apply List.ext_getElem?
    intro t
    by_cases htT : t < T
    · simp only [List.getElem?_map, List.getElem?_range htT, Option.map_some]
      cases t with
      | zero => rw [hhead]; simp [plainActs]
      | succ t =>
        obtain ⟨S, inp, S', _, _, a3, a4, a5⟩ := hstep t htT
        rw [a3]
        simp only [plainActs, Nat.add_eq_zero_iff, Nat.one_ne_zero, and_false, if_false, Option.some.injEq, Prod.mk.injEq,
          and_true]
        apply Dict.ext_of_keys (by rw [a4, Dict.keys_ofKeys]) (by rw [a4]; exact hn)
        intro x _
        rw [Dict.get?_ofKeys]
        by_cases hx : x ∈ n.labels
        · rw [if_pos hx]
          obtain ⟨_, v, _, _, c⟩ := a5 x hx
          rw [c]
          show _ = some (((v1.hist[t + 1]?).bind (fun p => p.1.get? x)).getD (f0 x))
          rw [a3]
          simp [c]
        · rw [if_neg hx, Dict.get?_eq_none_iff, a4]; exact hx
    · rw [List.getElem?_eq_none (by omega), List.getElem?_eq_none (by simp; omega)]
  have hg0 : ∀ x ∈ n.labels, (initDict cfg init).get? x = some (f 0 x) := fun x hx => by rw [hf0 x hx]; exact h0 x hx
  have hval : ∀ t, t < T → ∀ p, v1.hist[t]? = some p → ∀ x ∈ n.labels, p.1.get? x = some (f t x) := by
    intro t htT p hp x hx
    rw [hhist] at hp
    simp only [List.getElem?_map, List.getElem?_range htT, Option.map_some, Option.some.injEq] at hp
    rw [← hp]
    exact get?_plainActs hg0 t hx
  refine ⟨f, hf0, ?_, by rw [← hhist]; exact e3⟩
  intro t htT x hx
  obtain ⟨S, inp, S', a1, a2, a3, a4, a5⟩ := hstep t htT
  obtain ⟨ctx, v, c1, c2, c3⟩ := a5 x hx
  have hv := hval (t + 1) htT _ a3 x hx
  simp only at hv
  rw [c3] at hv
  obtain rfl := Option.some.inj hv
  have hS : S = plainActs n.labels (initDict cfg init) f t := by
    rw [hhist] at a1
    simp only [List.getElem?_map, List.getElem?_range (by omega : t < T), Option.map_some, Option.some.injEq,
      Prod.mk.injEq] at a1
    exact a1.1.symm
  have hctx : ctx = plainCtx cfg n nb (initDict cfg init) f t x := by
    have hnbx := (hnb x hx)
    have k1 : ctx.neighbours = nb x := by
      have := c1.neighbours; rw [hnbx.1] at this; exact (Option.some.inj this).symm
    have k2 : ctx.neighbourActs = (nb x).map (f t) := by
      have h1 := c1.neighbourActs
      rw [k1, hS] at h1
      have h2 : (nb x).map (plainActs n.labels (initDict cfg init) f t).get? = ((nb x).map (f t)).map some := by
        rw [List.map_map]
        apply List.map_congr_left
        intro y hy
        rw [get?_plainActs hg0 t (hnbx.2 y hy)]; rfl
      rw [h2] at h1
      exact (List.map_inj_right (fun _ _ => Option.some.inj)).1 h1
    have k3 : ctx.connections = ((n.nodes.get? x).map (fun nd => nd.incoming)).getD [] := by
      rw [c1.connections]; rfl
    have k4 : ctx.current = f t x := by
      have h1 := c1.current
      rw [hS, get?_plainActs hg0 t hx] at h1
      exact (Option.some.inj h1).symm
    have k5 : ctx.past = specPast cfg ((List.range (t + 1)).map
        (fun s => (plainActs n.labels (initDict cfg init) f s, n))) (t + 1) := by
      rw [c1.past]
      have hsplit : v1.hist = (List.range (t + 1)).map (fun s => (plainActs n.labels (initDict cfg init) f s, n)) ++
          (List.range' (t + 1) (T - (t + 1))).map (fun s => (plainActs n.labels (initDict cfg init) f s, n)) := by
        rw [hhist, ← List.map_append]
        congr 1
        rw [List.range_eq_range', List.range_eq_range']
        have := List.range'_append (s := 0) (m := t + 1) (n := T - (t + 1)) (step := 1)
        simp only [Nat.one_mul, Nat.zero_add] at this
        rw [this]
        congr 1; omega
      rw [hsplit, specPast_append _ _ _ _ (by omega) (by simp)]
    have k6 : ctx.input = none := by
      have h1 := c1.input
      rw [hin] at a2
      simp only [InputAt] at a2
      rw [a2] at h1
      exact h1
    have k7 := c1.node
    have k8 := c1.t
    have k9 := c1.activities
    cases ctx
    simp only at k1 k2 k3 k4 k5 k6 k7 k8 k9
    subst k1 k2 k3 k4 k5 k6 k7 k8 k9
    rw [hS]
    rfl
  rw [← hctx]
  exact c2

end
end Verif
