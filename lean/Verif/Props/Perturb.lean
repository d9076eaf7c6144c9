import Verif.Props.Symmetry
import Verif.Proofs.Perturb
import Verif.Spec.Perturb
import Verif.Model.Perturb
/-! # Property C106: perturbations -/

namespace Verif
open Spec
section
variable {L A V I σ κ : Type} [DecidableEq L] [DecidableEq V] [DecidableEq κ]

/-- C106.  Without memoization, a call with a perturbation does exactly what the call does whose activity rule is the
given one followed by the perturbation: same result, same exceptions, same changes of the user's state.  The rule may
have state and may request additions and removals, but not of the node it is invoked for. -/
theorem C106_compose (cfg : Config L A V I σ κ) (R : NodeCtx L A V I → σ → Except Err (RuleOut L A V × σ))
    (p : PertCtx L V I → σ → Except Err (V × σ)) (hr : cfg.rule = some R) (hp : cfg.perturbation = some p)
    (hm : cfg.memoize = false) (hR : ∀ c u o u', R c u = .ok (o, u') → c.node ∉ o.removed) (fuel : Nat)
    (init : Option (Conds L V)) (r : Nat) (w : World L A σ) :
    evolve fuel cfg init r w = evolve fuel { cfg with
      rule := some (fun c u => match R c u with
        | .error e => .error e
        | .ok (o, u') => match p ⟨c.node, o.value, c.t, c.input⟩ u' with
          | .error e => .error e
          | .ok (v, u'') => .ok (⟨v, o.added, o.removed⟩, u'')),
      perturbation := none } init r w :=
  (evolve_composed hr hp hm hR fuel init r w).symm

/-- A logging rule, and the perturbation that adds 10 to node 1 at timestep 1. -/
example : ∀ c u o u', Ex.logRule c u = .ok (o, u') → c.node ∉ o.removed := by
  intro c u o u' h
  cases h
  simp

theorem int_sum_perm {l l' : List Int} (h : l.Perm l') : l.sum = l'.sum := by
  induction h with
  | nil => rfl
  | cons _ _ ih => simp [ih]
  | swap => simp; omega
  | trans _ _ i1 i2 => rw [i1, i2]

/-- With memoization the composed rule is not the same: the table then keeps perturbed activities. -/
theorem C106_memoized : ∃ (G : NodeCtx Nat Int Int Int → Except Err Int) (p : PertCtx Nat Int Int → Except Err Int)
    (n : Net Nat Int) (init : List Int),
    MemoSafe (κ := Unit) none n.rotation.isSome G ∧
    Ex.runActs 3 { Ex.base with rule := some (pureRule G), perturbation := some (Ex.pertOf p), memoize := true, input := .timesteps 3 } init n ≠
    Ex.runActs 3 { Ex.base with rule := some (pureRule (thenPert G (some p))), memoize := true, input := .timesteps 3 } init n := by
  refine ⟨fun c => .ok c.neighbourActs.sum, fun c => .ok (if c.node = 1 ∧ c.t = 1 then c.activity + 10 else c.activity),
    Ex.tri, [1, 1, 1], ?_, by decide⟩
  have : Ex.tri.rotation.isSome = false := by decide
  rw [this]
  intro c c' h
  have hs : c.neighbourActs.sum = c'.neighbourActs.sum := int_sum_perm h
  simp only [hs]

/-- A call with a stateless perturbation does what an ordinary call does. -/
theorem Config.Perturbed.ordinary {cfg : Config L A V I σ κ} {G P T} (h : cfg.Perturbed G P T) {n : Net L A} {r : Nat}
    {w : World L A σ} (hr : w.heap[r]? = some n) (hk : cfg.memoize = true → MemoSafe cfg.key n.rotation.isSome G) :
    ∃ cfg' : Config L A V I σ κ, cfg'.Ordinary (thenPert G P) T ∧ cfg'.memoize = false ∧
      (∀ init, initDict cfg' init = initDict cfg init) ∧ (∀ res t, Evolved.acts cfg' res t = Evolved.acts cfg res t) ∧
      ∀ fuel init, evolve fuel cfg init r w = evolve fuel cfg' init r w := by
  have hoff : ∀ fuel init, evolve fuel cfg init r w =
      evolve fuel { cfg with memoize := false } init r w := by
    intro fuel init
    by_cases hm : cfg.memoize = true
    · have := C17_memoize_transparent cfg G h.rule init r w n hr (hk hm) fuel
      rw [← this]
      congr 1
      cases cfg; simp only at hm; subst hm; rfl
    · congr 1
      cases cfg; simp only [Bool.not_eq_true] at hm; subst hm; rfl
  refine ⟨{ cfg with memoize := false, rule := some (pureRule (thenPert G P)), perturbation := none },
    ⟨rfl, rfl, h.top, h.input, h.key, h.persist, h.compression⟩, rfl, fun _ => rfl, fun _ _ => rfl, ?_⟩
  intro fuel init
  rw [hoff]
  cases P with
  | none =>
    have hp : cfg.perturbation = none := h.pert
    have hru : cfg.rule = some (pureRule G) := h.rule
    have : thenPert G (none : Option (PertCtx L V I → Except Err V)) = G := by
      funext c
      unfold thenPert
      cases G c <;> rfl
    rw [this]
    congr 1
    cases cfg; simp only at hp hru; subst hp hru; rfl
  | some p =>
    have hp : cfg.perturbation = some (fun c u => match p c with
      | .error e => .error e
      | .ok v => .ok (v, u)) := h.pert
    rw [← evolve_composed (cfg := { cfg with memoize := false }) h.rule hp rfl (by
      intro c u o u' ho
      unfold pureRule at ho
      cases hg : G c with
      | error e => rw [hg] at ho; cases ho
      | ok v => rw [hg] at ho; cases ho; simp) fuel init r w]
    unfold composed
    congr 3
    funext c u
    simp only [pertRule, pureRule, thenPert, pertValue]
    cases G c with
    | error e => rfl
    | ok v =>
      simp only
      cases p ⟨c.node, v, c.t, c.input⟩ <;> rfl

/-- C106.  For a rule that looks only at a node and its neighbours, on a fixed network: two runs with different
perturbations show the same activity of `x` in state `t` if their initial conditions agree within `t` links of `x`, and
for every earlier timestep `s` the perturbations agree within `t - s` links of `x`. -/
theorem C106_cone (cfg cfg' : Config L A V I σ κ) (T : Nat) (hT : 1 ≤ T) (G : NodeCtx L A V I → Except Err V)
    (hG : LocalRule G) (P P' : Option (PertCtx L V I → Except Err V)) (h : cfg.Perturbed G P T) (h' : cfg'.Perturbed G P' T)
    (n : Net L A) (hn : n.labels.Nodup) (hcl : NetClosed n) (r r' : Nat)
    (w w' : World L A σ) (hr : w.heap[r]? = some n) (hr' : w'.heap[r']? = some n)
    (hk : cfg.memoize = true ∨ cfg'.memoize = true → MemoSafe (κ := κ) none n.rotation.isSome G)
    (init init' : Option (Conds L V)) (hi : ∀ x ∈ n.labels, x ∈ (initDict cfg init).keys)
    (hi' : ∀ x ∈ n.labels, x ∈ (initDict cfg' init').keys) (fuel : Nat) (hf : T ≤ fuel) (res res' : Evolved L A V σ)
    (he : evolve fuel cfg init r w = .ok res) (he' : evolve fuel cfg' init' r' w' = .ok res')
    (x : L) (hx : x ∈ n.labels) (t : Nat) (ht : t < T)
    (hag : ∀ y, Within n x t y → (initDict cfg init).get? y = (initDict cfg' init').get? y)
    (hpe : ∀ s y v, 1 ≤ s → s ≤ t → Within n x (t - s) y → pertValue P ⟨y, v, s, none⟩ = pertValue P' ⟨y, v, s, none⟩) :
    ∃ d d' v, res.acts cfg t = some d ∧ res'.acts cfg' t = some d' ∧ d.get? x = some v ∧ d'.get? x = some v := by
  obtain ⟨c1, h0, m0, i0, o0, ev0⟩ := h.ordinary hr (fun hm => by rw [h.key]; exact hk (Or.inl hm))
  obtain ⟨c2, h0', m0', i0', o0', ev0'⟩ := h'.ordinary hr' (fun hm => by rw [h'.key]; exact hk (Or.inr hm))
  rw [ev0] at he
  rw [ev0'] at he'
  simp only [← i0, ← i0'] at hi hi' hag
  simp only [← o0, ← o0']
  have hpk : c1.PackOk := by intro hc; rw [h0.compression] at hc; cases hc
  have hpk' : c2.PackOk := by intro hc; rw [h0'.compression] at hc; cases hc
  let nb : L → List L := fun x => (specNbrs n x).getD []
  have hnb : ∀ x ∈ n.labels, specNbrs n x = some (nb x) ∧ ∀ y ∈ nb x, y ∈ n.labels := by
    intro x hx
    obtain ⟨l, h1, h2⟩ := hcl x hx
    have : nb x = l := by show (specNbrs n x).getD [] = l; rw [h1]; rfl
    rw [this]
    exact ⟨h1, h2⟩
  obtain ⟨v0, _⟩ := Dict.exists_get?_of_mem_keys (hi x hx)
  have hf0 : ∀ y ∈ n.labels, (initDict c1 init).get? y = some (((initDict c1 init).get? y).getD v0) := by
    intro y hy
    obtain ⟨u, hu⟩ := Dict.exists_get?_of_mem_keys (hi y hy)
    rw [hu]; rfl
  have hf0' : ∀ y ∈ n.labels, (initDict c2 init').get? y = some (((initDict c2 init').get? y).getD v0) := by
    intro y hy
    obtain ⟨u, hu⟩ := Dict.exists_get?_of_mem_keys (hi' y hy)
    rw [hu]; rfl
  obtain ⟨f, a1, a2, a3⟩ := pure_of_evolve h0.rule h0.pert m0 h0.top hpk hn hnb (init := init) hf0 hT h0.input hr hf he
  obtain ⟨f', b1, b2, b3⟩ := pure_of_evolve h0'.rule h0'.pert m0' h0'.top hpk' hn hnb (init := init') hf0' hT h0'.input hr' hf he'
  have key : ∀ s, s < T → ∀ y ∈ n.labels,
      (∀ z, Within n y s z → (initDict c1 init).get? z = (initDict c2 init').get? z) →
      (∀ s' z v, 1 ≤ s' → s' ≤ s → Within n y (s - s') z → pertValue P ⟨z, v, s', none⟩ = pertValue P' ⟨z, v, s', none⟩) →
      f s y = f' s y := by
    intro s
    induction s with
    | zero =>
      intro _ y hy hz _
      rw [a1 y hy, b1 y hy, hz y rfl]
    | succ s ih =>
      intro hs y hy hz hp
      have hcur : f s y = f' s y := ih (by omega) y hy (fun z hw => hz z (within_mono hw)) (fun s' z v h1 h2 hw =>
        hp s' z v h1 (by omega) (by rw [show s + 1 - s' = (s - s') + 1 from by omega]; exact within_mono hw))
      have hnbs : (nb y).map (f s) = (nb y).map (f' s) := by
        apply List.map_congr_left
        intro u hu
        exact ih (by omega) u ((hnb y hy).2 u hu) (fun z hw => hz z (within_step (hnb y hy).1 hu hw)) (fun s' z v h1 h2 hw =>
          hp s' z v h1 (by omega) (by rw [show s + 1 - s' = (s - s') + 1 from by omega]; exact within_step (hnb y hy).1 hu hw))
      have e1 := a2 s hs y hy
      have e2 := b2 s hs y hy
      have e3 := hG (plainCtx c1 n nb (initDict c1 init) f s y) (plainCtx c2 n nb (initDict c2 init') f' s y)
        rfl rfl rfl hnbs rfl hcur rfl
      unfold thenPert at e1 e2
      rw [e3] at e1
      cases hg : G (plainCtx c2 n nb (initDict c2 init') f' s y) with
      | error e => rw [hg] at e1; cases e1
      | ok v =>
        rw [hg] at e1 e2
        have e4 := hp (s + 1) y v (by omega) (by omega) (by rw [Nat.sub_self]; rfl)
        have e5 : pertValue P ⟨y, v, s + 1, none⟩ = .ok (f (s + 1) y) := e1
        have e6 : pertValue P' ⟨y, v, s + 1, none⟩ = .ok (f' (s + 1) y) := e2
        rw [e4, e6] at e5
        exact (Except.ok.inj e5).symm
  have hfin := key t ht x hx hag hpe
  have shows : ∀ (c : Config L A V I σ κ), c.persistActs = true → c.compression = false → ∀ (init : Option (Conds L V)) (f : Nat → L → V)
      (res : Evolved L A V σ), (∀ y ∈ n.labels, (initDict c init).get? y = some (f 0 y)) →
      Observes c res ((List.range T).map (fun s => (plainActs n.labels (initDict c init) f s, n))) →
      ∃ d, res.acts c t = some d ∧ d.get? x = some (f t x) := by
    intro c hpa hco init f res hf0 ho
    have hg := get?_plainActs hf0 t hx
    refine ⟨plainActs n.labels (initDict c init) f t, ?_, hg⟩
    have hne : (plainActs n.labels (initDict c init) f t).isEmpty = false := by
      cases hp : plainActs n.labels (initDict c init) f t with
      | nil => rw [hp] at hg; cases hg
      | cons a l => rfl
    rw [ho.acts t]
    simp only [List.getElem?_map, List.getElem?_range ht, Option.map_some, Option.bind_some, obsActs]
    rw [if_pos ⟨Or.inr hpa, hne⟩, hco]
    rfl
  obtain ⟨d, d1, d2⟩ := shows c1 h0.persist h0.compression init f res (fun y hy => by rw [a1 y hy]; exact hf0 y hy) a3
  obtain ⟨d', d1', d2'⟩ := shows c2 h0'.persist h0'.compression init' f' res' (fun y hy => by rw [b1 y hy]; exact hf0' y hy) b3
  exact ⟨d, d', f t x, d1, d1', d2, by rw [d2', hfin]⟩
end

/-- On the directed triangle, 10 is added to node 1 at timestep 1: node 1 shows it in state 1, node 2 in state 2, node 0
in state 3. -/
example :
  Ex.runActs 4 { Ex.base with rule := some (pureRule (fun c => .ok (Ex.sumRule c))), perturbation := some (Ex.pertOf Ex.addTen), input := .timesteps 4 }
    [1, 0, 0] Ex.tri = .ok [some [(0, 1), (1, 0), (2, 0)], some [(0, 2), (1, 12), (2, 1)], some [(0, 5), (1, 4), (2, 14)],
      some [(0, 22), (1, 8), (2, 7)]] ∧
  Ex.runActs 4 { Ex.base with rule := some (pureRule (fun c => .ok (Ex.sumRule c))), input := .timesteps 4 }
    [1, 0, 0] Ex.tri = .ok [some [(0, 1), (1, 0), (2, 0)], some [(0, 2), (1, 2), (2, 1)], some [(0, 5), (1, 4), (2, 4)],
      some [(0, 12), (1, 8), (2, 7)]] := by decide
/-- The hypotheses of `C106_cone` on these calls. -/
example : Config.Perturbed { Ex.base with rule := some (pureRule (fun c => .ok (Ex.sumRule c))), perturbation := some (Ex.pertOf Ex.addTen), input := .timesteps 4 }
    (fun c => .ok (Ex.sumRule c)) (some Ex.addTen) 4 :=
  ⟨rfl, congrArg some (funext fun c => funext fun u => by simp only [Ex.pertOf]; cases Ex.addTen c <;> rfl), rfl, rfl, rfl, rfl, rfl⟩

/-! ## The demo -/
section
variable {I σ κ : Type} [DecidableEq κ]

theorem forcedEca_lt_two {n R c : Nat} {q s : Nat → Nat} (hq : ∀ t, q t < 2) (hs : ∀ x, x < n → s x < 2) :
    ∀ t x, x < n → forcedEca n R c q s t x < 2 := by
  intro t
  cases t with
  | zero => exact hs
  | succ t =>
    intro x _
    unfold forcedEca
    split
    · exact hq _
    · exact Nat.mod_lt _ (by decide)

omit [DecidableEq κ] in
/-- The rule of a cell only looks at its neighbourhood. -/
theorem nks_memoSafe (R : Int) : MemoSafe (L := Nat) (A := Int) (I := I) (κ := κ) none true (nksCaRule R) := by
  intro c c' h
  simp only [nksCaRule, binaryCaRule, h]

/-- C106.  The perturbed elementary cellular automaton: on `cellular_automaton(n)`, `n ≥ 3`, with `nks_ca_rule(R)`,
`R < 256`, and a perturbation that sets node `c` to the number drawn, the states are those of the elementary cellular
automaton in which cell `c` is forced, with or without memoization. -/
theorem C106_demo (n R c : Nat) (hn : 3 ≤ n) (hR : R < 256) (q : Nat → Nat) (hq : ∀ t, q t < 2)
    (cfg : Config Nat Int Int I σ κ) (T : Nat) (hT : 1 ≤ T)
    (h : cfg.Perturbed (nksCaRule (R : Int)) (some (forceNode c q)) T) (N : Net Nat Int)
    (hN : cellularAutomaton n 1 true = .ok N) (r : Nat)
    (w : World Nat Int σ) (hr : w.heap[r]? = some N) (init : Option (Conds Nat Int)) (s : Nat → Nat)
    (hs : ∀ x, x < n → s x < 2) (hlen : (initDict cfg init).length = n)
    (h0 : ∀ x, x < n → (initDict cfg init).get? x = some (s x : Int)) (fuel : Nat) (hf : T ≤ fuel) :
    ∃ res, evolve fuel cfg init r w = .ok res ∧ ShowsRun cfg res T n (fun t x => (forcedEca n R c q s t x : Int)) := by
  obtain ⟨N', rs, e1, e2, e3, e4⟩ := C43_left_to_right n 1 hn (by omega)
  rw [hN] at e1
  cases e1
  have hrot : N.rotation.isSome = true := by rw [e2]; rfl
  obtain ⟨c1, h1, m1, i1, o1, ev1⟩ := h.ordinary hr (fun _ => by rw [h.key, hrot]; exact nks_memoSafe _)
  have hrule : ∀ t x, x < n → ∀ k : NodeCtx Nat Int Int I, k.node = x → k.t = t + 1 →
      k.neighbourActs = [(forcedEca n R c q s t ((x + n - 1) % n) : Int), (forcedEca n R c q s t x : Int), (forcedEca n R c q s t ((x + 1) % n) : Int)] →
      thenPert (nksCaRule (R : Int)) (some (forceNode c q)) k = .ok (forcedEca n R c q s (t + 1) x : Int) := by
    intro t x hx k hkn hkt hc
    have l1 := forcedEca_lt_two (R := R) (c := c) hq hs t ((x + n - 1) % n) (Nat.mod_lt _ (by omega))
    have l2 := forcedEca_lt_two (R := R) (c := c) hq hs t x hx
    have l3 := forcedEca_lt_two (R := R) (c := c) hq hs t ((x + 1) % n) (Nat.mod_lt _ (by omega))
    have hb : Binary k.neighbourActs := by
      rw [hc]
      intro v hv
      simp only [List.mem_cons, List.not_mem_nil, or_false] at hv
      rcases hv with rfl | rfl | rfl <;> omega
    have h256 : 2 ^ 2 ^ k.neighbourActs.length = 256 := by
      have h3 : k.neighbourActs.length = 3 := by rw [hc]; simp only [List.length_cons, List.length_nil]
      rw [h3]
    unfold thenPert
    rw [(C28_binary_ca R k hb (by omega)).2.2.1]
    have hnum : (numeral k.neighbourActs).toNat =
        4 * forcedEca n R c q s t ((x + n - 1) % n) + 2 * forcedEca n R c q s t x + forcedEca n R c q s t ((x + 1) % n) := by
      rw [hc]
      simp only [numeral, List.foldl]
      omega
    rw [hnum]
    simp only [pertValue, forceNode, hkn, hkt, forcedEca]
    split <;> rfl
  have := ca_run h1 hT (by omega) e3 (nb := fun x => [(x + n - 1) % n, x, (x + 1) % n]) (init := init)
    (f := fun t x => (forcedEca n R c q s t x : Int)) (r := r) (w := w) (fuel := fuel) ?_ (by rw [i1]; exact hlen)
    (by rw [i1]; exact h0) ?_ (fun hm => by rw [m1] at hm; cases hm) hr hf
  · obtain ⟨res, g1, g2, g3⟩ := this
    refine ⟨res, by rw [ev1]; exact g1, g2, ?_⟩
    intro t ht
    obtain ⟨d, d1, d2⟩ := g3 t ht
    exact ⟨d, by rw [← o1]; exact d1, d2⟩
  · intro x hx
    refine ⟨?_, ?_⟩
    · simp only [specNbrs, e2]
      rw [e4 x hx, ringCell_three hx hn]
    · intro y hy
      simp only [List.mem_cons, List.not_mem_nil, or_false] at hy
      rcases hy with rfl | rfl | rfl
      · exact Nat.mod_lt _ (by omega)
      · exact hx
      · exact Nat.mod_lt _ (by omega)
  · intro t ht x hx
    exact hrule t x hx _ rfl rfl rfl

/-- Rule 30 on seven cells, memoized; cell 3 is forced. -/
example : ∃ N res, cellularAutomaton 7 1 true = .ok N ∧
    evolve 4 ({ Ex.base with
      rule := some (pureRule (nksCaRule 30)),
      perturbation := some (Ex.pertOf (forceNode 3 (fun t => t % 2))),
      input := .timesteps 4, memoize := true })
      (some (.list [0, 0, 0, 1, 0, 0, 0])) 0 ⟨[N], []⟩ = .ok res ∧ ShowsRun ({ Ex.base with
      rule := some (pureRule (nksCaRule 30)),
      perturbation := some (Ex.pertOf (forceNode 3 (fun t => t % 2))),
      input := .timesteps 4, memoize := true }) res 4 7
      (fun t x => (forcedEca 7 30 3 (fun t => t % 2) (fun x => if x = 3 then 1 else 0) t x : Int)) := by
  obtain ⟨N, _, hN, _⟩ := C43_left_to_right 7 1 (by omega) (by omega)
  obtain ⟨res, h1, h2⟩ := C106_demo 7 30 3 (by omega) (by omega) (fun t => t % 2) (fun t => Nat.mod_lt _ (by omega))
    { Ex.base with rule := some (pureRule (nksCaRule 30)), perturbation := some (Ex.pertOf (forceNode 3 (fun t => t % 2))), input := .timesteps 4, memoize := true }
    4 (by omega) ⟨rfl, congrArg some (funext fun c => funext fun u => by simp only [Ex.pertOf]; cases forceNode 3 (fun t => t % 2) c <;> rfl), rfl, rfl, rfl, rfl, rfl⟩ N hN 0 ⟨[N], []⟩ rfl (some (.list [0, 0, 0, 1, 0, 0, 0]))
    (fun x => if x = 3 then 1 else 0) (by decide) (by decide) (by decide) 4 (by omega)
  exact ⟨N, res, hN, h1, h2⟩

theorem cellDist_step {n x c : Nat} (hn : 3 ≤ n) (hx : x < n) (hc : c < n) :
    cellDist n x c ≤ cellDist n ((x + n - 1) % n) c + 1 ∧ cellDist n x c ≤ cellDist n ((x + 1) % n) c + 1 := by
  have m : ∀ a, a < 2 * n → a % n = if a < n then a else a - n := by
    intro a ha
    split
    · exact Nat.mod_eq_of_lt ‹_›
    · rw [Nat.mod_eq_sub_mod (by omega), Nat.mod_eq_of_lt (by omega)]
  have e1 := m (x + n - 1) (by omega)
  have e2 := m (x + 1) (by omega)
  unfold cellDist
  rw [e1, e2, m (x + n - c) (by omega), m (c + n - x) (by omega)]
  constructor
  · rw [m (_ + n - c) (by split <;> omega), m (c + n - _) (by split <;> omega)]
    split <;> split <;> split <;> split <;> split <;> omega
  · rw [m (_ + n - c) (by split <;> omega), m (c + n - _) (by split <;> omega)]
    split <;> split <;> split <;> split <;> split <;> omega

/-- C106.  Forcing cell `c` is noticed at distance `d` only after timestep `d`: at a cell at least `t` cells away the
state after `t` steps is that of the unperturbed automaton. -/
theorem C106_speed {n R c : Nat} (hn : 3 ≤ n) (hc : c < n) (q s : Nat → Nat) : ∀ t x, x < n → 1 ≤ t → t ≤ cellDist n x c →
    forcedEca n R c q s t x = eca n R s t x := by
  intro t
  induction t with
  | zero => intro x _ h; omega
  | succ t ih =>
    intro x hx _ hd
    have hne : x ≠ c := by
      rintro rfl
      have : (x + n - x) % n = 0 := by rw [show x + n - x = n from by omega, Nat.mod_self]
      simp only [cellDist, this] at hd
      omega
    obtain ⟨d1, d2⟩ := cellDist_step (c := c) hn hx hc
    simp only [forcedEca, if_neg hne, eca]
    cases t with
    | zero => rfl
    | succ t =>
      rw [ih _ (Nat.mod_lt _ (by omega)) (by omega) (by omega), ih x hx (by omega) (by omega),
        ih _ (Nat.mod_lt _ (by omega)) (by omega) (by omega)]

/-- Cells 1 and 2 left of cell 3 of seven: the forced run departs from the free one at timesteps 2 and 3. -/
example : (List.range 4).map (fun t => (List.range 7).map (forcedEca 7 30 3 (fun _ => 1) (fun x => if x = 3 then 1 else 0) t)) =
    [[0, 0, 0, 1, 0, 0, 0], [0, 0, 1, 1, 1, 0, 0], [0, 1, 1, 1, 0, 1, 0], [1, 1, 0, 1, 0, 1, 1]] ∧
  (List.range 4).map (fun t => (List.range 7).map (eca 7 30 (fun x => if x = 3 then 1 else 0) t)) =
    [[0, 0, 0, 1, 0, 0, 0], [0, 0, 1, 1, 1, 0, 0], [0, 1, 1, 0, 0, 1, 0], [1, 1, 0, 1, 1, 1, 1]] := by decide

/-- C106.  The speed is attained: in rule 30 a single changed cell changes, after `t` steps, the cell `t` places to its
right, as long as the change has not met itself around the ring. -/
theorem C106_front {n c : Nat} (hn : 3 ≤ n) (hc : c < n) {s s' : Nat → Nat} (hs : ∀ x, x < n → s x < 2)
    (hs' : ∀ x, x < n → s' x < 2) (hd : s c ≠ s' c) (ho : ∀ x, x < n → x ≠ c → s x = s' x) : ∀ t, 2 * t < n →
    eca n 30 s t ((c + t) % n) ≠ eca n 30 s' t ((c + t) % n) ∧
      ∀ k, t < k → k + t < n → eca n 30 s t ((c + k) % n) = eca n 30 s' t ((c + k) % n) := by
  intro t
  induction t with
  | zero =>
    intro _
    refine ⟨by simpa [eca, Nat.mod_eq_of_lt hc] using hd, ?_⟩
    intro k h1 h2
    refine ho _ (Nat.mod_lt _ (by omega)) ?_
    intro he
    by_cases hk : c + k < n
    · rw [Nat.mod_eq_of_lt hk] at he; omega
    · rw [Nat.mod_eq_sub_mod (by omega), Nat.mod_eq_of_lt (by omega)] at he; omega
  | succ t ih =>
    intro ht
    obtain ⟨i1, i2⟩ := ih (by omega)
    have hl : ∀ k, 1 ≤ k → ((c + k) % n + n - 1) % n = (c + (k - 1)) % n := by
      intro k hk
      rw [show (c + k) % n + n - 1 = (c + k) % n + (n - 1) from by omega, Nat.mod_add_mod,
        show c + k + (n - 1) = c + (k - 1) + n from by omega, Nat.add_mod_right]
    have hr : ∀ k, ((c + k) % n + 1) % n = (c + (k + 1)) % n := by
      intro k
      rw [Nat.mod_add_mod, Nat.add_assoc]
    have hbin : ∀ x, eca n 30 s t (x % n) < 2 ∧ eca n 30 s' t (x % n) < 2 := fun x =>
      ⟨eca_lt_two (by omega) hs t _ (Nat.mod_lt _ (by omega)), eca_lt_two (by omega) hs' t _ (Nat.mod_lt _ (by omega))⟩
    refine ⟨?_, ?_⟩
    · simp only [eca, hl (t + 1) (by omega), hr, Nat.add_sub_cancel]
      rw [i2 (t + 1) (by omega) (by omega), i2 (t + 1 + 1) (by omega) (by omega)]
      have b1 := hbin (c + t)
      have b2 := (hbin (c + (t + 1))).2
      have b3 := (hbin (c + (t + 1 + 1))).2
      generalize eca n 30 s t ((c + t) % n) = a at *
      generalize eca n 30 s' t ((c + t) % n) = a' at *
      generalize eca n 30 s' t ((c + (t + 1)) % n) = u at *
      generalize eca n 30 s' t ((c + (t + 1 + 1)) % n) = v at *
      have key : ∀ a a' u v : Fin 2, a.1 ≠ a'.1 → ecaRule 30 a.1 u.1 v.1 ≠ ecaRule 30 a'.1 u.1 v.1 := by decide
      exact key ⟨a, b1.1⟩ ⟨a', b1.2⟩ ⟨u, b2⟩ ⟨v, b3⟩ i1
    · intro k h1 h2
      simp only [eca, hl k (by omega), hr]
      rw [i2 (k - 1) (by omega) (by omega), i2 k (by omega) (by omega), i2 (k + 1) (by omega) (by omega)]

example : eca 7 30 (fun x => if x = 3 then 1 else 0) 3 6 ≠ eca 7 30 (fun _ => 0) 3 6 := by decide

end
end Verif
