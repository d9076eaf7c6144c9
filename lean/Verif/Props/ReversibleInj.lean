import Verif.Props.Reversible
import Verif.Model.Rules
/-! # Property C142: a reversible rule loses no information, even if it reads the clock -/

namespace Verif

section
variable {L A I σ κ : Type} [DecidableEq L] [DecidableEq κ]

/-- The result does not depend on the past, and depends on `ctx.activities` only as a mapping; it may depend on the
timestep. -/
def PastlessRule (g : NodeCtx L A Int I → Except Err Int) : Prop :=
  ∀ c c' : NodeCtx L A Int I, c.t = c'.t → c.node = c'.node → (∀ y, c.activities.get? y = c'.activities.get? y) →
    c.neighbours = c'.neighbours → c.neighbourActs = c'.neighbourActs → c.connections = c'.connections →
    c.current = c'.current → c.input = c'.input → g c = g c'

theorem TimelessRule.pastless {g : NodeCtx L A Int I → Except Err Int} (h : TimelessRule g) : PastlessRule g :=
  fun c c' _ => h c c'

omit [DecidableEq κ] in
/-- What a run shows. -/
theorem shows_run {n : Net L A} {T : Nat} {cfg : Config L A Int I σ κ} {d : Dict L Int} {f : Nat → L → Int}
    {res : Evolved L A Int σ} (hp : cfg.persistActs = true) (hc : cfg.compression = false)
    (hf0 : ∀ y ∈ n.labels, d.get? y = some (f 0 y))
    (ho : Observes cfg res ((List.range T).map (fun s => (plainActs n.labels d f s, n)))) :
    ∀ t, t < T → ∀ x ∈ n.labels, valAt cfg res t x = some (f t x) := by
  intro t ht x hx
  have hg := get?_plainActs hf0 t hx
  have hne : (plainActs n.labels d f t).isEmpty = false := by
    cases hp : plainActs n.labels d f t with
    | nil => rw [hp] at hg; cases hg
    | cons a l => rfl
  unfold valAt
  rw [ho.acts]
  simp only [List.getElem?_map, List.getElem?_range ht, Option.map_some, Option.bind_some, obsActs]
  rw [if_pos ⟨Or.inr hp, hne⟩, hc]
  simpa using hg

/-- The recurrence of a run of a reversible rule. -/
theorem reversible_rec {cfg : Config L A Int I σ κ} {T : Nat} (hT : 1 ≤ T)
    {g : NodeCtx L A Int I → Except Err Int} (h : cfg.Ordinary (reversibleRule g) T)
    (hm : cfg.memoize = false) {P : Conds L Int} (hP : cfg.past.getLast? = some P) {n : Net L A} (hn : n.labels.Nodup)
    {nb : L → List L} (hnb : ∀ x ∈ n.labels, specNbrs n x = some (nb x) ∧ ∀ y ∈ nb x, y ∈ n.labels)
    {r : Nat} {w : World L A σ} (hr : w.heap[r]? = some n)
    {init : Option (Conds L Int)} (hlen : (initDict cfg init).length = n.size)
    (hi : ∀ x ∈ n.labels, x ∈ (initDict cfg init).keys) {fuel : Nat} (hf : T ≤ fuel) {res : Evolved L A Int σ}
    (he : evolve fuel cfg init r w = .ok res) :
    ∃ F : Nat → L → Int, (∀ x ∈ n.labels, (initDict cfg init).get? x = some (F 0 x)) ∧
      (∀ t, t < T → ∀ x ∈ n.labels, valAt cfg res t x = some (F t x)) ∧ res.states.length = T ∧
      ∀ t, t + 1 < T → ∀ x ∈ n.labels, ∃ v p, g (plainCtx cfg n nb (initDict cfg init) F t x) = .ok v ∧
        (if t = 0 then (P.toDict cfg.natLabel).get? x else some (F (t - 1) x)) = some p ∧ F (t + 1) x = pyXor v p := by
  have hpk : cfg.PackOk := by intro hc; rw [h.compression] at hc; cases hc
  have hsize : n.labels.length = n.size := by simp [Net.labels, Dict.keys, Net.size]
  have hi0 : ∀ x ∈ n.labels, (initDict cfg init).get? x = some (((initDict cfg init).get? x).getD 0) := by
    intro x hx
    obtain ⟨v, hv⟩ := Dict.exists_get?_of_mem_keys (hi x hx)
    rw [hv]; rfl
  obtain ⟨F, a1, a2, a3⟩ := pure_of_evolve h.rule h.pert hm h.top hpk hn hnb (init := init)
    (f0 := fun x => ((initDict cfg init).get? x).getD 0) hi0 (by omega) h.input hr hf he
  have hF0 : ∀ x ∈ n.labels, (initDict cfg init).get? x = some (F 0 x) := fun x hx => by rw [a1 x hx]; exact hi0 x hx
  refine ⟨F, hF0, shows_run h.persist h.compression hF0 a3, by rw [a3.len]; simp, ?_⟩
  intro t ht x hx
  have hemp : n.labels ≠ [] := by intro h0; rw [h0] at hx; cases hx
  have hdne : (initDict cfg init) ≠ [] := by
    intro hnil
    rw [hnil, ← hsize] at hlen
    exact hemp (List.eq_nil_of_length_eq_zero hlen.symm)
  have e := a2 t ht x hx
  unfold reversibleRule at e
  cases hgv : g (plainCtx cfg n nb (initDict cfg init) F t x) with
  | error e' => rw [hgv] at e; cases e
  | ok v =>
    rw [hgv] at e
    simp only at e
    have hpa : pastActivityOf (plainCtx cfg n nb (initDict cfg init) F t x) (plainCtx cfg n nb (initDict cfg init) F t x).node =
        (if t = 0 then P.toDict cfg.natLabel else plainActs n.labels (initDict cfg init) F (t - 1)).get x := by
      exact past_last h.persist h.compression hP hemp hdne t x x
    rw [hpa] at e
    cases hgp : (if t = 0 then P.toDict cfg.natLabel else plainActs n.labels (initDict cfg init) F (t - 1)).get x with
    | error e' => rw [hgp] at e; cases e
    | ok p =>
      rw [hgp] at e
      refine ⟨v, p, rfl, ?_, (Except.ok.inj e).symm⟩
      rw [Dict.get_eq_ok_iff] at hgp
      by_cases h0 : t = 0
      · rw [if_pos h0] at hgp ⊢; exact hgp
      · rw [if_neg h0] at hgp ⊢
        rw [get?_plainActs hF0 _ hx] at hgp
        exact hgp

/-- C142: let `g` be any rule that does not look at the past (it may look at the timestep).  If two runs of
`ReversibleRule(g)` with equally many timesteps on the same network, with any initial and past conditions, agree in
their last two states, then they agree in all states, and in the last past condition. -/
theorem C142_injective (cfg : Config L A Int I σ κ) (T : Nat) (hT : 2 ≤ T)
    (g : NodeCtx L A Int I → Except Err Int) (hg : PastlessRule g) (h : cfg.Ordinary (reversibleRule g) T)
    (hm : cfg.memoize = false) (P : Conds L Int) (hP : cfg.past.getLast? = some P) (n : Net L A) (hn : n.labels.Nodup)
    (hcl : NetClosed n) (r r' : Nat) (w w' : World L A σ) (hr : w.heap[r]? = some n) (hr' : w'.heap[r']? = some n)
    (init init' : Option (Conds L Int)) (hlen : (initDict cfg init).length = n.size)
    (hi : ∀ x ∈ n.labels, x ∈ (initDict cfg init).keys) (hlen' : (initDict cfg init').length = n.size)
    (hi' : ∀ x ∈ n.labels, x ∈ (initDict cfg init').keys)
    (past' : List (Conds L Int)) (P' : Conds L Int) (hP' : past'.getLast? = some P')
    (fuel : Nat) (hf : T ≤ fuel) (res res' : Evolved L A Int σ)
    (he : evolve fuel cfg init r w = .ok res) (he' : evolve fuel { cfg with past := past' } init' r' w' = .ok res')
    (hlast : ∀ x ∈ n.labels, ∀ t, t + 2 = T ∨ t + 1 = T →
      valAt cfg res t x = valAt { cfg with past := past' } res' t x) :
    ∀ x ∈ n.labels, (∀ t, t < T → valAt cfg res t x = valAt { cfg with past := past' } res' t x) ∧
      (P.toDict cfg.natLabel).get? x = (P'.toDict cfg.natLabel).get? x := by
  have hsize : n.labels.length = n.size := by simp [Net.labels, Dict.keys, Net.size]
  let nb : L → List L := fun x => (specNbrs n x).getD []
  have hnb : ∀ x ∈ n.labels, specNbrs n x = some (nb x) ∧ ∀ y ∈ nb x, y ∈ n.labels := by
    intro x hx
    obtain ⟨l, h1, h2⟩ := hcl x hx
    have : nb x = l := by show (specNbrs n x).getD [] = l; rw [h1]; rfl
    rw [this]
    exact ⟨h1, h2⟩
  have h' : ({ cfg with past := past' } : Config L A Int I σ κ).Ordinary (reversibleRule g) T :=
    ⟨h.rule, h.pert, h.top, h.input, h.key, h.persist, h.compression⟩
  obtain ⟨F, f0, fs, _, frec⟩ := reversible_rec (by omega) h hm hP hn hnb hr hlen hi hf he
  obtain ⟨F', f0', fs', _, frec'⟩ := reversible_rec (by omega) h' hm hP' hn hnb hr' hlen' hi' hf he'
  change ∀ x ∈ n.labels, (initDict cfg init').get? x = some (F' 0 x) at f0'
  change ∀ t, t + 1 < T → ∀ x ∈ n.labels, ∃ v p,
    g (plainCtx { cfg with past := past' } n nb (initDict cfg init') F' t x) = .ok v ∧
    (if t = 0 then (P'.toDict cfg.natLabel).get? x else some (F' (t - 1) x)) = some p ∧ F' (t + 1) x = pyXor v p at frec'
  have hctx : ∀ t, (∀ y ∈ n.labels, F t y = F' t y) → ∀ x ∈ n.labels,
      g (plainCtx cfg n nb (initDict cfg init) F t x) =
      g (plainCtx { cfg with past := past' } n nb (initDict cfg init') F' t x) := by
    intro t hFt x hx
    apply hg
    · rfl
    · rfl
    · intro y
      show (plainActs n.labels (initDict cfg init) F t).get? y = (plainActs n.labels (initDict cfg init') F' t).get? y
      by_cases hy : y ∈ n.labels
      · rw [get?_plainActs f0 t hy, get?_plainActs f0' t hy, hFt y hy]
      · rw [plainActs_none hn (by rw [hlen, hsize]) hi t hy, plainActs_none hn (by rw [hlen', hsize]) hi' t hy]
    · rfl
    · show (nb x).map (F t) = (nb x).map (F' t)
      exact List.map_congr_left (fun y hy => hFt y ((hnb x hx).2 y hy))
    · rfl
    · exact hFt x hx
    · rfl
  have hback : ∀ t, t + 1 < T → (∀ y ∈ n.labels, F t y = F' t y) → (∀ y ∈ n.labels, F (t + 1) y = F' (t + 1) y) →
      ∀ x ∈ n.labels, (if t = 0 then (P.toDict cfg.natLabel).get? x else some (F (t - 1) x)) =
        (if t = 0 then (P'.toDict cfg.natLabel).get? x else some (F' (t - 1) x)) := by
    intro t ht h1 h2 x hx
    obtain ⟨v, p, a1, a2, a3⟩ := frec t ht x hx
    obtain ⟨v', p', b1, b2, b3⟩ := frec' t ht x hx
    rw [hctx t h1 x hx, b1] at a1
    have hv := Except.ok.inj a1
    subst hv
    rw [a2]
    refine Eq.trans ?_ b2.symm
    rw [← pyXor_cancel v' p, ← pyXor_cancel v' p', ← a3, ← b3, h2 x hx]
  have hall : ∀ s, s + 1 < T → (∀ y ∈ n.labels, F (T - 2 - s) y = F' (T - 2 - s) y) ∧
      (∀ y ∈ n.labels, F (T - 1 - s) y = F' (T - 1 - s) y) := by
    intro s
    induction s with
    | zero =>
      intro _
      refine ⟨fun y hy => ?_, fun y hy => ?_⟩
      · have := hlast y hy (T - 2) (by omega)
        rw [fs _ (by omega) y hy, fs' _ (by omega) y hy] at this
        exact Option.some.inj this
      · have := hlast y hy (T - 1) (by omega)
        rw [fs _ (by omega) y hy, fs' _ (by omega) y hy] at this
        exact Option.some.inj this
    | succ s ih =>
      intro hs
      obtain ⟨i1, i2⟩ := ih (by omega)
      refine ⟨fun y hy => ?_, fun y hy => ?_⟩
      · have := hback (T - 2 - s) (by omega) i1 (by rw [show T - 2 - s + 1 = T - 1 - s by omega]; exact i2) y hy
        rw [if_neg (by omega), if_neg (by omega), show T - 2 - s - 1 = T - 2 - (s + 1) by omega] at this
        exact Option.some.inj this
      · rw [show T - 1 - (s + 1) = T - 2 - s by omega]
        exact i1 y hy
  have hFF : ∀ t, t < T → ∀ y ∈ n.labels, F t y = F' t y := by
    intro t ht y hy
    by_cases h1 : t + 1 < T
    · have := (hall (T - 2 - t) (by omega)).1 y hy
      rwa [show T - 2 - (T - 2 - t) = t by omega] at this
    · have := (hall 0 (by omega)).2 y hy
      rwa [show T - 1 - 0 = t by omega] at this
  intro x hx
  refine ⟨fun t ht => ?_, ?_⟩
  · rw [fs t ht x hx, fs' t ht x hx, hFF t ht x hx]
  · have := hback 0 (by omega) (hFF 0 (by omega)) (hFF 1 (by omega)) x hx
    simpa using this

/-- `perturbed_rule` of the demo (`demos/perturbation_demo/perturbation_reversible_demo.py:11-15`): rule 90 of Wolfram's
numbering, but 1 at every tenth timestep. -/
def perturbedReversible (ctx : NodeCtx L A Int I) : Except Err Int :=
  if ctx.t % 10 = 0 then .ok 1 else nksCaRule 90 ctx

/-- C142 for the perturbed reversible rule 90 of the demo: it looks at the timestep, but not at the past, so that nothing
is lost. -/
theorem C142_demo : PastlessRule (perturbedReversible : NodeCtx L A Int I → Except Err Int) := by
  intro c c' ht _ _ _ hna _ _ _
  unfold perturbedReversible
  rw [ht, show nksCaRule 90 c = nksCaRule 90 c' by unfold nksCaRule binaryCaRule; rw [hna]]

end

/-- The two rules given by the clock of C37, which cannot be run backwards by a second evolution, lose nothing. -/
example : PastlessRule clockRule := by
  intro c c' ht _ _ _ _ _ _ _
  unfold clockRule
  rw [ht]

/-- The hypotheses of `C142_injective` are met: a run of the rule of the demo on three nodes in a ring. -/
example :
    ({ Ex.base with rule := some (pureRule (reversibleRule perturbedReversible)), input := .timesteps 4,
                    past := [.list [0, 1, 1]] } : Config Nat Int Int Int (List Int) Unit).Ordinary
      (reversibleRule perturbedReversible) 4 := by
  exact ⟨rfl, rfl, rfl, rfl, rfl, rfl, rfl⟩

/-- Three cells in a ring. -/
def Ex.ring3 : Net Nat Int :=
  Net.run Net.empty [.addEdge 2 0 [], .addEdge 0 0 [], .addEdge 1 0 [], .addEdge 0 1 [], .addEdge 1 1 [], .addEdge 2 1 [],
    .addEdge 1 2 [], .addEdge 2 2 [], .addEdge 0 2 []]

example :
    Ex.runActs 4 { Ex.base with rule := some (pureRule (reversibleRule perturbedReversible)), input := .timesteps 4, past := [.list [0, 1, 1]] } [1, 0, 0]
      Ex.ring3 = .ok [some [(0, 1), (1, 0), (2, 0)], some [(2, 0), (0, 0), (1, 0)], some [(2, 0), (0, 1), (1, 0)],
        some [(2, 1), (0, 0), (1, 1)]] := by decide +kernel

/-- The hypothesis on the past is needed: the rule that returns its past activity always gives 0 with `ReversibleRule`. -/
example :
    Ex.runActs 3 { Ex.base with rule := some (pureRule (reversibleRule (fun c => pastActivityOf c c.node))), input := .timesteps 3, past := [.list [0]] } [1]
      (Net.run Net.empty [.addEdge 0 0 []]) = .ok [some [(0, 1)], some [(0, 0)], some [(0, 0)]] ∧
    Ex.runActs 3 { Ex.base with rule := some (pureRule (reversibleRule (fun c => pastActivityOf c c.node))), input := .timesteps 3, past := [.list [1]] } [0]
      (Net.run Net.empty [.addEdge 0 0 []]) = .ok [some [(0, 0)], some [(0, 0)], some [(0, 0)]] := by
  decide +kernel

end Verif
