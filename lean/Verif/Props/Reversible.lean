import Verif.Model.RuleClasses
import Verif.Proofs.RunPure
import Verif.Spec.CA
import Verif.Props.Examples
/-! # Property C37: running a `ReversibleRule` backwards -/

namespace Verif
section
variable {L A I σ κ : Type} [DecidableEq L] [DecidableEq κ]

theorem pyXor_cancel (v p : Int) : pyXor v (pyXor v p) = p := by
  cases v <;> cases p <;> simp [pyXor, ← Nat.xor_assoc]

/-- The result does not depend on the timestep or on the past, and depends on `ctx.activities` only as a mapping. -/
def TimelessRule (g : NodeCtx L A Int I → Except Err Int) : Prop :=
  ∀ c c' : NodeCtx L A Int I, c.node = c'.node → (∀ y, c.activities.get? y = c'.activities.get? y) →
    c.neighbours = c'.neighbours → c.neighbourActs = c'.neighbourActs → c.connections = c'.connections →
    c.current = c'.current → c.input = c'.input → g c = g c'

/-- Activity of node `x` in state `t`. -/
def valAt (cfg : Config L A Int I σ κ) (res : Evolved L A Int σ) (t : Nat) (x : L) : Option Int :=
  (res.acts cfg t).bind (fun d => d.get? x)

/-- Conditions with one value per node have no other keys. -/
theorem keys_exact {d : Dict L Int} {ls : List L} (hnd : ls.Nodup) (hlen : d.length = ls.length)
    (h : ∀ x ∈ ls, x ∈ d.keys) {y : L} (hy : y ∉ ls) : d.get? y = none := by
  rw [Dict.get?_eq_none_iff]
  intro hk
  have : (y :: ls).Nodup := List.nodup_cons.2 ⟨hy, hnd⟩
  have h1 := this.length_le_of_subset (l₂ := d.keys) (by
    intro z hz
    rcases List.mem_cons.1 hz with rfl | hz
    · exact hk
    · exact h z hz)
  simp [Dict.keys] at h1
  omega

theorem plainActs_none {ls : List L} {d : Dict L Int} {f : Nat → L → Int} (hnd : ls.Nodup) (hlen : d.length = ls.length)
    (h : ∀ x ∈ ls, x ∈ d.keys) (t : Nat) {y : L} (hy : y ∉ ls) : (plainActs ls d f t).get? y = none := by
  unfold plainActs
  split
  · exact keys_exact hnd hlen h hy
  · rw [Dict.get?_ofKeys, if_neg hy]

theorem pyGet_last {α : Type} {l : List α} {v : α} (h : l.getLast? = some v) : pyGet l (-1) = .ok v := by
  rw [List.getLast?_eq_getElem?] at h
  have hl : 0 < l.length := by
    cases l with
    | nil => cases h
    | cons a l => simp
  unfold pyGet pyIndex
  rw [if_neg (by omega), if_pos (by omega), show (-1 + (l.length : Int)).toNat = l.length - 1 by omega]
  simp only
  rw [h]

omit [DecidableEq κ] in
/-- The latest of the past activities given to the rule is the last past condition at first, and the state before the
current one later. -/
theorem past_last {V : Type} {cfg : Config L A V I σ κ} (hp : cfg.persistActs = true) (hc : cfg.compression = false)
    {P : Conds L V} (hP : cfg.past.getLast? = some P) {n : Net L A} (hn : n.labels ≠ []) {d : Dict L V} (hd : d ≠ [])
    {f : Nat → L → V} {nb : L → List L} (t : Nat) (x y : L) :
    pastActivityOf (plainCtx cfg n nb d f t x) y =
      (if t = 0 then P.toDict cfg.natLabel else plainActs n.labels d f (t - 1)).get y := by
  have hne : cfg.past ≠ [] := by rintro h; rw [h] at hP; cases hP
  have hl : 0 < cfg.past.length := List.length_pos_iff.2 hne
  have he : cfg.past.isEmpty = false := by
    cases h : cfg.past with
    | nil => exact absurd h hne
    | cons a l => rfl
  have hlast : ∃ l, (plainCtx cfg n nb d f t x).past = some l ∧
      l.getLast? = some (some (if t = 0 then P.toDict cfg.natLabel else plainActs n.labels d f (t - 1))) := by
    refine ⟨_, (by
      show specPast cfg _ (t + 1) = _
      unfold specPast
      rw [he, if_neg (by simp)]), ?_⟩
    rw [List.getLast?_eq_getElem?, List.length_map, List.length_range, List.getElem?_map,
      List.getElem?_range (by omega)]
    simp only [Option.map_some, Option.some.injEq]
    unfold pastVal
    by_cases ht : t = 0
    · subst ht
      rw [if_pos (by omega), if_pos rfl]
      rw [show (((cfg.past.length : Int) + (((0 + 1 : Nat) : Int) - 1 - ((cfg.past.length : Int) - ((cfg.past.length - 1 : Nat) : Int)))).toNat) =
        cfg.past.length - 1 by omega]
      rw [← List.getLast?_eq_getElem?, hP]
      rfl
    · rw [if_neg (by omega), if_neg ht]
      rw [show ((((t + 1 : Nat) : Int) - 1 - ((cfg.past.length : Int) - ((cfg.past.length - 1 : Nat) : Int))).toNat) = t - 1 by omega]
      unfold obsHist
      rw [List.getElem?_mapIdx, List.getElem?_map, List.getElem?_range (by omega)]
      simp only [Option.map_some, Option.getD_some, obsActs]
      rw [if_pos, hc]
      · simp
      · refine ⟨Or.inr hp, ?_⟩
        unfold plainActs
        split
        · cases d with
          | nil => exact absurd rfl hd
          | cons a l => rfl
        · cases hl : n.labels with
          | nil => exact absurd hl hn
          | cons a l => rfl
  obtain ⟨l, h1, h2⟩ := hlast
  unfold pastActivityOf
  rw [h1]
  simp only
  rw [pyGet_last h2]

/-- C37, partial.  Full claim: "evolving a binary automaton with `ReversibleRule(f)` for `T` steps, and then evolving again
from the last two states in swapped order, yields the original states in reverse, for every `f`".  Proved here for every
`f` that does not look at the timestep or at the past, on all integers and all fixed networks: the second run, from state
`T-2` with any past conditions that end with state `T-1`, returns; its state `s` is state `T-2-s` of the first run for `s ≤ T-2`, and its
last state is the last past condition of the first run.  For an `f` that looks at the timestep the claim is false
(`C37_timestep_dependent`). -/
theorem C37_reversible_partial (cfg : Config L A Int I σ κ) (T : Nat) (hT : 2 ≤ T)
    (g : NodeCtx L A Int I → Except Err Int) (hg : TimelessRule g) (h : cfg.Ordinary (reversibleRule g) T)
    (hm : cfg.memoize = false) (P : Conds L Int) (hP : cfg.past.getLast? = some P) (n : Net L A) (hn : n.labels.Nodup)
    (hcl : NetClosed n) (r r' : Nat) (w w' : World L A σ) (hr : w.heap[r]? = some n) (hr' : w'.heap[r']? = some n)
    (init : Option (Conds L Int)) (hlen : (initDict cfg init).length = n.size)
    (hi : ∀ x ∈ n.labels, x ∈ (initDict cfg init).keys) (fuel : Nat) (hf : T ≤ fuel) (res : Evolved L A Int σ)
    (he : evolve fuel cfg init r w = .ok res)
    (init' : Option (Conds L Int)) (past' : List (Conds L Int)) (P' : Conds L Int)
    (hP' : past'.getLast? = some P') (hlen' : (initDict cfg init').length = n.size)
    (hlast : ∀ x ∈ n.labels, (initDict cfg init').get? x = valAt cfg res (T - 2) x)
    (hpast : ∀ x ∈ n.labels, (P'.toDict cfg.natLabel).get? x = valAt cfg res (T - 1) x) :
    ∃ res', evolve fuel { cfg with past := past' } init' r' w' = .ok res' ∧ res'.states.length = T ∧
      ∀ x ∈ n.labels, (∀ s, s + 2 ≤ T → valAt { cfg with past := past' } res' s x = valAt cfg res (T - 2 - s) x) ∧
        valAt { cfg with past := past' } res' (T - 1) x = (P.toDict cfg.natLabel).get? x := by
  have hpk : cfg.PackOk := by intro hc; rw [h.compression] at hc; cases hc
  have hpk' : ({ cfg with past := past' } : Config L A Int I σ κ).PackOk := hpk
  have hsize : n.labels.length = n.size := by simp [Net.labels, Dict.keys, Net.size]
  let nb : L → List L := fun x => (specNbrs n x).getD []
  have hnb : ∀ x ∈ n.labels, specNbrs n x = some (nb x) ∧ ∀ y ∈ nb x, y ∈ n.labels := by
    intro x hx
    obtain ⟨l, h1, h2⟩ := hcl x hx
    have : nb x = l := by show (specNbrs n x).getD [] = l; rw [h1]; rfl
    rw [this]
    exact ⟨h1, h2⟩
  have hi0 : ∀ x ∈ n.labels, (initDict cfg init).get? x = some (((initDict cfg init).get? x).getD 0) := by
    intro x hx
    obtain ⟨v, hv⟩ := Dict.exists_get?_of_mem_keys (hi x hx)
    rw [hv]; rfl
  obtain ⟨F, a1, a2, a3⟩ := pure_of_evolve h.rule h.pert hm h.top hpk hn hnb (init := init)
    (f0 := fun x => ((initDict cfg init).get? x).getD 0) hi0 (by omega) h.input hr hf he
  have hF0 : ∀ x ∈ n.labels, (initDict cfg init).get? x = some (F 0 x) := fun x hx => by rw [a1 x hx]; exact hi0 x hx
  -- what a run shows
  have shows : ∀ (cfg' : Config L A Int I σ κ) (d : Dict L Int) (f : Nat → L → Int) (res : Evolved L A Int σ),
      cfg'.persistActs = true → cfg'.compression = false →
      (∀ y ∈ n.labels, d.get? y = some (f 0 y)) →
      Observes cfg' res ((List.range T).map (fun s => (plainActs n.labels d f s, n))) →
      ∀ t, t < T → ∀ x ∈ n.labels, valAt cfg' res t x = some (f t x) := by
    intro cfg' d f res hp hc hf0 ho t ht x hx
    have hg := get?_plainActs hf0 t hx
    have hne : (plainActs n.labels d f t).isEmpty = false := by
      cases hp : plainActs n.labels d f t with
      | nil => rw [hp] at hg; cases hg
      | cons a l => rfl
    unfold valAt
    rw [ho.acts]
    simp only [List.getElem?_map, List.getElem?_range ht, Option.map_some, Option.bind_some, obsActs]
    rw [if_pos ⟨Or.inr hp, hne⟩, hc]
    simpa using hg
  have hsh := shows cfg _ F res h.persist h.compression hF0 a3
  by_cases hemp : n.labels = []
  · -- no nodes
    obtain ⟨res', ext, e1, _, e3⟩ := evolve_pure (cfg := { cfg with past := past' }) (G := reversibleRule g) (n := n)
      h.rule h.pert h.top hpk' hn hnb (init := init') (f := fun _ _ => 0) (T := T) hlen'
      (by intro x hx; rw [hemp] at hx; cases hx) (by intro t _ x hx; rw [hemp] at hx; cases hx)
      (by intro hm'; rw [show ({ cfg with past := past' } : Config L A Int I σ κ).memoize = cfg.memoize from rfl, hm] at hm'; cases hm')
      (by omega) h.input hr' hf
    exact ⟨res', e1, by rw [e3.len]; simp, by intro x hx; rw [hemp] at hx; cases hx⟩
  have hdne : ∀ d : Dict L Int, d.length = n.size → d ≠ [] := by
    intro d hd hnil
    rw [hnil, ← hsize] at hd
    exact hemp (List.eq_nil_of_length_eq_zero hd.symm)
  -- the recurrence of the first run
  have hrec : ∀ t, t + 1 < T → ∀ x ∈ n.labels, ∃ v p, g (plainCtx cfg n nb (initDict cfg init) F t x) = .ok v ∧
      (if t = 0 then (P.toDict cfg.natLabel).get? x else some (F (t - 1) x)) = some p ∧ F (t + 1) x = pyXor v p := by
    intro t ht x hx
    have e := a2 t ht x hx
    unfold reversibleRule at e
    cases hgv : g (plainCtx cfg n nb (initDict cfg init) F t x) with
    | error e' => rw [hgv] at e; cases e
    | ok v =>
      rw [hgv] at e
      simp only at e
      have hpa : pastActivityOf (plainCtx cfg n nb (initDict cfg init) F t x) (plainCtx cfg n nb (initDict cfg init) F t x).node =
          (if t = 0 then P.toDict cfg.natLabel else plainActs n.labels (initDict cfg init) F (t - 1)).get x := by
        exact past_last h.persist h.compression hP hemp (hdne _ hlen) t x x
      rw [hpa] at e
      cases hgp : (if t = 0 then P.toDict cfg.natLabel else plainActs n.labels (initDict cfg init) F (t - 1)).get x with
      | error e' => rw [hgp] at e; cases e
      | ok p =>
        rw [hgp] at e
        refine ⟨v, p, rfl, ?_, (Except.ok.inj e).symm⟩
        rw [Dict.get_eq_ok_iff] at hgp
        by_cases h0 : t = 0
        · rw [if_pos h0] at hgp ⊢; exact hgp
        · rw [if_neg h0] at hgp ⊢
          rw [get?_plainActs hF0 _ hx] at hgp
          exact hgp
  -- the second run
  let F' : Nat → L → Int := fun s x =>
    if s + 2 ≤ T then F (T - 2 - s) x else ((P.toDict cfg.natLabel).get? x).getD 0
  have hF'0 : ∀ x ∈ n.labels, (initDict cfg init').get? x = some (F' 0 x) := by
    intro x hx
    rw [hlast x hx, hsh (T - 2) (by omega) x hx]
    show _ = some (if 0 + 2 ≤ T then F (T - 2 - 0) x else _)
    rw [if_pos (by omega), Nat.sub_zero]
  have hi'0 : ∀ x ∈ n.labels, x ∈ (initDict cfg init').keys := fun x hx =>
    Dict.mem_keys_of_get? (hF'0 x hx)
  obtain ⟨res', ext, e1, _, e3⟩ := evolve_pure (cfg := { cfg with past := past' }) (G := reversibleRule g) (n := n)
    h.rule h.pert h.top hpk' hn hnb (init := init') (f := F') (T := T) hlen' hF'0
    (by
      intro s hs x hx
      obtain ⟨v, p, r1, r2, r3⟩ := hrec (T - 2 - s) (by omega) x hx
      have hsT : s + 2 ≤ T := by omega
      have hFF : ∀ y, F' s y = F (T - 2 - s) y := fun y => by
        show (if s + 2 ≤ T then _ else _) = _
        rw [if_pos hsT]
      have hgv : g (plainCtx { cfg with past := past' } n nb (initDict cfg init') F' s x) = .ok v := by
        rw [← r1]
        apply hg
        · rfl
        · intro y
          show (plainActs n.labels (initDict cfg init') F' s).get? y =
            (plainActs n.labels (initDict cfg init) F (T - 2 - s)).get? y
          by_cases hy : y ∈ n.labels
          · rw [get?_plainActs hF'0 s hy, get?_plainActs hF0 _ hy, hFF]
          · rw [plainActs_none hn (by rw [hlen', hsize]) hi'0 s hy, plainActs_none hn (by rw [hlen, hsize]) hi _ hy]
        · rfl
        · show (nb x).map (F' s) = (nb x).map (F (T - 2 - s))
          exact List.map_congr_left (fun y _ => hFF y)
        · rfl
        · exact hFF x
        · rfl
      have hpa : pastActivityOf (plainCtx { cfg with past := past' } n nb (initDict cfg init') F' s x) x =
          .ok (F (T - 1 - s) x) := by
        rw [past_last (cfg := { cfg with past := past' }) h.persist h.compression hP' hemp (hdne _ hlen') s x x]
        by_cases h0 : s = 0
        · rw [if_pos h0, h0]
          show (P'.toDict cfg.natLabel).get x = _
          rw [Dict.get_eq_ok_iff, hpast x hx, hsh (T - 1) (by omega) x hx, Nat.sub_zero]
        · rw [if_neg h0]
          rw [Dict.get_eq_ok_iff, get?_plainActs hF'0 _ hx]
          show some (if s - 1 + 2 ≤ T then F (T - 2 - (s - 1)) x else _) = _
          rw [if_pos (by omega), show T - 2 - (s - 1) = T - 1 - s by omega]
      show reversibleRule g (plainCtx { cfg with past := past' } n nb (initDict cfg init') F' s x) = _
      unfold reversibleRule
      rw [hgv]
      simp only
      rw [show (plainCtx { cfg with past := past' } n nb (initDict cfg init') F' s x).node = x from rfl, hpa]
      simp only [Except.ok.injEq]
      rw [show T - 1 - s = T - 2 - s + 1 by omega, r3, pyXor_cancel]
      show p = if s + 1 + 2 ≤ T then F (T - 2 - (s + 1)) x else ((P.toDict cfg.natLabel).get? x).getD 0
      by_cases h0 : T - 2 - s = 0
      · rw [if_pos h0] at r2
        rw [if_neg (by omega), r2]; rfl
      · rw [if_neg h0] at r2
        rw [if_pos (by omega)]
        have := Option.some.inj r2
        rw [← this, show T - 2 - s - 1 = T - 2 - (s + 1) by omega])
    (by intro hm'; rw [show ({ cfg with past := past' } : Config L A Int I σ κ).memoize = cfg.memoize from rfl, hm] at hm'; cases hm')
    (by omega) h.input hr' hf
  have hsh' := shows { cfg with past := past' } _ F' res' h.persist h.compression hF'0 e3
  refine ⟨res', e1, by rw [e3.len]; simp, ?_⟩
  intro x hx
  refine ⟨?_, ?_⟩
  · intro s hs
    rw [hsh' s (by omega) x hx, hsh (T - 2 - s) (by omega) x hx]
    show some (if s + 2 ≤ T then _ else _) = _
    rw [if_pos hs]
  · rw [hsh' (T - 1) (by omega) x hx]
    show some (if T - 1 + 2 ≤ T then _ else _) = _
    rw [if_neg (by omega)]
    obtain ⟨v, p, _, r2, _⟩ := hrec 0 (by omega) x hx
    rw [if_pos rfl] at r2
    rw [r2]; rfl

end

/-! ### The hypotheses are met, and the claim fails for rules that read the timestep -/

/-- The parity of the neighbourhood, and the parity of the timestep. -/
def parityRule (ctx : NodeCtx Nat Int Int Int) : Except Err Int := .ok (ctx.neighbourActs.sum % 2)
def clockRule (ctx : NodeCtx Nat Int Int Int) : Except Err Int := .ok ((ctx.t : Int) % 2)

/-- C37 fails for a rule that reads the timestep: on one node with a self-loop the first run shows 0, 1, 0 from past
condition 0; the run from its state 1 with past condition its state 2 shows 1, 1, ..., not 1, 0, .... -/
theorem C37_timestep_dependent :
    Ex.runActs 3 { Ex.base with rule := some (pureRule (reversibleRule clockRule)), input := .timesteps 3, past := [.list [0]] } [0]
      (Net.run Net.empty [.addEdge 0 0 []]) = .ok [some [(0, 0)], some [(0, 1)], some [(0, 0)]] ∧
    Ex.runActs 3 { Ex.base with rule := some (pureRule (reversibleRule clockRule)), input := .timesteps 3, past := [.list [0]] } [1]
      (Net.run Net.empty [.addEdge 0 0 []]) = .ok [some [(0, 1)], some [(0, 1)], some [(0, 1)]] := by
  decide +kernel

example : TimelessRule parityRule := by
  intro c c' _ _ _ h _ _ _
  unfold parityRule
  rw [h]

/-- A run on the triangle and the run back. -/
example :
    Ex.runActs 4 { Ex.base with rule := some (pureRule (reversibleRule parityRule)), input := .timesteps 4, past := [.list [0, 1, 1]] } [1, 0, 0]
      Ex.tri = .ok [some [(0, 1), (1, 0), (2, 0)], some [(0, 1), (1, 0), (2, 1)], some [(0, 1), (1, 1), (2, 0)],
        some [(0, 0), (1, 1), (2, 0)]] ∧
    Ex.runActs 4 { Ex.base with rule := some (pureRule (reversibleRule parityRule)), input := .timesteps 4, past := [.list [0, 1, 0]] } [1, 1, 0]
      Ex.tri = .ok [some [(0, 1), (1, 1), (2, 0)], some [(0, 1), (1, 0), (2, 1)], some [(0, 1), (1, 0), (2, 0)],
        some [(0, 0), (1, 1), (2, 1)]] := by decide +kernel

/-- C37 fails with `memoize=True`: the past is not part of the memoization key, so that the value computed for one past is
used for another.  On one node with a self-loop and the rule that returns the current activity, the run with past condition
0 shows 1, 1, 1, 1; the run back from state 1 with past condition 1 shows 1, 0, 1, 0 and not 1, 1, 1, 0. -/
theorem C37_memoized :
    Ex.runActs 4 { Ex.base with rule := some (pureRule (reversibleRule (fun c => .ok c.current))), input := .timesteps 4, past := [.list [0]], memoize := true } [1]
      (Net.run Net.empty [.addEdge 0 0 []]) = .ok [some [(0, 1)], some [(0, 1)], some [(0, 1)], some [(0, 1)]] ∧
    Ex.runActs 4 { Ex.base with rule := some (pureRule (reversibleRule (fun c => .ok c.current))), input := .timesteps 4, past := [.list [1]], memoize := true } [1]
      (Net.run Net.empty [.addEdge 0 0 []]) = .ok [some [(0, 1)], some [(0, 0)], some [(0, 1)], some [(0, 0)]] := by
  decide +kernel

/-- With two past conditions only the last one counts. -/
example :
    Ex.runActs 3 { Ex.base with rule := some (pureRule (reversibleRule parityRule)), input := .timesteps 3, past := [.list [1, 1, 1], .list [0, 1, 1]] } [1, 0, 0]
      Ex.tri = .ok [some [(0, 1), (1, 0), (2, 0)], some [(0, 1), (1, 0), (2, 1)], some [(0, 1), (1, 1), (2, 0)]] := by
  decide +kernel
end Verif
