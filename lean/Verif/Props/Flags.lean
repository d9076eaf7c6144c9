import Verif.Proofs.EvolutionFlags2
import Verif.Proofs.EvolutionRestart
import Verif.Props.Evolution
/-! # Properties C20, C21 and C27: flags, isolation, prefix and restart -/

namespace Verif

variable {L A V I σ κ : Type} [DecidableEq L] [DecidableEq V] [DecidableEq κ]

/-! ## C20 -/

/-- C20.  Compare a run with any flags to the run that persists everything uncompressed.  Both raise the same exception
or both return; then the heap and the user's state are the same and there are equally many states.  The activities are
those of the reference run (after msgpack, if compressed) where they are persisted, and absent where they are not,
except that timestep 0 is always kept.  The same holds for the networks: without compression always, and with
compression if no shared network object is mutated. -/
theorem C20_flags (cfg : Config L A V I σ κ) (hp : cfg.past = []) (a b c : Bool) (hk : (cfg.withFlags a b c).PackOk)
    (fuel : Nat) (init : Option (Conds L V)) (r : Nat) (w : World L A σ) (n : Net L A) (hr : w.heap[r]? = some n) :
    let ref := cfg.withFlags true true false
    let alt := cfg.withFlags a b c
    (∀ e, evolve fuel alt init r w = .error e ↔ evolve fuel ref init r w = .error e) ∧
    ∀ res res', evolve fuel ref init r w = .ok res → evolve fuel alt init r w = .ok res' →
      res'.world = res.world ∧ res'.states.length = res.states.length ∧
      (∀ t, res'.acts alt t = if t = 0 ∨ a = true then
        (res.acts ref t).map (fun d => if c then unpackActs cfg.labelCodec cfg.valCodec d else d) else none) ∧
      (c = false → ∀ t, res'.net alt t = if t = 0 ∨ b = true then res.net ref t else none) ∧
      (cfg.Safe → ∀ t, res'.net alt t = if t = 0 ∨ b = true then
        (res.net ref t).map (fun m => if c then m.unpack cfg.labelCodec cfg.attrCodec else m) else none) := by
  intro ref alt
  have hkr : ref.PackOk := fun h => by cases h
  have hlt : r < w.heap.length := (List.getElem?_eq_some_iff.1 hr).1
  have hsame := evolve_same hp hkr hk fuel init hlt
  refine ⟨?_, ?_⟩
  · intro e
    cases h : evolve fuel ref init r w with
    | error e' => simp only [ref, h] at hsame; simp only [alt, hsame]
    | ok res =>
      simp only [ref, h] at hsame
      obtain ⟨res', h', _⟩ := hsame
      simp only [alt, h']
      simp
  · intro res res' h h'
    simp only [ref] at h
    simp only [h] at hsame
    obtain ⟨res'', h'', hw, hl, hst⟩ := hsame
    simp only [alt] at h'
    rw [h'] at h''
    simp only [Except.ok.injEq] at h''
    subst h''
    refine ⟨hw, hl, ?_, ?_, ?_⟩
    · intro t
      by_cases ht : t < res.states.length
      · obtain ⟨d, r1, n1, e1, e2, _⟩ := hst t ht
        simp only [Evolved.acts, e1, e2, Option.bind_some]
        simp only [stOf, St.getActs, actsOf, ref, alt, Config.withFlags]
        cases hd : d.isEmpty <;> by_cases h0 : t = 0 ∨ a = true <;> simp [h0]
      · have e1 : res.states[t]? = none := List.getElem?_eq_none_iff.2 (by omega)
        have e2 : res'.states[t]? = none := List.getElem?_eq_none_iff.2 (by omega)
        simp [Evolved.acts, e1, e2]
    · intro hc t
      by_cases ht : t < res.states.length
      · obtain ⟨d, r1, n1, e1, e2, _⟩ := hst t ht
        simp only [Evolved.net, e1, e2, Option.bind_some]
        simp only [stOf, St.getNet, netOf, ref, alt, Config.withFlags, hw, hc]
        cases hd : n1.nodes.isEmpty <;> by_cases h0 : t = 0 ∨ b = true <;> simp [h0]
      · have e1 : res.states[t]? = none := List.getElem?_eq_none_iff.2 (by omega)
        have e2 : res'.states[t]? = none := List.getElem?_eq_none_iff.2 (by omega)
        simp [Evolved.net, e1, e2]
    · intro hs t
      obtain ⟨v, _, g1, _, g3⟩ := evolve_ok (cfg := ref) hs hkr hr h
      obtain ⟨v', _, g1', _, g3'⟩ := evolve_ok (cfg := alt) hs hk hr h'
      have hv : v = v' := by
        simp only [ref, alt] at g1 g1'
        rw [vevolve_flags cfg hp] at g1 g1'
        rw [g1] at g1'
        exact Except.ok.inj g1'
      subst hv
      rw [g3'.nets, g3.nets]
      cases v.hist[t]? with
      | none => simp
      | some p =>
        simp only [Option.bind_some, obsNet, ref, alt, Config.withFlags]
        cases hd : p.2.nodes.isEmpty <;> by_cases h0 : t = 0 ∨ b = true <;> simp [h0]

/-- Example: without persistence only the initial state is kept, and the user's state is the same. -/
example :
    let cfg : Config Nat Int Int Int (List Int) Unit := { Ex.base with rule := some Ex.logRule, input := .timesteps 3 }
    (match evolve 3 (cfg.withFlags false false true) (some (.list [1, 0, 0])) 0 ⟨[Ex.tri], []⟩ with
      | .ok res => decide (res.states.length = 3 ∧ res.acts (cfg.withFlags false false true) 1 = none ∧
          res.acts (cfg.withFlags false false true) 0 = some [(0, 1), (1, 0), (2, 0)] ∧ res.world.user.length = 12)
      | .error _ => false) = true := by decide

/-! ## C21 -/

/-- C21, with `copy_network=True`: every object that existed before the call (in particular the caller's network) is
unchanged, and the network shown by a state does not change when the run goes on. -/
theorem C21_copy (cfg : Config L A V I σ κ) (hc : cfg.copyNetwork = true) (hp : cfg.PackOk) (init : Option (Conds L V))
    (r : Nat) (w : World L A σ) (n : Net L A) (hr : w.heap[r]? = some n) :
    (∀ fuel res, evolve fuel cfg init r w = .ok res →
      (∀ i, i < w.heap.length → res.world.heap[i]? = w.heap[i]?) ∧ res.world.heap[r]? = some n) ∧
    (∀ (T U f f' : Nat) (res res' : Evolved L A V σ), 1 ≤ T → T ≤ U → evolve f (cfg.withT T) init r w = .ok res →
      evolve f' (cfg.withT U) init r w = .ok res' →
      ∀ t, t < T → res'.net (cfg.withT U) t = res.net (cfg.withT T) t ∧
        res'.acts (cfg.withT U) t = res.acts (cfg.withT T) t) := by
  refine ⟨?_, ?_⟩
  · intro fuel res h
    obtain ⟨v, ext, _, e2, _⟩ := evolve_ok (Or.inl hc) hp hr h
    have h1 : ∀ i, i < w.heap.length → res.world.heap[i]? = w.heap[i]? := by
      intro i hi
      rw [e2]
      simp only
      rw [List.getElem?_append_left hi]
    exact ⟨h1, by rw [h1 r (List.getElem?_eq_some_iff.1 hr).1, hr]⟩
  · intro T U f f' res res' hT hTU h h' t ht
    obtain ⟨v, ext, e1, e2, e3⟩ := evolve_ok (cfg := cfg.withT T) (Or.inl hc) hp hr h
    obtain ⟨v', ext', e1', e2', e3'⟩ := evolve_ok (cfg := cfg.withT U) (Or.inl hc) hp hr h'
    obtain ⟨hlen, ext2, he⟩ := (vevolve_prefix hT hTU e1').2 f v e1
    have hg : v'.hist[t]? = v.hist[t]? := by
      rw [← he, List.getElem?_append_left (by omega)]
    rw [e3'.nets, e3.nets, e3'.acts, e3.acts, hg]
    exact ⟨rfl, rfl⟩

/-- C21, with `compression=True` and any `copy_network`: what a state shows does not change when the run goes on. -/
theorem C21_compression (cfg : Config L A V I σ κ) (hc : cfg.compression = true) (init : Option (Conds L V)) (r : Nat)
    (w : World L A σ) (T U f f' : Nat) (res res' : Evolved L A V σ) (hT : 1 ≤ T) (hTU : T ≤ U)
    (h : evolve f (cfg.withT T) init r w = .ok res) (h' : evolve f' (cfg.withT U) init r w = .ok res') (t : Nat)
    (ht : t < res.states.length) :
    res'.net (cfg.withT U) t = res.net (cfg.withT T) t ∧ res'.acts (cfg.withT U) t = res.acts (cfg.withT T) t := by
  obtain ⟨ext, he⟩ := evolve_prefix hT hTU h h'
  have hg : res'.states[t]? = res.states[t]? := by rw [← he, List.getElem?_append_left ht]
  have hsn := evolve_snapshot h
  obtain ⟨st, hst⟩ : ∃ st, res.states[t]? = some st := ⟨res.states[t], by simp [ht]⟩
  have hs := (hsn st (List.mem_of_getElem? hst)).2 hc
  refine ⟨?_, ?_⟩
  · simp only [Evolved.net, hg, hst, Option.bind_some, St.getNet]
    cases hn : st.net with
    | none => rfl
    | some sl => cases sl with
      | packed m => rfl
      | ref r => exact absurd hn (hs r)
  · simp only [Evolved.acts, hg]
    rfl

/-- A topology rule that removes an edge from the network it is given. -/
def Ex.cutRule (ctx : TopCtx Nat Int Int) (u : List Int) : Except Err (TopOut Nat Int × List Int) :=
  .ok (⟨(Net.exec (.removeEdge 0 1) ctx.net).2, .same⟩, u)

/-- Number of edges of the network of timestep `t` and of the caller's network after the run. -/
def Ex.edgeCounts (cfg : Config Nat Int Int Int (List Int) Unit) : Option (Nat × Nat) :=
  match evolve 9 cfg none 0 ⟨[Ex.tri], []⟩ with
  | .ok res => match res.net cfg 0, res.world.heap[0]? with
    | some a, some b => some (a.edges.length, b.edges.length)
    | _, _ => none
  | .error _ => none

/-- Copying protects both; compression protects the states only; without either, both are changed. -/
example :
    let cfg : Config Nat Int Int Int (List Int) Unit := { Ex.base with topology := some Ex.cutRule, input := .timesteps 2 }
    Ex.edgeCounts cfg = some (4, 4) ∧ Ex.edgeCounts { cfg with copyNetwork := false, compression := true } = some (4, 3) ∧
    Ex.edgeCounts { cfg with copyNetwork := false } = some (3, 3) := by decide

/-! ## C27 -/

/-- C27, prefix law.  For any configuration without shared mutable networks: if the run with `U` timesteps returns, so
does the run with `T ≤ U` timesteps, and its `T` states show what the first `T` states of the longer run show. -/
theorem C27_prefix (cfg : Config L A V I σ κ) (hs : cfg.Safe) (hp : cfg.PackOk) (init : Option (Conds L V)) (r : Nat)
    (w : World L A σ) (n : Net L A) (hr : w.heap[r]? = some n) (T U fuel : Nat) (hT : 1 ≤ T) (hTU : T ≤ U)
    (res' : Evolved L A V σ) (h' : evolve fuel (cfg.withT U) init r w = .ok res') :
    ∃ res, evolve fuel (cfg.withT T) init r w = .ok res ∧ res.states.length = T ∧
      ∀ t, t < T → res.acts (cfg.withT T) t = res'.acts (cfg.withT U) t ∧
        res.net (cfg.withT T) t = res'.net (cfg.withT U) t := by
  obtain ⟨v', ext', e1', _, e3'⟩ := evolve_ok (cfg := cfg.withT U) hs hp hr h'
  obtain ⟨⟨v, hv⟩, hpre⟩ := vevolve_prefix hT hTU e1'
  obtain ⟨res, ext, g1, _, g3⟩ := evolve_of_vevolve (cfg := cfg.withT T) hs hp hr hv
  obtain ⟨hlen, ext2, he⟩ := hpre _ v hv
  refine ⟨res, g1, by rw [g3.len, hlen], ?_⟩
  intro t ht
  have hg : v'.hist[t]? = v.hist[t]? := by
    rw [← he, List.getElem?_append_left (by omega)]
  rw [e3'.nets, g3.nets, e3'.acts, g3.acts, hg]
  exact ⟨rfl, rfl⟩

/-- C27, restart law.  Let the callables ignore the timestep, without memoization, past conditions or stale
neighbour lists, everything being persisted uncompressed.  Let the run with `T` timesteps return, with last activities
`S` and last network `N`.  A second run of `U + 1` timesteps from `S` and `N` (with the user state the first run left)
raises what the run with `T + U` timesteps raises, and otherwise its state `i` shows what state `T - 1 + i` of that run
shows. -/
theorem C27_restart (cfg : Config L A V I σ κ) (hs : cfg.Safe) (htf : cfg.TimeFree) (hm : cfg.memoize = false)
    (hp : cfg.past = []) (hfr : cfg.FreshNbrs) (hpa : cfg.persistActs = true) (hpn : cfg.persistNet = true)
    (hco : cfg.compression = false) (init : Option (Conds L V)) (r : Nat) (w : World L A σ) (n : Net L A)
    (hr : w.heap[r]? = some n) (T U : Nat) (hT : 1 ≤ T) (f : Nat) (res : Evolved L A V σ)
    (h : evolve f (cfg.withT T) init r w = .ok res) (S : Dict L V) (N : Net L A)
    (hS : res.acts (cfg.withT T) (T - 1) = some S) (hN : res.net (cfg.withT T) (T - 1) = some N)
    (hsize : cfg.rule.isSome = true → S.length = N.size) (r' : Nat) (w' : World L A σ) (hr' : w'.heap[r']? = some N)
    (hu : w'.user = res.world.user) :
    ∃ k, k ≤ f ∧ ∀ f',
      (∀ e, evolve f' (cfg.withT (U + 1)) (some (.dict S)) r' w' = .error e ↔
        evolve (f' + k) (cfg.withT (T + U)) init r w = .error e) ∧
      ∀ a b, evolve f' (cfg.withT (U + 1)) (some (.dict S)) r' w' = .ok a →
        evolve (f' + k) (cfg.withT (T + U)) init r w = .ok b →
        b.states.length = T - 1 + a.states.length ∧ b.world.user = a.world.user ∧
        ∀ i, b.acts (cfg.withT (T + U)) (T - 1 + i) = a.acts (cfg.withT (U + 1)) i ∧
          b.net (cfg.withT (T + U)) (T - 1 + i) = a.net (cfg.withT (U + 1)) i := by
  have hpk : ∀ X, (cfg.withT X).PackOk := fun X hc => by
    have : cfg.compression = true := hc
    rw [hco] at this; cases this
  obtain ⟨v, ext, e1, e2, e3⟩ := evolve_ok (cfg := cfg.withT T) hs (hpk _) hr h
  have hlast : v.hist.length = T ∧ v.hist.getLast? = some (v.acts, v.net) := by
    unfold vevolve at e1
    split at e1
    · cases e1
    · obtain ⟨g1, g2, _⟩ := vloop_continue (T := T) (U := T) (Int.le_refl _) (by simp [vinit]; omega) e1
      exact ⟨by omega, g2.last (by simp [vinit])⟩
  obtain ⟨hlen, hlast⟩ := hlast
  rw [List.getLast?_eq_getElem?, hlen] at hlast
  have hpa' : ∀ X, (cfg.withT X).persistActs = true := fun _ => hpa
  have hpn' : ∀ X, (cfg.withT X).persistNet = true := fun _ => hpn
  have hco' : ∀ X, (cfg.withT X).compression = false := fun _ => hco
  have hSv : v.acts = S := by
    rw [e3.acts, hlast] at hS
    simp only [Option.bind_some, obsActs, hpa', hco'] at hS
    split at hS
    · simpa using hS
    · cases hS
  have hNv : v.net = N := by
    rw [e3.nets, hlast] at hN
    simp only [Option.bind_some, obsNet, hpn', hco'] at hN
    split at hN
    · simpa using hN
    · cases hN
  have huv : w'.user = v.user := by rw [hu, e2]
  obtain ⟨_, _, k, hk, hrest⟩ := vevolve_restart htf hm hp hfr (U := U) hT e1 (by rw [hSv, hNv]; exact hsize)
  refine ⟨k, hk, ?_⟩
  intro f'
  have hf := hrest f'
  rw [hSv, hNv, ← huv] at hf
  refine ⟨?_, ?_⟩
  · intro e
    rw [evolve_error_iff (cfg := cfg.withT (U + 1)) hs (hpk _) hr', evolve_error_iff (cfg := cfg.withT (T + U)) hs (hpk _) hr]
    cases hv : vevolve f' (cfg.withT (U + 1)) (some (.dict S)) N w'.user with
    | error e' => simp only [hv] at hf; rw [hf]
    | ok x =>
      simp only [hv] at hf
      obtain ⟨y, hy, _⟩ := hf
      rw [hy]; simp
  · intro a b ha hb
    obtain ⟨va, _, a1, a2, a3⟩ := evolve_ok (cfg := cfg.withT (U + 1)) hs (hpk _) hr' ha
    obtain ⟨vb, _, b1, b2, b3⟩ := evolve_ok (cfg := cfg.withT (T + U)) hs (hpk _) hr hb
    simp only [a1] at hf
    obtain ⟨y, hy, hsh⟩ := hf
    rw [b1] at hy
    simp only [Except.ok.injEq] at hy
    subst hy
    have htl : (v.hist.take (T - 1)).length = T - 1 := by rw [List.length_take, hlen]; omega
    have hg : ∀ i, vb.hist[T - 1 + i]? = va.hist[i]? := by
      intro i
      rw [hsh.hist, List.getElem?_append_right (by rw [htl]; omega), htl]
      congr 1; omega
    refine ⟨?_, ?_, ?_⟩
    · rw [b3.len, a3.len, hsh.hist, List.length_append, htl]
    · rw [a2, b2]; exact hsh.user
    · intro i
      rw [b3.acts, b3.nets, a3.acts, a3.nets, hg]
      cases va.hist[i]? with
      | none => exact ⟨rfl, rfl⟩
      | some p =>
        simp only [Option.bind_some, obsActs, obsNet, hpa', hpn', hco']
        simp

/-- A rule that ignores the timestep. -/
def Ex.plainRule (ctx : NodeCtx Nat Int Int Int) (u : List Int) : Except Err (RuleOut Nat Int Int × List Int) :=
  .ok (⟨ctx.neighbourActs.sum + ctx.current, [], []⟩, u ++ [ctx.current])

/-- The hypotheses of the restart law are met by a stateful rule that ignores the timestep, and the law on a concrete
run. -/
example :
    let cfg : Config Nat Int Int Int (List Int) Unit := { Ex.base with rule := some Ex.plainRule }
    cfg.TimeFree ∧ cfg.Safe ∧ cfg.FreshNbrs ∧
    Ex.runActs 9 (cfg.withT 3) [1, 0, 0] Ex.tri =
      .ok [some [(0, 1), (1, 0), (2, 0)], some [(0, 2), (1, 1), (2, 0)], some [(0, 4), (1, 3), (2, 1)]] ∧
    Ex.runActs 9 (cfg.withT 2) [2, 1, 0] Ex.tri =
      .ok [some [(0, 2), (1, 1), (2, 0)], some [(0, 4), (1, 3), (2, 1)]] := by
  refine ⟨⟨?_, ?_, ?_⟩, Or.inl rfl, Or.inl rfl, by decide, by decide⟩
  · intro f hf ctx t u; cases hf; rfl
  · intro f hf; cases hf
  · intro f hf; cases hf

end Verif
