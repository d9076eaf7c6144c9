import Verif.Proofs.Wolfram
import Verif.Proofs.WolframConfig
import Verif.Proofs.EvolutionPure
import Verif.Proofs.Copy
/-! # Properties C55-C58: the Wolfram physics model -/

namespace Verif
open Spec

/-! ## C55: configurations and networks -/

theorem strLe_iff : ∀ (a b : List Char), strLe a b = true ↔ a ≤ b
  | [], b => by simp [strLe]
  | a :: as, [] => by simp [strLe]
  | a :: as, b :: bs => by
    rw [List.cons_le_cons_iff]
    by_cases h : a = b
    · subst h
      simp only [strLe, if_true, strLe_iff as bs, true_and]
      constructor
      · exact Or.inr
      · rintro (h | h)
        · exact absurd h (Nat.lt_irrefl a.toNat)
        · exact h
    · rw [strLe, if_neg h, decide_eq_true_eq]
      simp only [h, false_and, or_false]
      exact Iff.rfl

/-- C55: reading the network of a configuration gives the non-empty relations in the order of the strings that number them. -/
theorem C55_order (config : List (List Int)) : ∃ sorted : List (List Char × List Int),
    sorted.Perm (numbered config) ∧ sorted.Pairwise (fun p q => p.1 ≤ q.1) ∧
    wConfig (wInit config).1 = .ok (sorted.map Prod.snd) := by
  obtain ⟨sorted, h1, h2, h3⟩ := wConfig_sorted config
  exact ⟨sorted, h1, h2.imp (fun h => (strLe_iff _ _).1 h), h3⟩

theorem numbered_snd (config : List (List Int)) : (numbered config).map Prod.snd = config.filter (fun r => decide (r ≠ [])) := by
  unfold numbered
  rw [List.map_map]
  have h : ∀ (l : List (List Int)) (k : Nat),
      ((l.zipIdx k).filter (fun p => decide (p.1 ≠ []))).map Prod.fst = l.filter (fun r => decide (r ≠ [])) := by
    intro l
    induction l with
    | nil => intro k; rfl
    | cons r l ih =>
      intro k
      rw [List.zipIdx_cons, List.filter_cons, List.filter_cons]
      split <;> simp only [List.map_cons, ih (k + 1)]
  exact h config 0

/-- The numbers determine the order. -/
theorem wConfig_of_sorted {config : List (List Int)} {l : List (List Char × List Int)} (hl : l.Perm (numbered config))
    (hs : l.Pairwise (fun p q => strLe p.1 q.1 = true)) : wConfig (wInit config).1 = .ok (l.map Prod.snd) := by
  obtain ⟨sorted, h1, h2, h3⟩ := wConfig_sorted config
  have heq : sorted = l := by
    refine List.Perm.eq_of_pairwise ?_ h2 hs (h1.trans hl.symm)
    intro p q hp hq hpq hqp
    have hfst := strLe_antisymm hpq hqp
    obtain ⟨c, c1, _, c2⟩ := mem_labelled.1 (h1.mem_iff.1 hp)
    obtain ⟨d, d1, _, d2⟩ := mem_labelled.1 (hl.mem_iff.1 hq)
    have hcd : c = d := wLabel_inj (by rw [c2, d2, hfst])
    subst hcd
    rw [c1] at d1
    injection d1 with d1
    exact Prod.ext hfst d1
  rw [h3, heq]

/-- C55: reading the network of a configuration gives exactly its non-empty relations, with multiplicity. -/
theorem C55_relations (config : List (List Int)) : ∃ rels, wConfig (wInit config).1 = .ok rels ∧
    rels.Perm (config.filter (fun r => decide (r ≠ []))) := by
  obtain ⟨sorted, h1, _, h3⟩ := C55_order config
  refine ⟨_, h3, ?_⟩
  rw [← numbered_snd]
  exact h1.map _

theorem digitChar_mono : ∀ d, d < 10 → ∀ e, e < 10 → d < e → (digitChar d).toNat < (digitChar e).toNat := by decide +kernel

/-- C55, partial: with at most 9 relations the order is kept.  The full statement, without the bound, is false: see
`C55_ten_relations`. -/
theorem C55_round_trip_partial (config : List (List Int)) (h : config.length ≤ 9) (hne : ∀ r ∈ config, r ≠ []) :
    wConfig (wInit config).1 = .ok config := by
  have hs : (labelled config).Pairwise (fun p q => strLe p.1 q.1 = true) := by
    unfold labelled
    rw [List.pairwise_map]
    have hp : config.zipIdx.Pairwise (fun p q => p.2 < q.2) := by
      have := List.pairwise_lt_range' (s := 0) (n := config.length) (step := 1)
      rw [← List.zipIdx_map_snd, List.pairwise_map] at this
      exact this
    have hmem : ∀ p ∈ config.zipIdx.filter (fun p => decide (p.1 ≠ [])), p.2 < 9 := by
      intro p hp
      have := List.mem_zipIdx_iff_getElem?.1 (List.mem_filter.1 hp).1
      have := (List.getElem?_eq_some_iff.1 this).1
      omega
    have hl : ∀ c : Nat, c < 9 → wLabel c = [digitChar (c + 1)] := by
      intro c hc
      unfold wLabel strInt
      rw [if_neg (by omega), show ((c : Int) + 1).natAbs = c + 1 by omega, digitsBE_small (by omega)]
      rfl
    refine List.Pairwise.imp_of_mem ?_ (List.Pairwise.filter _ hp)
    intro p q hp hq hpq
    have h1 := hmem p hp
    have h2 := hmem q hq
    have h3 := digitChar_mono (p.2 + 1) (by omega) (q.2 + 1) (by omega) (by omega)
    rw [hl _ h1, hl _ h2]
    have hne : digitChar (p.2 + 1) ≠ digitChar (q.2 + 1) := by intro e; rw [e] at h3; omega
    simp [strLe, hne, h3]
  rw [wConfig_of_sorted (l := labelled config) (List.Perm.refl _) hs, show labelled config = numbered config from rfl, numbered_snd]
  congr 1
  exact List.filter_eq_self.2 (fun r hr => by simpa using hne r hr)

/-- Ten relations. -/
def tenRelations : List (List Int) := [[1, 2], [2, 3], [3], [4], [5], [6], [7], [8, 1, 1], [9], [10]]

/-- C55 is false in general: with ten relations the last one comes second, because `"10" < "2"`. -/
theorem C55_ten_relations : wConfig (wInit tenRelations).1 =
    .ok [[1, 2], [10], [2, 3], [3], [4], [5], [6], [7], [8, 1, 1], [9]] ∧
    wConfig (wInit tenRelations).1 ≠ .ok tenRelations := by
  have key : wConfig (wInit tenRelations).1 = .ok [[1, 2], [10], [2, 3], [3], [4], [5], [6], [7], [8, 1, 1], [9]] := by
    exact wConfig_of_sorted (l := [("1".toList, [1, 2]), ("10".toList, [10]), ("2".toList, [2, 3]), ("3".toList, [3]), ("4".toList, [4]),
      ("5".toList, [5]), ("6".toList, [6]), ("7".toList, [7]), ("8".toList, [8, 1, 1]), ("9".toList, [9])])
      (List.isPerm_iff.1 (by decide +kernel)) (by decide +kernel)
  rw [key]
  exact ⟨rfl, by decide⟩

example : wConfig (wInit [[1, 1, 2], [3], [2, 3], [3, 4, 5, 3]]).1 = .ok [[1, 1, 2], [3], [2, 3], [3, 4, 5, 3]] :=
  C55_round_trip_partial _ (by decide) (by decide)

section
variable {S : Type} [DecidableEq S]

/-! ## C56: matching -/

/-- C56: `_matches` succeeds iff an assignment that agrees with the bindings turns the pattern into the relation (in particular
they have the same length). -/
theorem C56_succeeds_iff (rule : List S) (rel : List Int) (b : Dict S Int) :
    (wMatches rule rel b).1 = true ↔ ∃ f : S → Int, Agrees f b ∧ rule.map f = rel := (wMatches_spec rule rel b).1

/-- C56: a failure leaves the bindings unchanged. -/
theorem C56_failure (rule : List S) (rel : List Int) (b : Dict S Int) (h : (wMatches rule rel b).1 = false) :
    (wMatches rule rel b).2 = b := (wMatches_spec rule rel b).2.1 h

/-- C56: a success keeps the bindings, turns the pattern into the relation, and binds no symbols but those of the pattern. -/
theorem C56_success (rule : List S) (rel : List Int) (b : Dict S Int) (h : (wMatches rule rel b).1 = true) :
    Extends (wMatches rule rel b).2 b ∧ rule.map (wMatches rule rel b).2.get? = rel.map some ∧
    ∀ k, k ∈ (wMatches rule rel b).2.keys ↔ k ∈ b.keys ∨ k ∈ rule := (wMatches_spec rule rel b).2.2 h

/-! ## C57, C58: rewriting -/

/-- C57: a rewriting terminates; the new configuration has, in place of the relations matched by the left-hand side, the
right-hand sides of the matches.  The bound on the `while` loop is reached by any fuel above the number of relations. -/
theorem C57_rewrite {lhs : List (List S)} (hne : lhs ≠ []) (out : List (List S)) (last : Int) (config : List (List Int)) {fuel : Nat}
    (hf : config.length + 2 ≤ fuel) :
    ∃ (last' : Int) (new rest : List (List Int)) (apps : List (Application S)),
      wRewrite fuel lhs out last config = .ok (last', new) ∧ config.Perm (rest ++ apps.flatMap Application.removed) ∧
      new.Perm (rest ++ apps.flatMap Application.created) ∧ ∀ a ∈ apps, a.Correct lhs out := by
  obtain ⟨n, new, rest, apps, h1, h2, h3, h4, _⟩ := wRewrite_spec hne out last config hf
  exact ⟨_, new, rest, apps, h1, h2, List.Perm.of_eq h3, h4⟩

/-- C57: with a left-hand side of one pattern, no relation that matches it is left. -/
theorem C57_single_complete (p : List S) (out : List (List S)) (last : Int) (config : List (List Int)) {fuel : Nat}
    (hf : config.length + 2 ≤ fuel) :
    ∃ (last' : Int) (new rest : List (List Int)) (apps : List (Application S)),
      wRewrite fuel [p] out last config = .ok (last', new) ∧ config.Perm (rest ++ apps.flatMap Application.removed) ∧
      new.Perm (rest ++ apps.flatMap Application.created) ∧ (∀ a ∈ apps, a.Correct [p] out) ∧
      ∀ r ∈ rest, ¬ ∃ f : S → Int, p.map f = r := by
  obtain ⟨s, h1, h2⟩ := wScanLoop_spec (lhs := [p]) (by simp) fuel _ (⟨by simp, by simp, rfl⟩ :
    LoopInv config [p] (⟨config, [], [], [], [], true⟩ : WScan S)) hf
  obtain ⟨k1, k2⟩ := wScanLoop_single p fuel _ s ⟨rfl, rfl⟩ (fun h => by cases h) h1
  obtain ⟨apps, n, rels, e1, e2, e3, e4, e5⟩ := wInstAll_spec out s.matched last
  refine ⟨last + n, s.relations ++ s.unmatched ++ rels, s.relations, apps, ?_, ?_, ?_, ?_, k2⟩
  · unfold wRewrite
    rw [h1]
    simp only
    rw [e1]
  · refine h2.perm.symm.trans (List.Perm.of_eq ?_)
    rw [← e2, List.flatMap_map, k1, List.append_nil]
  · rw [k1, List.append_nil, e4]
  · intro a ha
    have hg : (a.removed, a.bindings) ∈ s.matched := by rw [← e2]; exact List.mem_map.2 ⟨a, ha, rfl⟩
    obtain ⟨q1, q2⟩ := h2.groups _ hg
    exact ⟨q1, fun k => ⟨q2 k, instances_bound q1⟩, (e3 a ha).1, (e3 a ha).2⟩

/-- With an empty left-hand side the `while` loop never ends. -/
theorem C57_empty_lhs (out : List (List S)) (last : Int) (config : List (List Int)) (fuel : Nat) :
    wRewrite fuel ([] : List (List S)) out last config = .error .outOfFuel := by
  have h : ∀ (fuel : Nat) (s : WScan S), s.scanning = true → wScanLoop ([] : List (List S)) fuel s = .error .outOfFuel := by
    intro fuel
    induction fuel with
    | zero => intro s _; rfl
    | succ fuel ih =>
      intro s hs
      unfold wScanLoop
      rw [if_pos hs]
      exact ih _ hs
  unfold wRewrite
  rw [h fuel _ rfl]

/-- C58: if the counter is not below any node of the configuration, the symbols that occur only on the right-hand side get new
nodes, different for different matches and symbols. -/
theorem C58_fresh {lhs : List (List S)} (hne : lhs ≠ []) (out : List (List S)) (last : Int) (config : List (List Int)) {fuel : Nat}
    (hf : config.length + 2 ≤ fuel) (hlast : ∀ r ∈ config, ∀ x ∈ r, x ≤ last) :
    ∃ (last' : Int) (new rest : List (List Int)) (apps : List (Application S)) (fresh : List Int),
      wRewrite fuel lhs out last config = .ok (last', new) ∧ Rewriting lhs out config new rest apps fresh :=
  wRewrite_rewriting hne out last config hf hlast

/-- C58: the counter after building a network is not below any node. -/
theorem C58_counter (config : List (List Int)) (r : List Int) (hr : r ∈ config) (x : Int) (hx : x ∈ r) : x ≤ (wInit config).2 :=
  wInit_last_ge hr hx

theorem topology_rule_step {V : Type} {lhs : List (List S)} (hne : lhs ≠ []) (out : List (List S)) {fuel : List (List Int) → Nat}
    (hf : ∀ c, c.length + 2 ≤ fuel c) (config : List (List Int)) (ctx : TopCtx Int WVal V) (hctx : ctx.net = (wInit config).1) :
    ∃ (new rest : List (List Int)) (apps : List (Application S)) (fresh : List Int),
      wTopologyRule fuel lhs out ctx (wInit config).2 = .ok (⟨ctx.net, .fresh (wInit new).1⟩, (wInit new).2) ∧
      Rewriting lhs out (config.filter (fun r => decide (r ≠ []))) new rest apps fresh ∧
      ∃ rels last', wConfig (wInit config).1 = .ok rels ∧ wRewrite (fuel rels) lhs out (wInit config).2 rels = .ok (last', new) := by
  obtain ⟨rels, h1, h2⟩ := C55_relations config
  obtain ⟨last', new, rest, apps, fresh, h3, h4⟩ := wRewrite_rewriting hne out (wInit config).2 rels (hf rels) (by
    intro r hr x hx
    exact wInit_last_ge (List.mem_filter.1 (h2.mem_iff.1 hr)).1 hx)
  refine ⟨new, rest, apps, fresh, ?_, ⟨h2.symm.trans h4.before, h4.after, h4.correct, h4.nodes, h4.nodup, ?_⟩, rels, last', h1, h3⟩
  · unfold wTopologyRule
    rw [hctx, h1]
    simp only
    rw [h3]
  · intro x hx r hr
    exact h4.unused x hx r (h2.mem_iff.2 hr)

/-- C57, C58 for `topology_rule` on the network of a configuration, with the counter that belongs to it. -/
theorem C58_topology_rule {V : Type} {lhs : List (List S)} (hne : lhs ≠ []) (out : List (List S)) {fuel : List (List Int) → Nat}
    (hf : ∀ c, c.length + 2 ≤ fuel c) (config : List (List Int)) (ctx : TopCtx Int WVal V) (hctx : ctx.net = (wInit config).1) :
    ∃ (new rest : List (List Int)) (apps : List (Application S)) (fresh : List Int),
      wTopologyRule fuel lhs out ctx (wInit config).2 = .ok (⟨ctx.net, .fresh (wInit new).1⟩, (wInit new).2) ∧
      Rewriting lhs out (config.filter (fun r => decide (r ≠ []))) new rest apps fresh := by
  obtain ⟨new, rest, apps, fresh, h1, h2, _⟩ := topology_rule_step hne out hf config ctx hctx
  exact ⟨new, rest, apps, fresh, h1, h2⟩

/-! ## Runs -/

variable {V I κ : Type} [DecidableEq V] [DecidableEq κ]

/-- The settings of a run of `T` timesteps. -/
structure WolframRun (cfg : Config Int WVal V I Int κ) (fuel : List (List Int) → Nat) (lhs out : List (List S)) (T : Nat) : Prop where
  rule : cfg.rule = none
  top : cfg.topology = some (wTopologyRule fuel lhs out)
  input : cfg.input = .timesteps T
  labels : ∀ x, cfg.labelCodec.ExactAt x
  attrs : ∀ x, cfg.attrCodec.ExactAt x
  net : cfg.persistNet = true
  compression : cfg.compression = false
  lhs : lhs ≠ []
  fuel : ∀ c, c.length + 2 ≤ fuel c

omit [DecidableEq S] [DecidableEq V] [DecidableEq κ] in
theorem copy_wInit {cfg : Config Int WVal V I Int κ} (h1 : ∀ x, cfg.labelCodec.ExactAt x) (h2 : ∀ x, cfg.attrCodec.ExactAt x)
    (config : List (List Int)) : (wInit config).1.copy cfg.labelCodec cfg.attrCodec = .ok (wInit config).1 := by
  obtain ⟨g, ⟨g1, g2⟩, g3, _⟩ := wInit_ofMG config
  rw [g3, copy_ofMG g1 (fun x _ => h1 x) (fun e _ kv _ => h2 kv.2) (fun p _ kv _ => h2 kv.2), ← g2]

omit [DecidableEq S] in
/-- The rewriting of a configuration, without its details. -/
def Rewrites [DecidableEq S] (lhs out : List (List S)) (config new : List (List Int)) : Prop :=
  ∃ rest apps fresh, Rewriting lhs out (config.filter (fun r => decide (r ≠ []))) new rest apps fresh

omit [DecidableEq S] in
/-- `new` is what `topology_rule` makes of the configuration, with the counter that belongs to it. -/
def StepTo [DecidableEq S] (fuel : List (List Int) → Nat) (lhs out : List (List S)) (config new : List (List Int)) : Prop :=
  Rewrites lhs out config new ∧
  ∃ rels last', wConfig (wInit config).1 = .ok rels ∧ wRewrite (fuel rels) lhs out (wInit config).2 rels = .ok (last', new)

omit [DecidableEq V] [DecidableEq κ] in
theorem wolfram_topo {cfg : Config Int WVal V I Int κ} {fuel : List (List Int) → Nat} {lhs out : List (List S)} {T : Nat}
    (hc : WolframRun cfg fuel lhs out T) (t : Nat) (acts : Dict Int V) (config : List (List Int)) :
    ∃ new, StepTo fuel lhs out config new ∧
      topoV cfg t acts (wInit config).1 [] [] (wInit config).2 =
        if (wInit new).1.nodes.isEmpty then .error (.exception "topology rule must return a network") else .ok (wInit new) := by
  obtain ⟨new, rest, apps, fresh, h1, h2, h3⟩ := topology_rule_step hc.lhs out hc.fuel config
    (⟨(wInit config).1, acts, t⟩ : TopCtx Int WVal V) rfl
  refine ⟨new, ⟨⟨rest, apps, fresh, h2⟩, h3⟩, ?_⟩
  have hr : ruleV (wTopologyRule fuel lhs out) t acts (wInit config).1 (wInit config).2 =
      if (wInit new).1.nodes.isEmpty then .error (.exception "topology rule must return a network") else .ok (wInit new) := by
    unfold ruleV
    rw [h1]
    simp only [TopOut.value]
    by_cases h : (wInit new).1.nodes.isEmpty = true
    · simp [h]
    · simp [h]
  unfold topoV reqsV
  simp only [List.isEmpty_nil, Bool.and_self, if_true, hc.top, copy_wInit hc.labels hc.attrs, hr, ite_self]

theorem wolfram_step {cfg : Config Int WVal V I Int κ} {fuel : List (List Int) → Nat} {lhs out : List (List S)} {T : Nat}
    (hc : WolframRun cfg fuel lhs out T) (ks : KeySpec Int WVal V I κ) (config : List (List Int)) (v : VLoop Int WVal V Int κ)
    (hpos : 1 ≤ v.hist.length) (hn : v.net = (wInit config).1) (hu : v.user = (wInit config).2) :
    ∃ new, StepTo fuel lhs out config new ∧
      ((wInit new).1.nodes.isEmpty = true ∧ vstep cfg ks .timestep v = .error (.exception "topology rule must return a network") ∨
       (wInit new).1.nodes.isEmpty = false ∧ ∃ v', vstep cfg ks .timestep v = .ok v' ∧ v'.net = (wInit new).1 ∧ v'.user = (wInit new).2 ∧
         v'.hist = v.hist ++ [(v'.acts, v'.net)]) := by
  have hobs : v.hist.length ≤ (obsHist cfg v.hist).length := by simp [obsHist]
  have hcomp : ∀ acts n past nmap memo u, computeActs cfg ks v.hist.length .timestep acts n past nmap memo u = .ok ⟨[], [], [], memo, u⟩ := by
    intro acts n past nmap memo u
    unfold computeActs
    rw [hc.rule]
  unfold vstep
  rw [pastV_eq cfg _ _ hpos hobs, hn, hu]
  simp only [hcomp]
  cases cfg.order with
  | activitiesFirst =>
    obtain ⟨new, h1, h2⟩ := wolfram_topo hc v.hist.length [] config
    refine ⟨new, h1, ?_⟩
    simp only [h2]
    by_cases h : (wInit new).1.nodes.isEmpty = true
    · left; exact ⟨h, by simp [h]⟩
    · right
      refine ⟨by simpa using h, ?_⟩
      simp [h]
  | topologyFirst =>
    obtain ⟨new, h1, h2⟩ := wolfram_topo hc v.hist.length v.acts config
    refine ⟨new, h1, ?_⟩
    simp only [h2]
    by_cases h : (wInit new).1.nodes.isEmpty = true
    · left; exact ⟨h, by simp [h]⟩
    · right
      refine ⟨by simpa using h, ?_⟩
      simp [h]
  | synchronous =>
    obtain ⟨new, h1, h2⟩ := wolfram_topo hc v.hist.length v.acts config
    refine ⟨new, h1, ?_⟩
    simp only [h2]
    by_cases h : (wInit new).1.nodes.isEmpty = true
    · left; exact ⟨h, by simp [h]⟩
    · right
      refine ⟨by simpa using h, ?_⟩
      simp [h]

/-- The networks of the history are those of a chain of rewritings that ends in `config`. -/
def ShowsChain (fuel : List (List Int) → Nat) (lhs out : List (List S)) (hist : List (Dict Int V × Net Int WVal)) (configs : List (List (List Int))) : Prop :=
  hist.map Prod.snd = configs.map (fun c => (wInit c).1) ∧
  (∀ (t : Nat) (c c' : List (List Int)), configs[t]? = some c → configs[t + 1]? = some c' → StepTo fuel lhs out c c') ∧
  ∀ (t : Nat) (c : List (List Int)), configs[t + 1]? = some c → (wInit c).1.nodes.isEmpty = false

theorem wolfram_loop {cfg : Config Int WVal V I Int κ} {fuel : List (List Int) → Nat} {lhs out : List (List S)} {T : Nat}
    (hc : WolframRun cfg fuel lhs out T) (ks : KeySpec Int WVal V I κ) (k : Nat) :
    ∀ (f : Nat) (pre : List (List (List Int))) (config : List (List Int)) (v : VLoop Int WVal V Int κ), k < f → v.hist.length + k = T →
    v.net = (wInit config).1 → v.user = (wInit config).2 → ShowsChain fuel lhs out v.hist (pre ++ [config]) →
    match vloop cfg ks f v with
    | .error e => e = .exception "topology rule must return a network"
    | .ok v' => v'.hist.length = T ∧ ∃ more, ShowsChain fuel lhs out v'.hist (pre ++ config :: more) := by
  induction k with
  | zero =>
    intro f pre config v hf hT _ _ hs
    obtain ⟨f, rfl⟩ : ∃ f', f = f' + 1 := ⟨f - 1, by omega⟩
    unfold vloop callInput
    rw [hc.input]
    simp only [show ((v.hist.length : Int) = (T : Int)) from by omega, if_true]
    exact ⟨by omega, [], hs⟩
  | succ k ih =>
    intro f pre config v hf hT hn hu hs
    obtain ⟨f, rfl⟩ : ∃ f', f = f' + 1 := ⟨f - 1, by omega⟩
    have hlen : v.hist.length = pre.length + 1 := by
      have := congrArg List.length hs.1
      simpa using this
    obtain ⟨new, h1, h2⟩ := wolfram_step hc ks config v (by omega) hn hu
    unfold vloop callInput
    rw [hc.input]
    simp only [show ¬ ((v.hist.length : Int) = (T : Int)) from by omega, if_false]
    rcases h2 with ⟨_, h2⟩ | ⟨hne, v', h2, h3, h4, h5⟩
    · rw [h2]
    · rw [h2]
      simp only
      have hchain : ShowsChain fuel lhs out v'.hist ((pre ++ [config]) ++ [new]) := by
        refine ⟨?_, ?_, ?_⟩
        · rw [h5, List.map_append, hs.1, h3]; simp
        · intro t c c' hct hct'
          by_cases ht : t + 1 < (pre ++ [config]).length
          · rw [List.getElem?_append_left (by omega)] at hct
            rw [List.getElem?_append_left ht] at hct'
            exact hs.2.1 t c c' hct hct'
          · have hlt := (List.getElem?_eq_some_iff.1 hct').1
            simp only [List.length_append, List.length_singleton] at hlt ht
            have ht' : t = pre.length := by omega
            subst ht'
            simp only [List.append_assoc, List.singleton_append] at hct hct'
            simp at hct
            rw [List.getElem?_append_right (by omega)] at hct'
            simp at hct'
            subst hct hct'
            exact h1
        · intro t c hct
          by_cases ht : t + 1 < (pre ++ [config]).length
          · rw [List.getElem?_append_left ht] at hct
            exact hs.2.2 t c hct
          · have hlt := (List.getElem?_eq_some_iff.1 hct).1
            simp only [List.length_append, List.length_singleton] at hlt ht
            have ht' : t = pre.length := by omega
            subst ht'
            rw [List.getElem?_append_right (by simp)] at hct
            simp at hct
            subst hct
            exact hne
      have := ih f (pre ++ [config]) new v' (by omega) (by rw [h5]; simp; omega) h3 h4 hchain
      revert this
      cases vloop cfg ks f v' with
      | error e => exact fun h => h
      | ok v'' =>
        rintro ⟨g1, more, g2⟩
        exact ⟨g1, new :: more, by simpa using g2⟩

theorem wInit_nodes_nonempty {config : List (List Int)} (h : ∃ r ∈ config, r ≠ []) : (wInit config).1.nodes.isEmpty = false := by
  cases he : (wInit config).1.nodes.isEmpty with
  | false => rfl
  | true =>
    exfalso
    have hn : (wInit config).1.nodes = [] := List.isEmpty_iff.1 he
    obtain ⟨rels, h1, h2⟩ := C55_relations config
    have : wConfig (wInit config).1 = .ok [] := by
      unfold wConfig Net.edges
      rw [hn]
      simp [wMergeAll, Dict.update, Dict.keys, pure, Except.pure]
    rw [this] at h1
    cases h1
    obtain ⟨r, hr, hne⟩ := h
    have : r ∈ ([] : List (List Int)) := h2.mem_iff.2 (List.mem_filter.2 ⟨hr, by simpa using hne⟩)
    cases this

omit [DecidableEq V] [DecidableEq κ] in
theorem wolfram_safe {cfg : Config Int WVal V I Int κ} {fuel : List (List Int) → Nat} {lhs out : List (List S)} {T : Nat}
    (hc : WolframRun cfg fuel lhs out T) : cfg.Safe := by
  refine Or.inr ?_
  intro rule hrule ctx u o u' ho
  rw [hc.top] at hrule
  cases hrule
  unfold wTopologyRule at ho
  cases h1 : wConfig ctx.net with
  | error e => rw [h1] at ho; cases ho
  | ok rels =>
    rw [h1] at ho
    simp only at ho
    cases h2 : wRewrite (fuel rels) lhs out u rels with
    | error e => rw [h2] at ho; cases ho
    | ok p => rw [h2] at ho; cases ho; rfl

theorem wolfram_run {cfg : Config Int WVal V I Int κ} {fuel : List (List Int) → Nat} {lhs out : List (List S)} {T : Nat}
    (hc : WolframRun cfg fuel lhs out T) (hT : 1 ≤ T) {config : List (List Int)} (hne : ∃ r ∈ config, r ≠ []) (init : Option (Conds Int V))
    {r : Nat} {wd : World Int WVal Int} (hr : wd.heap[r]? = some (wInit config).1) (hu : wd.user = (wInit config).2) {f : Nat} (hf : T ≤ f) :
    match evolve f cfg init r wd with
    | .error e => e = .exception "topology rule must return a network"
    | .ok res => ∃ configs : List (List (List Int)), configs.length = T ∧ configs[0]? = some config ∧
        (∀ (t : Nat) (c c' : List (List Int)), configs[t]? = some c → configs[t + 1]? = some c' → StepTo fuel lhs out c c') ∧
        ∀ (t : Nat), res.net cfg t = (configs[t]?).map (fun c => (wInit c).1) := by
  have hs : cfg.Safe := wolfram_safe hc
  have hp : cfg.PackOk := fun h => by rw [hc.compression] at h; cases h
  have hck : vcheck cfg (initDict cfg init) (wInit config).1 = .ok () := by
    unfold vcheck
    rw [hc.input, hc.rule]
    simp
  have hloop := wolfram_loop hc (effectiveKey cfg (wInit config).1) (T - 1) f [] config
    (vinit cfg (initDict cfg init) (wInit config).1 (wInit config).2) (by omega) (by simp [vinit]; omega) rfl rfl
    ⟨by simp [vinit], by intro t c c' h1 h2; simp at h2, by intro t c h1; simp at h1⟩
  cases hv : vloop cfg (effectiveKey cfg (wInit config).1) f (vinit cfg (initDict cfg init) (wInit config).1 (wInit config).2) with
  | error e =>
    rw [hv] at hloop
    have hev : vevolve f cfg init (wInit config).1 wd.user = .error e := by
      unfold vevolve
      rw [hck, hu]
      exact hv
    rw [(evolve_error_iff hs hp hr e).2 hev]
    exact hloop
  | ok v =>
    rw [hv] at hloop
    have hev : vevolve f cfg init (wInit config).1 wd.user = .ok v := by
      unfold vevolve
      rw [hck, hu]
      exact hv
    obtain ⟨res, ext, e1, e2, e3⟩ := evolve_of_vevolve hs hp hr hev
    rw [e1]
    obtain ⟨h1, more, h2⟩ := hloop
    rw [List.nil_append] at h2
    refine ⟨config :: more, ?_, rfl, h2.2.1, ?_⟩
    · have := congrArg List.length h2.1
      simp only [List.length_map] at this
      omega
    · intro t
      rw [e3.nets t]
      have hnet : (v.hist.map Prod.snd)[t]? = ((config :: more).map (fun c => (wInit c).1))[t]? := by rw [h2.1]
      rw [List.getElem?_map, List.getElem?_map] at hnet
      have hnon : ∀ c, (config :: more)[t]? = some c → (wInit c).1.nodes.isEmpty = false := by
        intro c hct
        cases t with
        | zero => simp at hct; subst hct; exact wInit_nodes_nonempty hne
        | succ t => exact h2.2.2 t c hct
      cases hct : (config :: more)[t]? with
      | none =>
        rw [hct] at hnet
        simp only [Option.map_none, Option.map_eq_none_iff] at hnet
        rw [hnet]; rfl
      | some c =>
        rw [hct] at hnet
        simp only [Option.map_some, Option.map_eq_some_iff] at hnet
        obtain ⟨q, hq, hqc⟩ := hnet
        rw [hq]
        simp only [Option.bind_some, obsNet, hc.net, hc.compression, hqc, hnon c hct, or_true, and_self, if_true, Bool.false_eq_true,
          if_false, Option.map_some]

/-- C57, C58 for runs: the networks of a run are those of a chain of configurations, each a rewriting of the one before; a run
can only fail because a configuration without nodes arises (an empty network is rejected as "no network"). -/
theorem C57_run {cfg : Config Int WVal V I Int κ} {fuel : List (List Int) → Nat} {lhs out : List (List S)} {T : Nat}
    (hc : WolframRun cfg fuel lhs out T) (hT : 1 ≤ T) {config : List (List Int)} (hne : ∃ r ∈ config, r ≠ []) (init : Option (Conds Int V))
    {r : Nat} {wd : World Int WVal Int} (hr : wd.heap[r]? = some (wInit config).1) (hu : wd.user = (wInit config).2) {f : Nat} (hf : T ≤ f) :
    match evolve f cfg init r wd with
    | .error e => e = .exception "topology rule must return a network"
    | .ok res => ∃ configs : List (List (List Int)), configs.length = T ∧ configs[0]? = some config ∧
        (∀ (t : Nat) (c c' : List (List Int)), configs[t]? = some c → configs[t + 1]? = some c' → Rewrites lhs out c c') ∧
        ∀ (t : Nat), res.net cfg t = (configs[t]?).map (fun c => (wInit c).1) := by
  have h := wolfram_run hc hT hne init hr hu hf
  cases he : evolve f cfg init r wd with
  | error e => rw [he] at h; exact h
  | ok res =>
    rw [he] at h
    obtain ⟨configs, h1, h2, h3, h4⟩ := h
    exact ⟨configs, h1, h2, fun t c c' a b => (h3 t c c' a b).1, h4⟩

end

section
variable {S : Type} [DecidableEq S] {V I κ : Type} [DecidableEq V] [DecidableEq κ]

theorem instances_nonempty {out : List (List S)} {b : Dict S Int} {rels : List (List Int)} (h : Instances out b rels) (hout : ∃ o ∈ out, o ≠ []) :
    ∃ r ∈ rels, r ≠ [] := by
  obtain ⟨o, ho, hne⟩ := hout
  have : o.map b.get? ∈ rels.map (fun r => r.map some) := by
    rw [← h]
    exact List.mem_map_of_mem ho
  obtain ⟨r, hr, he⟩ := List.mem_map.1 this
  refine ⟨r, hr, fun h0 => ?_⟩
  rw [h0] at he
  exact hne (List.map_eq_nil_iff.1 he.symm)

/-- If the right-hand side has a relation with a node, a rewriting of a configuration with a node has a node. -/
theorem rewrites_nonempty {lhs out : List (List S)} {c c' : List (List Int)} (h : Rewrites lhs out c c') (hout : ∃ o ∈ out, o ≠ [])
    (hc : ∃ r ∈ c, r ≠ []) : ∃ r ∈ c', r ≠ [] := by
  obtain ⟨rest, apps, fresh, h⟩ := h
  cases apps with
  | nil =>
    obtain ⟨r, hr, hne⟩ := hc
    refine ⟨r, h.after.mem_iff.2 ?_, hne⟩
    have := h.before.mem_iff.1 (List.mem_filter.2 ⟨hr, by simpa using hne⟩)
    simpa using this
  | cons a apps =>
    obtain ⟨r, hr, hne⟩ := instances_nonempty (h.correct a (by simp)).right hout
    exact ⟨r, h.after.mem_iff.2 (by simp [hr]), hne⟩

theorem wolfram_loop_total {cfg : Config Int WVal V I Int κ} {fuel : List (List Int) → Nat} {lhs out : List (List S)} {T : Nat}
    (hc : WolframRun cfg fuel lhs out T) (hout : ∃ o ∈ out, o ≠ []) (ks : KeySpec Int WVal V I κ) (k : Nat) :
    ∀ (f : Nat) (config : List (List Int)) (v : VLoop Int WVal V Int κ), k < f → v.hist.length + k = T → 1 ≤ v.hist.length →
    v.net = (wInit config).1 → v.user = (wInit config).2 → (∃ r ∈ config, r ≠ []) → ∃ v', vloop cfg ks f v = .ok v' := by
  induction k with
  | zero =>
    intro f config v hf hT _ _ _ _
    obtain ⟨f, rfl⟩ : ∃ f', f = f' + 1 := ⟨f - 1, by omega⟩
    unfold vloop callInput
    rw [hc.input]
    simp only [show ((v.hist.length : Int) = (T : Int)) from by omega, if_true]
    exact ⟨_, rfl⟩
  | succ k ih =>
    intro f config v hf hT hpos hn hu hne
    obtain ⟨f, rfl⟩ : ∃ f', f = f' + 1 := ⟨f - 1, by omega⟩
    obtain ⟨new, h1, h2⟩ := wolfram_step hc ks config v hpos hn hu
    have hnew := rewrites_nonempty h1.1 hout hne
    unfold vloop callInput
    rw [hc.input]
    simp only [show ¬ ((v.hist.length : Int) = (T : Int)) from by omega, if_false]
    rcases h2 with ⟨h0, _⟩ | ⟨_, v', h2, h3, h4, h5⟩
    · rw [wInit_nodes_nonempty hnew] at h0
      cases h0
    · rw [h2]
      simp only
      exact ih f new v' (by omega) (by rw [h5]; simp; omega) (by rw [h5]; simp) h3 h4 hnew

/-- C57 for runs: if the right-hand side of the rule has a relation with a node, no run fails. -/
theorem C57_run_total {cfg : Config Int WVal V I Int κ} {fuel : List (List Int) → Nat} {lhs out : List (List S)} {T : Nat}
    (hc : WolframRun cfg fuel lhs out T) (hout : ∃ o ∈ out, o ≠ []) (hT : 1 ≤ T) {config : List (List Int)} (hne : ∃ r ∈ config, r ≠ [])
    (init : Option (Conds Int V)) {r : Nat} {wd : World Int WVal Int} (hr : wd.heap[r]? = some (wInit config).1)
    (hu : wd.user = (wInit config).2) {f : Nat} (hf : T ≤ f) : ∃ res, evolve f cfg init r wd = .ok res := by
  have hrun := C57_run hc hT hne init hr hu hf
  cases he : evolve f cfg init r wd with
  | ok res => exact ⟨res, rfl⟩
  | error e =>
    exfalso
    have hp : cfg.PackOk := fun h => by rw [hc.compression] at h; cases h
    have hs : cfg.Safe := wolfram_safe hc
    have hck : vcheck cfg (initDict cfg init) (wInit config).1 = .ok () := by
      unfold vcheck
      rw [hc.input, hc.rule]
      simp
    obtain ⟨v, hv⟩ := wolfram_loop_total hc hout (effectiveKey cfg (wInit config).1) (T - 1) f config
      (vinit cfg (initDict cfg init) (wInit config).1 (wInit config).2) (by omega) (by simp [vinit]; omega) (by simp [vinit]) rfl rfl hne
    have hev : vevolve f cfg init (wInit config).1 wd.user = .ok v := by
      unfold vevolve
      rw [hck, hu]
      exact hv
    rw [(evolve_error_iff hs hp hr e).1 he] at hev
    cases hev

end

/-! ## Examples -/

namespace ExWolfram

/-- The rule `{{x, y}, {x, z}} → {{x, z}, {x, w}, {y, w}, {z, w}}`. -/
def lhs : List (List String) := [["x", "y"], ["x", "z"]]
def out : List (List String) := [["x", "z"], ["x", "w"], ["y", "w"], ["z", "w"]]

/-- Two matches; the new nodes are 5 and 6. -/
example : wRewrite 9 lhs out 4 [[1, 2], [1, 3], [2, 2], [2, 4], [3, 3, 3]] =
    .ok (6, [[3, 3, 3], [1, 3], [1, 5], [2, 5], [3, 5], [2, 4], [2, 6], [2, 6], [4, 6]]) := by decide +kernel

example : lhs ≠ [] ∧ ∀ r ∈ ([[1, 2], [1, 3], [2, 2], [2, 4], [3, 3, 3]] : List (List Int)), ∀ x ∈ r, x ≤ (4 : Int) := by decide

/-- A failed match binds nothing, a successful one extends the bindings. -/
example : wMatches ["x", "y", "x"] [1, 2, 3] [("z", 7)] = (false, [("z", 7)]) ∧
    wMatches ["x", "y", "x"] [1, 2, 1] [("y", 2)] = (true, [("y", 2), ("x", 1)]) := by decide +kernel

/-- Some matches are missed: after `[1, 2]` is tried in vain as the first relation, the scanning ends, although `[3, 4]` and
`[4, 5]` match. -/
example : wRewrite 9 [["x", "y"], ["y", "z"]] [["x", "z"]] 5 [[1, 2], [3, 4], [4, 5]] = .ok (5, [[3, 4], [4, 5], [1, 2]]) ∧
    wRewrite 9 [["x", "y"], ["y", "z"]] [["x", "z"]] 5 [[3, 4], [4, 5], [1, 2]] = .ok (5, [[1, 2], [3, 5]]) := by decide +kernel

/-- The settings of a run. -/
def cfg (T : Nat) : Config Int WVal Int Int Int Unit :=
  { rule := none, input := .timesteps T, topology := some (wTopologyRule (fun c => c.length + 2) lhs out), perturbation := none, past := [],
    order := .activitiesFirst, copyNetwork := true, compression := false, persistActs := true, persistNet := true,
    memoize := false, key := none, natLabel := fun i => (i : Int), labelIdx := fun x => some x, actAttr := fun x => .num x.toNat,
    labelCodec := ⟨fun _ => .ok (), id⟩, attrCodec := ⟨fun _ => .ok (), id⟩, valCodec := ⟨fun _ => .ok (), id⟩ }

theorem run (T : Nat) : WolframRun (cfg T) (fun c => c.length + 2) lhs out T :=
  ⟨rfl, rfl, rfl, fun _ => ⟨rfl, rfl⟩, fun _ => ⟨rfl, rfl⟩, rfl, rfl, by decide, fun _ => Nat.le_refl _⟩

/-- No run of this rule fails. -/
example (T : Nat) (hT : 1 ≤ T) : ∃ res, evolve T (cfg T) none 0 ⟨[(wInit [[1, 1], [1, 1]]).1], (wInit [[1, 1], [1, 1]]).2⟩ = .ok res :=
  C57_run_total (run T) ⟨["x", "z"], by decide, by decide⟩ hT ⟨[1, 1], by decide, by decide⟩ none rfl rfl (Nat.le_refl T)

end ExWolfram
end Verif
