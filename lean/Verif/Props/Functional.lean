import Verif.Proofs.FunctionalLattice
import Verif.Props.Growth
/-! # C98: functional network automata -/

namespace Verif
open Spec MG
section
variable {L A I σ κ : Type} [DecidableEq L] [DecidableEq κ]

/-- The call of the demo: both rules, activities first, a number of timesteps. -/
structure FunctionalCall (cfg : Config L A Int I σ κ) (T : Nat) : Prop where
  rule : cfg.PureRule (fun ctx => .ok (functionalRule ctx))
  topology : cfg.topology = some (functionalTopology cfg.labelCodec cfg.attrCodec)
  order : cfg.order = .activitiesFirst
  perturbation : cfg.perturbation = none
  memoize : cfg.memoize = false
  copy : cfg.copyNetwork = true
  input : cfg.input = .timesteps T
  persistActs : cfg.persistActs = true
  persistNet : cfg.persistNet = true
  compression : cfg.compression = false

/-- C98.  For every network without parallel edges and every assignment of 0 and 1 to its nodes, `evolve` with the rules of the functional network
automaton returns `T` states: in state `t` exactly the nodes that can be reached from the initially active ones along at most `t` edges
of the initial network are active, and (from state 1 on) exactly the edges between active nodes are missing. -/
theorem C98_run {cfg : Config L A Int I σ κ} {T : Nat} (h : FunctionalCall cfg T) {g0 : MG L A} (hg : g0.Valid) (hrot : g0.rot = none)
    (hne : g0.labels ≠ []) (hone : ∀ i j, (parallel (ofMG g0) i j).length ≤ 1) {init : Option (Conds L Int)}
    (hlen : (initDict cfg init).length = g0.labels.length)
    (h01 : ∀ x ∈ g0.labels, (initDict cfg init).get? x = some 0 ∨ (initDict cfg init).get? x = some 1)
    (hl : ∀ x ∈ g0.labels, cfg.labelCodec.ExactAt x) (he : ∀ e ∈ g0.edges, ∀ kv ∈ e.attr, cfg.attrCodec.ExactAt kv.2)
    (ha : ∀ p ∈ g0.nodes, ∀ kv ∈ p.2, cfg.attrCodec.ExactAt kv.2)
    (hT : 1 ≤ T) {r : Nat} {w : World L A σ} (hr : w.heap[r]? = some (ofMG g0)) {fuel : Nat} (hf : T ≤ fuel) :
    ∃ (res : Evolved L A Int σ), evolve fuel cfg init r w = .ok res ∧ res.states.length = T ∧
      ∀ t, t < T → ∃ d N', res.acts cfg t = some d ∧ res.net cfg t = some N' ∧
        SpreadState (ofMG g0) (fun x => (initDict cfg init).get? x = some 1) t d N' := by
  obtain ⟨res, ds, gs, e1, e2, _, _, e5⟩ := joint_run (g0 := g0) (init := init) h.rule h.perturbation h.memoize h.order h.topology h.copy h.input
    h.persistActs h.persistNet h.compression
    (Inv := fun t d g _ => g.Valid ∧ g.nodes = g0.nodes ∧ g.rot = none ∧
      SpreadState (ofMG g0) (fun x => (initDict cfg init).get? x = some 1) t d (ofMG g)) (by
    rintro t d g u ht ⟨i1, i2, i3, i4⟩
    have hlab : g.labels = g0.labels := by unfold MG.labels; rw [i2]
    obtain ⟨F, hF⟩ : ∃ F : L → Int, ∀ x, (Within (ofMG g0) (fun x => (initDict cfg init).get? x = some 1) (t + 1) x → F x = 1) ∧
        (¬ Within (ofMG g0) (fun x => (initDict cfg init).get? x = some 1) (t + 1) x → F x = 0) :=
      Classical.axiomOfChoice (fun x => within_prop _)
    obtain ⟨f, hfx⟩ : ∃ f : L → Int, ∀ x, (Within (ofMG g0) (fun x => (initDict cfg init).get? x = some 1) t x → f x = 1) ∧
        (¬ Within (ofMG g0) (fun x => (initDict cfg init).get? x = some 1) t x → f x = 0) :=
      Classical.axiomOfChoice (fun x => within_prop _)
    have hd : ∀ x ∈ g.labels, d.get? x = some (f x) := by
      intro x hx
      rw [hlab] at hx
      by_cases c : Within (ofMG g0) (fun x => (initDict cfg init).get? x = some 1) t x
      · rw [(hfx x).1 c]; exact i4.active x (by rw [labels_ofMG]; exact hx) c
      · rw [(hfx x).2 c]; exact i4.inactive x (by rw [labels_ofMG]; exact hx) c
    have hle : ∀ i j, between g.edges i j = [] ∨ between g.edges i j = between g0.edges i j := by
      intro i j
      have q1 := i4.cut i j
      have q2 := i4.kept i j
      rw [parallel_ofMG i1] at q1 q2
      rw [parallel_ofMG hg] at q2
      by_cases c0 : t = 0
      · exact Or.inr (q2 (Or.inl c0))
      · by_cases c1 : Within (ofMG g0) (fun x => (initDict cfg init).get? x = some 1) t i
        · by_cases c2 : Within (ofMG g0) (fun x => (initDict cfg init).get? x = some 1) t j
          · exact Or.inl (q1 (by omega) c1 c2)
          · exact Or.inr (q2 (Or.inr (Or.inr c2)))
        · exact Or.inr (q2 (Or.inr (Or.inl c1)))
    have hgrot : ({ g with rot := none } : MG L A) = g := by rw [← i3]
    have hcopy : (ofMG g).copy cfg.labelCodec cfg.attrCodec = .ok (ofMG { g with rot := none }) := by
      refine copy_ofMG i1 (by rw [hlab]; exact hl) ?_ (by rw [i2]; exact ha)
      intro e k kv hkv
      have hm := mem_between k
      rcases hle e.src e.dst with q | q
      · rw [q] at hm; cases hm
      · rw [q] at hm
        exact he _ (edge_of_between hm) kv hkv
    have hsrc : ∀ x y, y ∈ sources g.edges x → parallel (ofMG g0) y x ≠ [] := by
      intro x y hy
      rw [parallel_ofMG hg]
      have : between g.edges y x ≠ [] := by
        rw [ne_eq, between_eq_nil_iff, Classical.not_not]; exact hy
      rcases hle y x with q | q
      · exact absurd q this
      · rw [← q]; exact this
    have hget : ∀ x ∈ g.labels, Dict.get? (g.labels.map (fun x => (x, F x))) x = some (F x) := by
      intro x hx
      refine Dict.get?_of_mem ?_ (List.mem_map_of_mem hx)
      rw [Dict.keys, List.map_map]
      simpa [Function.comp_def] using i1.nodup
    obtain ⟨g', k1, k2, k3, k4, k5⟩ := functional_cut (acts := g.labels.map (fun x => (x, F x))) (f := F) (ofMG g).edges i1
      (nodup_edges_ofMG i1 (fun i j => by
        have := hone i j
        rw [parallel_ofMG hg] at this
        rcases hle i j with q | q
        · rw [q]; simp
        · rw [q]; exact this))
      (fun e he' => (mem_edges_ofMG i1).1 (List.mem_map_of_mem (f := fun e : L × L × Attr A => (e.1, e.2.1)) he'))
      (fun e he' => by
        have q := (mem_edges_ofMG i1).1 (List.mem_map_of_mem (f := fun e : L × L × Attr A => (e.1, e.2.1)) he')
        rw [ne_eq, between_eq_nil_iff, Classical.not_not] at q
        obtain ⟨q1, q2⟩ := mem_labels_of_mem_sources i1 q
        exact ⟨hget _ q1, hget _ q2⟩)
    have hnn : g'.labels ≠ [] := by unfold MG.labels; rw [k3, i2]; exact hne
    refine ⟨F, ⟨ofMG { g with rot := none }, .fresh (ofMG g')⟩, g', u, i1.nodup, ?_, hcopy, ?_, ?_, k2, k3.trans i2, k4.trans i3, ?_⟩
    · intro past x hx
      refine nodeVal_ofMG i1 i3 hd (t + 1) past hx ?_
      intro ctx _ _ _ _ q5 _ q7 _ _
      show Except.ok (functionalRule ctx) = _
      congr 1
      unfold functionalRule
      rw [q5, q7]
      obtain ⟨v1, v2⟩ := functional_value (g := g) (x := x) (f := f) (fun y _ => hfx y) (by
        intro y hc
        refine ⟨hsrc x y, fun q => ?_⟩
        have q2 := i4.kept y x (Or.inr (Or.inr hc))
        rw [← q2, parallel_ofMG i1, ne_eq, between_eq_nil_iff, Classical.not_not] at q
        exact q) (hsrc x)
      by_cases c : Within (ofMG g0) (fun x => (initDict cfg init).get? x = some 1) (t + 1) x
      · rw [v1 c, (hF x).1 c]
      · rw [v2 c, (hF x).2 c]
    · unfold functionalTopology
      rw [hgrot] at hcopy ⊢
      simp only [hcopy, k1]
    · simp only [TopOut.value, ofMG_nonempty hnn, Bool.false_eq_true, if_false]
    · refine ⟨?_, ?_, ?_, ?_, ?_, ?_, ?_⟩
      · rw [labels_ofMG, labels_ofMG]; unfold MG.labels; rw [k3, i2]
      · rw [List.length_map, labels_ofMG, hlab]
      · intro x hx c
        rw [labels_ofMG, ← hlab] at hx
        rw [hget x hx, (hF x).1 c]
      · intro x hx c
        rw [labels_ofMG, ← hlab] at hx
        rw [hget x hx, (hF x).2 c]
      · intro i j _ c1 c2
        rw [parallel_ofMG k2, k5]
        split
        · rfl
        · rename_i q
          apply Classical.byContradiction
          intro hb
          exact q ⟨(mem_edges_ofMG i1).2 hb, (hF i).1 c1, (hF j).1 c2⟩
      · intro i j c
        have c' : ¬ Within (ofMG g0) (fun x => (initDict cfg init).get? x = some 1) (t + 1) i ∨
            ¬ Within (ofMG g0) (fun x => (initDict cfg init).get? x = some 1) (t + 1) j := by
          rcases c with c | c
          · omega
          · exact c
        rw [parallel_ofMG k2, k5, if_neg, ← parallel_ofMG i1]
        · apply i4.kept
          rcases c' with c | c
          · exact Or.inr (Or.inl (fun q => c (q.mono (by omega))))
          · exact Or.inr (Or.inr (fun q => c (q.mono (by omega))))
        · rintro ⟨_, q1, q2⟩
          rcases c' with c | c
          · rw [(hF i).2 c] at q1; exact absurd q1 (by decide)
          · rw [(hF j).2 c] at q2; exact absurd q2 (by decide)
      · intro x
        rw [attrsOf_ofMG, attrsOf_ofMG, k3, i2]) (by
    rintro t d g u ⟨_, i2, _, i4⟩
    have : g.labels ≠ [] := by unfold MG.labels; rw [i2]; exact hne
    refine ⟨fun hnil => this (by unfold MG.labels; rw [hnil]; rfl), fun hnil => ?_⟩
    have := i4.length
    rw [hnil, labels_ofMG] at this
    exact hne (List.length_eq_zero_iff.1 this.symm)) hT (by rw [size_ofMG]; exact hlen) hr (by
    refine ⟨hg, rfl, hrot, rfl, by rw [labels_ofMG]; exact hlen, ?_, ?_, ?_, ?_, ?_⟩
    · intro x _ c
      exact within_zero (S := fun x => (initDict cfg init).get? x = some 1) c
    · intro x hx c
      rw [labels_ofMG] at hx
      rcases h01 x hx with q | q
      · exact q
      · exact absurd (Within.start (S := fun x => (initDict cfg init).get? x = some 1) q) c
    · intro i j q; omega
    · intro i j _; rfl
    · intro x; rfl) hf
  refine ⟨res, e1, e2, fun t ht => ?_⟩
  obtain ⟨q1, q2, u, _, _, _, q⟩ := e5 t ht
  exact ⟨_, _, q1, q2, q⟩

/-- C98: two parallel edges between nodes that are both active after the first timestep let the run raise `KeyError`. -/
theorem C98_parallel {cfg : Config L A Int I σ κ} {T : Nat} (h : FunctionalCall cfg T) {g0 : MG L A} (hg : g0.Valid) (hrot : g0.rot = none)
    {init : Option (Conds L Int)} (hlen : (initDict cfg init).length = g0.labels.length) {f : L → Int}
    (hd : ∀ x ∈ g0.labels, (initDict cfg init).get? x = some (f x))
    {i j : L} (hij : 2 ≤ (parallel (ofMG g0) i j).length)
    (hact : ∀ x, x = i ∨ x = j → f x = 1 ∨ ((sources g0.edges x).map f).sum > 0)
    (hl : ∀ x ∈ g0.labels, cfg.labelCodec.ExactAt x) (he : ∀ e ∈ g0.edges, ∀ kv ∈ e.attr, cfg.attrCodec.ExactAt kv.2)
    (ha : ∀ p ∈ g0.nodes, ∀ kv ∈ p.2, cfg.attrCodec.ExactAt kv.2)
    (hT : 2 ≤ T) {r : Nat} {w : World L A σ} (hr : w.heap[r]? = some (ofMG g0)) {fuel : Nat} (hf : 1 ≤ fuel) :
    evolve fuel cfg init r w = .error .keyError := by
  have hgrot : ({ g0 with rot := none } : MG L A) = g0 := by rw [← hrot]
  have hcopy := copy_ofMG hg hl he ha
  have hF : ∃ F : L → Int, F = fun x => if ((sources g0.edges x).map f).sum > 0 then 1 else f x := ⟨_, rfl⟩
  obtain ⟨F, hF⟩ := hF
  refine joint_fail (F := F) h.rule h.perturbation h.memoize h.order h.topology h.copy h.input h.compression
    (by rw [size_ofMG]; exact hlen) hg.nodup ?_ hcopy ?_ hT hr hf
  · intro past x hx
    refine nodeVal_ofMG hg hrot hd 1 past hx ?_
    intro ctx _ _ _ _ q5 _ q7 _ _
    show Except.ok (functionalRule ctx) = _
    unfold functionalRule
    rw [q5, q7, hF]
  · have hget : ∀ x ∈ g0.labels, Dict.get? (g0.labels.map (fun x => (x, F x))) x = some (F x) := by
      intro x hx
      refine Dict.get?_of_mem ?_ (List.mem_map_of_mem hx)
      rw [Dict.keys, List.map_map]
      simpa [Function.comp_def] using hg.nodup
    have hone : ∀ x, x = i ∨ x = j → F x = 1 := by
      intro x hx
      rw [hF]
      rcases hact x hx with q | q
      · simp only [q]; split <;> rfl
      · simp only [q, if_true]
    rw [parallel_ofMG hg, ← count_edges_ofMG i j hg] at hij
    have := functional_twice (acts := g0.labels.map (fun x => (x, F x))) (f := F) (hone i (Or.inl rfl)) (hone j (Or.inr rfl)) (ofMG g0).edges hg
      (fun e he' => by
        have q := (mem_edges_ofMG hg).1 (List.mem_map_of_mem (f := fun e : L × L × Attr A => (e.1, e.2.1)) he')
        rw [ne_eq, between_eq_nil_iff, Classical.not_not] at q
        obtain ⟨q1, q2⟩ := mem_labels_of_mem_sources hg q
        exact ⟨hget _ q1, hget _ q2⟩) hij
    unfold functionalTopology
    rw [hgrot] at hcopy ⊢
    simp only [hcopy, this]

end

section
variable {L A : Type} [DecidableEq L] {N N' N'' : Net L A} {S : L → Prop} {t t' : Nat} {d d' : Dict L Int}

/-- C98: active nodes stay active. -/
theorem C98_active (h : SpreadState N S t d N') (h' : SpreadState N S t' d' N'') (ht : t ≤ t') {x : L} (hx : x ∈ N.labels)
    (hd : d.get? x = some 1) : d'.get? x = some 1 := by
  by_cases c : Within N S t x
  · exact h'.active x hx (c.mono ht)
  · rw [h.inactive x hx c] at hd; cases hd

/-- C98: edges only disappear. -/
theorem C98_vanish (h : SpreadState N S t d N') (h' : SpreadState N S t' d' N'') (ht : t ≤ t') (i j : L) :
    parallel N'' i j = parallel N' i j ∨ parallel N'' i j = [] := by
  by_cases c : 1 ≤ t' ∧ Within N S t' i ∧ Within N S t' j
  · exact Or.inr (h'.cut i j c.1 c.2.1 c.2.2)
  · left
    rw [h'.kept i j, h.kept i j]
    · by_cases c0 : t = 0
      · exact Or.inl c0
      · right
        apply Classical.byContradiction
        intro q
        rw [not_or, Classical.not_not, Classical.not_not] at q
        exact c ⟨by omega, q.1.mono ht, q.2.mono ht⟩
    · by_cases c0 : t' = 0
      · exact Or.inl c0
      · right
        apply Classical.byContradiction
        intro q
        rw [not_or, Classical.not_not, Classical.not_not] at q
        exact c ⟨by omega, q.1, q.2⟩

/-- C98: once all nodes have been reached, all are active and no edge is left. -/
theorem C98_dissolved (h : SpreadState N S t d N') (ht : 1 ≤ t) (hall : ∀ x ∈ N.labels, Within N S t x) :
    (∀ x ∈ N'.labels, d.get? x = some 1) ∧ ∀ i ∈ N'.labels, ∀ j ∈ N'.labels, parallel N' i j = [] := by
  rw [h.labels]
  exact ⟨fun x hx => h.active x hx (hall x hx), fun i hi j hj => h.cut i j ht (hall i hi) (hall j hj)⟩

end

section
variable {A I σ κ : Type} [DecidableEq κ]

/-- C98: the call of the demo on any lattice that is not periodic and has at least two nodes, with node 0 active.  In state `t` a node is active
if and only if the sum of its coordinates is at most `t`; an edge is missing (from state 1 on) if and only if this holds for both its ends. -/
theorem C98_lattice {cfg : Config Int A Int I σ κ} {T : Nat} (h : FunctionalCall cfg T) {enum : List (Nat × Nat) → List (Nat × Nat)}
    {dim : List Nat} {sl : Bool} (h2 : 2 ≤ gridCells dim) (hen : ∀ G, gridGraph false dim = .ok G → SameEdges G.edges (enum G.edges))
    {N : Net Int A} (hN : lattice enum dim false sl 0 = .ok N) {init : Option (Conds Int Int)}
    (hlen : (initDict cfg init).length = N.labels.length)
    (hinit : ∀ x ∈ N.labels, (initDict cfg init).get? x = some (if x = 0 then 1 else 0))
    (hl : ∀ x, cfg.labelCodec.ExactAt x) (ha : ∀ x, cfg.attrCodec.ExactAt x)
    (hT : 1 ≤ T) {r : Nat} {w : World Int A σ} (hr : w.heap[r]? = some N) {fuel : Nat} (hf : T ≤ fuel) :
    ∃ (res : Evolved Int A Int σ), evolve fuel cfg init r w = .ok res ∧ res.states.length = T ∧
      ∀ t, t < T → ∃ d N', res.acts cfg t = some d ∧ res.net cfg t = some N' ∧ N'.labels = N.labels ∧
        (∀ x : Nat, x < gridCells dim → d.get? (x : Int) = some (if coordSum dim x ≤ t then 1 else 0)) ∧
        (∀ x y : Nat, GridLink false dim x y → parallel N' x y = if t = 0 ∨ t < coordSum dim x ∨ t < coordSum dim y then [[]] else []) ∧
        (∀ x y : Nat, ¬ GridLink false dim x y → parallel N' x y = []) := by
  obtain ⟨g, a1, a2, a3, a4, a5, a6, a7⟩ := C78_lattice (A := A) enum dim false sl 0 (fun h => by cases h) hen
  obtain rfl : N = ofMG g := Except.ok.inj (hN.symm.trans a1)
  simp only [Int.zero_add] at a4 a5 a6 a7
  rw [labels_ofMG] at hinit hlen
  have hself : ∀ x, ¬ GridLink false dim x x := fun x hx => by cases (gridLink_self.1 hx).2.1
  have hpar : ∀ x y : Nat, parallel (ofMG g) x y ≠ [] ↔ GridLink false dim x y := by
    intro x y
    rw [parallel_ofMG a2]
    constructor
    · intro hb
      apply Classical.byContradiction
      intro hn
      exact hb (a6 x y hn)
    · intro hb
      rw [a5 x y (fun e => hself x (by rw [e] at hb ⊢; exact hb)) hb]
      simp
  have hparv : ∀ x y : Nat, GridLink false dim x y → parallel (ofMG g) x y = [[]] := by
    intro x y hb
    rw [parallel_ofMG a2, a5 x y (fun e => hself x (by rw [e] at hb ⊢; exact hb)) hb]
  have hnat : ∀ a b : Int, parallel (ofMG g) a b ≠ [] → ∃ x y : Nat, a = x ∧ b = y := by
    intro a b hb
    rw [parallel_ofMG a2, ne_eq, between_eq_nil_iff, Classical.not_not, mem_sources] at hb
    obtain ⟨e, he, rfl, rfl⟩ := hb
    obtain ⟨x, y, k1, k2, _⟩ := a7 e he
    exact ⟨x, y, k1, k2⟩
  have hmem : ∀ x : Nat, (x : Int) ∈ g.labels ↔ x < gridCells dim := by
    intro x
    rw [a4]
    constructor
    · rintro ⟨x', y, k1, k2, _⟩
      have : x = x' := by omega
      rw [this]
      exact k2.1
    · intro hx
      obtain ⟨y, hy⟩ := gridLink_exists h2 hx
      exact ⟨x, y, rfl, hy, Or.inl (fun e => hself x (by rw [← e] at hy; exact hy))⟩
  have hS : ∀ x : Nat, (x : Int) ∈ g.labels → ((initDict cfg init).get? (x : Int) = some 1 ↔ x = 0) := by
    intro x hx
    rw [hinit _ hx]
    by_cases c : x = 0
    · simp [c]
    · simp [c]
  obtain ⟨res, e1, e2, e3⟩ := C98_run h a2 a3 (by
    intro hnil
    have := (hmem 0).2 (by omega)
    rw [hnil] at this
    cases this) (by
    intro i j
    by_cases hb : parallel (ofMG g) i j = []
    · rw [hb]; simp
    · obtain ⟨x, y, rfl, rfl⟩ := hnat i j hb
      rw [hparv x y ((hpar x y).1 hb)]
      simp) hlen (by
    intro x hx
    rw [hinit x hx]
    by_cases c : x = 0
    · right; simp [c]
    · left; simp [c]) (fun x _ => hl x) (fun _ _ _ _ => ha _) (fun _ _ _ _ => ha _) hT hr hf
  refine ⟨res, e1, e2, fun t ht => ?_⟩
  obtain ⟨d, N', k1, k2, k3⟩ := e3 t ht
  -- nodes outside the lattice cannot be reached
  have hW : ∀ x : Nat, x < gridCells dim →
      (Within (ofMG g) (fun x => (initDict cfg init).get? x = some 1) t x ↔ coordSum dim x ≤ t) := by
    intro x hx
    rw [← within_lattice (N := ofMG g) (S := fun a => a = 0) (dim := dim) (fun x => by simp) hpar
      (fun a b hb => by obtain ⟨x, y, rfl, _⟩ := hnat a b hb; omega) t x hx]
    have gen : ∀ S S' : Int → Prop, (∀ a ∈ g.labels, S a → S' a) → ∀ (t : Nat) (a : Int), a ∈ g.labels → Within (ofMG g) S t a → Within (ofMG g) S' t a := by
      intro S S' hSS t a ha' hw
      induction hw with
      | start q => exact Within.start (hSS _ ha' q)
      | step _ q ih =>
        have q' := q
        rw [parallel_ofMG a2, ne_eq, between_eq_nil_iff, Classical.not_not] at q'
        exact Within.step (ih (mem_labels_of_mem_sources a2 q').1) q
    constructor
    · refine gen _ _ ?_ t _ ((hmem x).2 hx)
      intro a ha' q
      obtain ⟨x', _, q1, _⟩ := (a4 a).1 ha'
      rw [q1] at ha' q
      have := (hS x' ha').1 q
      omega
    · refine gen _ _ ?_ t _ ((hmem x).2 hx)
      intro a ha' q
      subst q
      exact (hS 0 ha').2 rfl
  refine ⟨d, N', k1, k2, k3.labels, ?_, ?_, ?_⟩
  · intro x hx
    have hx' : (x : Int) ∈ (ofMG g).labels := by rw [labels_ofMG]; exact (hmem x).2 hx
    by_cases c : coordSum dim x ≤ t
    · rw [if_pos c]; exact k3.active _ hx' ((hW x hx).2 c)
    · rw [if_neg c]; exact k3.inactive _ hx' (fun q => c ((hW x hx).1 q))
  · intro x y hb
    by_cases c : t = 0 ∨ t < coordSum dim x ∨ t < coordSum dim y
    · rw [if_pos c, ← hparv x y hb]
      apply k3.kept
      rcases c with c | c | c
      · exact Or.inl c
      · exact Or.inr (Or.inl (fun q => by have := (hW x hb.1).1 q; omega))
      · exact Or.inr (Or.inr (fun q => by have := (hW y hb.2.1).1 q; omega))
    · rw [if_neg c]
      exact k3.cut x y (by omega) ((hW x hb.1).2 (by omega)) ((hW y hb.2.1).2 (by omega))
  · intro x y hb
    · by_cases c : 1 ≤ t ∧ Within (ofMG g) (fun x => (initDict cfg init).get? x = some 1) t x ∧
          Within (ofMG g) (fun x => (initDict cfg init).get? x = some 1) t y
      · exact k3.cut x y c.1 c.2.1 c.2.2
      · rw [k3.kept x y]
        · apply Classical.byContradiction
          intro q
          exact hb ((hpar x y).1 q)
        · by_cases c0 : t = 0
          · exact Or.inl c0
          · right
            apply Classical.byContradiction
            intro q
            rw [not_or, Classical.not_not, Classical.not_not] at q
            exact c ⟨by omega, q.1, q.2⟩

end

/-! ## Examples -/

/-- The configuration of the demo. -/
def Ex.functional (T : Nat) : Config Int Int Int Int (List Int) Unit :=
  { rule := some (pureRule (fun ctx => .ok (functionalRule ctx))), input := .timesteps T,
    topology := some (functionalTopology Ex.intCodec Ex.intCodec), perturbation := none, past := [],
    order := .activitiesFirst, copyNetwork := true, compression := false, persistActs := true, persistNet := true,
    memoize := false, key := none, natLabel := fun n => (n : Int), labelIdx := some, actAttr := id,
    labelCodec := Ex.intCodec, attrCodec := Ex.intCodec, valCodec := Ex.intCodec }

theorem Ex.functional_call (T : Nat) : FunctionalCall (Ex.functional T) T := ⟨rfl, rfl, rfl, rfl, rfl, rfl, rfl, rfl, rfl, rfl⟩

/-- The lattice of the demo with sizes 2 and 3. -/
def Ex.smallLattice : Net Int Int :=
  match lattice id [1, 2, 3] false false 0 with
  | .ok N => N
  | .error _ => Net.empty

/-- The initial conditions of the demo. -/
def Ex.firstActive : Conds Int Int := .dict [(0, 1), (1, 0), (2, 0), (3, 0), (4, 0), (5, 0)]

/-- The hypotheses of `C98_lattice` are met, and the far corner is active in state 3. -/
example : (∃ res, evolve 5 (Ex.functional 5) (some Ex.firstActive) 0 ⟨[Ex.smallLattice], []⟩ = .ok res ∧ res.states.length = 5 ∧
      ∀ t, t < 5 → ∃ d N', res.acts (Ex.functional 5) t = some d ∧ res.net (Ex.functional 5) t = some N' ∧ N'.labels = Ex.smallLattice.labels ∧
        (∀ x : Nat, x < gridCells [1, 2, 3] → d.get? (x : Int) = some (if coordSum [1, 2, 3] x ≤ t then 1 else 0)) ∧
        (∀ x y : Nat, GridLink false [1, 2, 3] x y → parallel N' x y =
          if t = 0 ∨ t < coordSum [1, 2, 3] x ∨ t < coordSum [1, 2, 3] y then [[]] else []) ∧
        (∀ x y : Nat, ¬ GridLink false [1, 2, 3] x y → parallel N' x y = [])) ∧
    (List.range 6).map (coordSum [1, 2, 3]) = [0, 1, 1, 2, 2, 3] :=
  ⟨C98_lattice (cfg := Ex.functional 5) (Ex.functional_call 5) (enum := id) (sl := false) (by decide) (by
    intro G hG
    have : G = ⟨6, _⟩ := (Except.ok.inj hG).symm
    subst this
    apply sameEdges_id
    unfold SameLink
    decide +kernel) (by decide +kernel) (by decide +kernel) (by decide +kernel) (fun _ => ⟨rfl, rfl⟩) (fun _ => ⟨rfl, rfl⟩) (by decide) rfl
    (by decide), by decide +kernel⟩

/-- A directed path with an edge back and an unreachable node. -/
def Ex.spread : MG Int Int := ⟨[(3, []), (1, []), (4, []), (2, [])], [⟨3, 1, [("w", 7)]⟩, ⟨1, 4, []⟩, ⟨4, 3, []⟩, ⟨2, 2, []⟩, ⟨2, 1, []⟩], none⟩

/-- The hypotheses of `C98_run` are met. -/
example : ∃ res, evolve 4 (Ex.functional 4) (some (.dict [(1, 0), (2, 0), (3, 1), (4, 0)])) 0 ⟨[ofMG Ex.spread], []⟩ = .ok res ∧ res.states.length = 4 ∧
    ∀ t, t < 4 → ∃ d N', res.acts (Ex.functional 4) t = some d ∧ res.net (Ex.functional 4) t = some N' ∧
      SpreadState (ofMG Ex.spread) (fun x => (initDict (Ex.functional 4) (some (.dict [(1, 0), (2, 0), (3, 1), (4, 0)]))).get? x = some 1) t d N' :=
  C98_run (Ex.functional_call 4) ⟨by decide, by decide⟩ rfl (by decide) (by
    intro i j
    rw [parallel_ofMG ⟨by decide, by decide⟩]
    simp only [between, Ex.spread, List.length_map]
    simp only [List.filter_cons, List.filter_nil]
    grind) (by decide) (by decide) (fun _ _ => ⟨rfl, rfl⟩) (fun _ _ _ _ => ⟨rfl, rfl⟩) (fun _ _ _ _ => ⟨rfl, rfl⟩) (by decide) rfl (by decide)

/-- Two parallel edges: the second call of `remove_edge` raises. -/
example : evolve 3 (Ex.functional 3) (some (.dict [(0, 1), (1, 0)])) 0 ⟨[ofMG (⟨[(0, []), (1, [])], [⟨0, 1, []⟩, ⟨0, 1, []⟩], none⟩ : MG Int Int)], []⟩ =
    .error .keyError :=
  C98_parallel (Ex.functional_call 3) ⟨by decide, by decide⟩ rfl (f := fun x => if x = 0 then 1 else 0) (by decide) (by decide) (i := 0) (j := 1)
    (by decide) (by rintro x (rfl | rfl) <;> decide) (fun _ _ => ⟨rfl, rfl⟩) (fun _ _ _ _ => ⟨rfl, rfl⟩) (fun _ _ _ _ => ⟨rfl, rfl⟩) (by decide)
    rfl (by decide)

end Verif
