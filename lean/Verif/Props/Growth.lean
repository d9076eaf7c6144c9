import Verif.Proofs.Growth
import Verif.Proofs.Matrix
import Verif.Model.Topology
import Verif.Props.Examples
/-! # C94, C95: random attachment and randomly growing networks -/

namespace Verif
open Spec MG
section
variable {A V I σ κ : Type} [DecidableEq V] [DecidableEq κ]

/-- A call of `evolve` with a topology rule, without activity rule, for `T` timesteps; the other arguments concerning networks
have their default values. -/
structure TopologyCall {L : Type} [DecidableEq L] (cfg : Config L A V I σ κ)
    (R : TopCtx L A V → σ → Except Err (TopOut L A × σ)) (T : Nat) : Prop where
  rule : cfg.rule = none
  topology : cfg.topology = some R
  copy : cfg.copyNetwork = true
  input : cfg.input = .timesteps T
  persist : cfg.persistNet = true
  compression : cfg.compression = false

/-! ## C94: random attachment -/

/-- C94.  From `n ≥ 2` unconnected nodes, for all draws of pairs, `evolve` returns `T` states; state `t` has the nodes `0 .. n-1` and
one edge in each direction for each of the links made by the draws. -/
theorem C94_run {cfg : Config Nat A V I σ κ} {draw2 : List Nat → σ → Except Err ((Nat × Nat) × σ)} {T : Nat}
    (h : TopologyCall cfg (attachRule draw2) T) (hd : DrawsTwo draw2) {n : Nat} (hn : 2 ≤ n)
    (hcl : ∀ x, x < n → cfg.labelCodec.ExactAt x) (hT : 1 ≤ T) {init : Option (Conds Nat V)} {r : Nat} {w : World Nat A σ}
    (hr : w.heap[r]? = some (disconnectedN A n)) {fuel : Nat} (hf : T ≤ fuel) :
    ∃ res, evolve fuel cfg init r w = .ok res ∧ res.states.length = T ∧ ∀ t, t < T → ∃ ls u N,
      attachLinks draw2 n w.user t = .ok (ls, u) ∧ res.net cfg t = some N ∧ Linked N n (fun _ _ => []) ls ∧
      N.edges.length = 2 * ls.length := by
  have hr' : w.heap[r]? = some (ofMG (linkMG ([] : List (Edge Nat A)) n [])) := by rw [hr, ← ofSize_link]; rfl
  have hok : ∀ t ls u, attachLinks draw2 n w.user t = .ok (ls, u) → AttachOk n t ls := by
    intro t ls u h1
    obtain ⟨ls', u', h2, h3⟩ := attach_ok hd hn w.user t
    rw [h1] at h2
    cases h2
    exact h3
  have hlk : ∀ t ls u, attachLinks draw2 n w.user t = .ok (ls, u) → LinkOk ([] : List (Edge Nat A)) n ls :=
    fun t ls u h1 => ⟨by simp, (hok t ls u h1).range⟩
  obtain ⟨res, e1, e2, e3⟩ := link_run (base := ([] : List (Edge Nat A))) (m := fun _ => n)
    (links := attachLinks draw2 n w.user) h.rule h.topology h.copy h.input h.persist h.compression (fun _ => by omega) hlk
    (fun _ x _ hx => hcl x hx) (by simp) (by
      intro t acts ls u h1
      obtain ⟨a, b, u2, d1, d2, d3, d4, d5⟩ := attach_next hd hn h1
      refine ⟨_, u2, d5, ?_⟩
      have hok1 := hlk t ls u h1
      unfold attachRule
      simp only [labels_ofMG, linkMG_labels, d1, linkMG_hasEdge hok1 rfl]
      by_cases hc : (a, b) ∈ ls ∨ (b, a) ∈ ls
      · have hc' : (b, a) ∈ ls ∨ (a, b) ∈ ls := hc.symm
        simp only [hc, hc', decide_true, if_true]
        rfl
      · have hc' : ¬ ((b, a) ∈ ls ∨ (a, b) ∈ ls) := fun k => hc k.symm
        simp only [hc, hc', decide_false, and_self, if_true, if_false, mutateGiven]
        rw [linkMG_addLink hok1 d2 d3]) hT rfl hr' hf (init := init)
  refine ⟨res, e1, e2, ?_⟩
  intro t ht
  obtain ⟨ls, u, h1, h2⟩ := e3 t ht
  refine ⟨ls, u, _, h1, h2, linkMG_linked (hlk t ls u h1) (hok t ls u h1).ne, ?_⟩
  rw [linkMG_edges (hlk t ls u h1)]
  simp

/-- C94: the links made by the draws lie between different nodes, no two are between the same nodes, there are at most `t` of them
and at most `n(n-1)/2`, and none is ever lost. -/
theorem C94_links {draw2 : List Nat → σ → Except Err ((Nat × Nat) × σ)} (hd : DrawsTwo draw2) {n : Nat} (hn : 2 ≤ n) {u : σ}
    {t : Nat} {ls : List (Nat × Nat)} {u1 : σ} (h : attachLinks draw2 n u t = .ok (ls, u1)) :
    (∀ p ∈ ls, p.1 < n ∧ p.2 < n ∧ p.1 ≠ p.2) ∧ ls.Pairwise (fun p q => ¬ SameLink p q) ∧ ls.length ≤ t ∧
      2 * ls.length + n ≤ n * n ∧
      ∃ a b u2, draw2 (List.range n) u1 = .ok ((a, b), u2) ∧
        attachLinks draw2 n u (t + 1) = .ok (if (a, b) ∈ ls ∨ (b, a) ∈ ls then ls else ls ++ [(a, b)], u2) := by
  obtain ⟨ls', u', h2, h3⟩ := attach_ok hd hn u t
  rw [h] at h2
  cases h2
  obtain ⟨a, b, u2, d1, _, _, _, d5⟩ := attach_next hd hn h
  exact ⟨fun p hp => ⟨(h3.range p hp).1, (h3.range p hp).2, h3.ne p hp⟩, h3.once, h3.count, links_count h3.range h3.ne h3.once,
    a, b, u2, d1, d5⟩

theorem filter_once {ls : List (Nat × Nat)} (ho : ls.Pairwise (fun p q => ¬ SameLink p q)) (i j : Nat) :
    (ls.filter (fun p => decide (p = (i, j) ∨ p = (j, i)))).length ≤ 1 := by
  have hp := ho.filter (fun p => decide (p = (i, j) ∨ p = (j, i)))
  cases hl : ls.filter (fun p => decide (p = (i, j) ∨ p = (j, i))) with
  | nil => simp
  | cons a l =>
    cases l with
    | nil => simp
    | cons b l =>
      rw [hl] at hp
      have h1 : ∀ c ∈ a :: b :: l, c = (i, j) ∨ c = (j, i) := fun c hc => by
        rw [← hl, List.mem_filter] at hc; exact of_decide_eq_true hc.2
      have h2 := h1 a (by simp)
      have h3 := h1 b (by simp)
      have h4 := (List.pairwise_cons.1 hp).1 b (by simp)
      exfalso
      apply h4
      rcases h2 with rfl | rfl <;> rcases h3 with rfl | rfl
      · exact Or.inl rfl
      · exact Or.inr rfl
      · exact Or.inr rfl
      · exact Or.inl rfl

/-- C94: such a network is a simple undirected graph: no loops, no parallel edges, and an edge from `i` to `j` exactly if there is
one from `j` to `i`. -/
theorem C94_simple {N : Net Nat A} {n : Nat} {ls : List (Nat × Nat)} (h : Linked N n (fun _ _ => []) ls) (hne : ∀ p ∈ ls, p.1 ≠ p.2)
    (ho : ls.Pairwise (fun p q => ¬ SameLink p q)) (i j : Nat) :
    parallel N i i = [] ∧ (parallel N i j).length ≤ 1 ∧ parallel N i j = parallel N j i ∧
      (parallel N i j ≠ [] ↔ (i, j) ∈ ls ∨ (j, i) ∈ ls) := by
  refine ⟨?_, ?_, ?_, ?_⟩
  · rw [h.edges]
    simp only [List.nil_append, List.map_eq_nil_iff, List.filter_eq_nil_iff, or_self, decide_eq_true_eq]
    rintro p hp rfl
    exact hne _ hp rfl
  · rw [h.edges, List.nil_append, List.length_map]
    exact filter_once ho i j
  · rw [h.edges, h.edges]
    congr 2
    apply List.filter_congr
    intro p _
    exact decide_eq_decide.2 Or.comm
  · rw [h.edges]
    simp only [List.nil_append, ne_eq, List.map_eq_nil_iff, List.filter_eq_nil_iff, decide_eq_true_eq, not_or]
    constructor
    · intro hx
      refine Classical.byContradiction fun hc => hx ?_
      intro p hp
      rw [not_or] at hc
      exact ⟨fun e => hc.1 (e ▸ hp), fun e => hc.2 (e ▸ hp)⟩
    · rintro (hx | hx) hc
      · exact (hc _ hx).1 rfl
      · exact (hc _ hx).2 rfl

/-- C94: with fewer than two nodes there is no pair to draw, and a run of two or more timesteps raises `ValueError`. -/
theorem C94_few {cfg : Config Nat A V I σ κ} {draw2 : List Nat → σ → Except Err ((Nat × Nat) × σ)} {T : Nat}
    (h : TopologyCall cfg (attachRule draw2) T) (hd : DrawsTwo draw2) {n : Nat} (hn : n < 2)
    (hcl : ∀ x, x < n → cfg.labelCodec.ExactAt x) (hT : 2 ≤ T) {init : Option (Conds Nat V)} {r : Nat} {w : World Nat A σ}
    (hr : w.heap[r]? = some (disconnectedN A n)) {fuel : Nat} (hf : 1 ≤ fuel) :
    evolve fuel cfg init r w = .error .valueError := by
  have hr' : w.heap[r]? = some (ofMG (linkMG ([] : List (Edge Nat A)) n [])) := by rw [hr, ← ofSize_link]; rfl
  refine topology_fail h.rule h.topology h.copy h.input h.compression (linkMG_copy ⟨by simp, by simp⟩ hcl (by simp)) ?_ hT hr' hf
  intro acts
  unfold attachRule
  simp only [labels_ofMG, linkMG_labels, hd.few _ _ (show (List.range n).length < 2 by simpa using hn)]

/-! ## C95: randomly growing networks -/

/-- C95, first model.  From any network with the nodes `0 .. n-1`, `n ≥ 1`, without node attributes and with arbitrary edges `base`, for
all draws, `evolve` returns `T` states; state `t` has the nodes `0 .. n+t-1`, the edges `base`, and one edge in each direction for each of the
links made by the draws. -/
theorem C95_run1 {cfg : Config Nat A V I σ κ} {draw1 : Nat → σ → Except Err (Nat × σ)} {T : Nat}
    (h : TopologyCall cfg (growRule1 draw1) T) (hd : DrawsOne draw1) {n : Nat} (hn : 1 ≤ n) {base : List (Edge Nat A)}
    (hb : ∀ e ∈ base, e.src < n ∧ e.dst < n) (hca : ∀ e ∈ base, ∀ kv ∈ e.attr, cfg.attrCodec.ExactAt kv.2)
    (hcl : ∀ x, x < n + T → cfg.labelCodec.ExactAt x) (hT : 1 ≤ T) {init : Option (Conds Nat V)} {r : Nat} {w : World Nat A σ}
    (hr : w.heap[r]? = some (ofMG ⟨(List.range n).map (fun x => (x, [])), base, none⟩)) {fuel : Nat} (hf : T ≤ fuel) :
    ∃ res, evolve fuel cfg init r w = .ok res ∧ res.states.length = T ∧ ∀ t, t < T → ∃ ls u N,
      growLinks1 draw1 n w.user t = .ok (ls, u) ∧ res.net cfg t = some N ∧ Linked N (n + t) (between base) ls ∧
      N.edges.length = base.length + 2 * t := by
  have hr' : w.heap[r]? = some (ofMG (linkMG base n [])) := by rw [hr]; simp [linkMG]
  have hok : ∀ t ls u, growLinks1 draw1 n w.user t = .ok (ls, u) → Grow1Ok n t ls := by
    intro t ls u h1
    obtain ⟨ls', u', h2, h3⟩ := grow1_ok hd hn w.user t
    rw [h1] at h2
    cases h2
    exact h3
  have hlk : ∀ t ls u, growLinks1 draw1 n w.user t = .ok (ls, u) → LinkOk base (n + t) ls := by
    intro t ls u h1
    refine ⟨fun e he => by have := hb e he; omega, fun p hp => ?_⟩
    have := (hok t ls u h1).mem hp
    omega
  obtain ⟨res, e1, e2, e3⟩ := link_run (base := base) (m := fun t => n + t)
    (links := growLinks1 draw1 n w.user) h.rule h.topology h.copy h.input h.persist h.compression (fun _ => by omega) hlk
    (fun t x ht hx => hcl x (by omega)) hca (by
      intro t acts ls u h1
      obtain ⟨c, u2, d1, d2, d3⟩ := grow1_next hd hn h1
      refine ⟨_, u2, d3, ?_⟩
      have hok1 := hlk t ls u h1
      have hok2 : LinkOk base (n + t + 1) ls := ⟨fun e he => by have := hok1.1 e he; omega, fun p hp => by have := hok1.2 p hp; omega⟩
      unfold growRule1
      simp only [linkMG_size, linkMG_addNode hok1, d1, mutateGiven]
      rw [linkMG_addLink hok2 (a := c) (b := n + t) (by omega) (by omega)]
      rfl) hT rfl hr' hf (init := init)
  refine ⟨res, e1, e2, ?_⟩
  intro t ht
  obtain ⟨ls, u, h1, h2⟩ := e3 t ht
  refine ⟨ls, u, _, h1, h2, linkMG_linked (hlk t ls u h1) (fun p hp => by have := (hok t ls u h1).mem hp; omega), ?_⟩
  rw [linkMG_edges (hlk t ls u h1), (hok t ls u h1).count]

/-- C95, first model: the links are as many as the timesteps; every node added has exactly one link to an older node; no two links are between
the same nodes; every node is connected to one of the first `n` nodes.  For `n = 1` the links are those of a tree. -/
theorem C95_tree {draw1 : Nat → σ → Except Err (Nat × σ)} (hd : DrawsOne draw1) {n : Nat} (hn : 1 ≤ n) {u : σ} {t : Nat}
    {ls : List (Nat × Nat)} {u1 : σ} (h : growLinks1 draw1 n u t = .ok (ls, u1)) :
    ls.length = t ∧ (∀ p ∈ ls, p.1 < n + t ∧ p.2 < n + t ∧ p.1 ≠ p.2) ∧ ls.Pairwise (fun p q => ¬ SameLink p q) ∧
      (∀ x, n ≤ x → x < n + t → ∃ c, c < x ∧ ∀ d, d < x → ((d, x) ∈ ls ∨ (x, d) ∈ ls ↔ d = c)) ∧
      ∀ x, x < n + t → ∃ y, y < n ∧ Reaches ls y x := by
  obtain ⟨ls', u', h2, h3⟩ := grow1_ok hd hn u t
  rw [h] at h2
  cases h2
  refine ⟨h3.count, ?_, h3.once, ?_, grow1_reaches hd hn u t ls u1 h⟩
  · intro p hp
    have := h3.mem hp
    omega
  · intro x hx1 hx2
    obtain ⟨c, h4, h5⟩ := h3.link (x - n) (by omega)
    rw [show n + (x - n) = x by omega] at h4 h5
    refine ⟨c, h4, ?_⟩
    intro d hdx
    constructor
    · rintro (hm | hm)
      · obtain ⟨k, hk, e⟩ := List.mem_iff_getElem.1 hm
        have hk' := hk
        rw [h3.count] at hk'
        obtain ⟨c', _, h7⟩ := h3.link k hk'
        rw [List.getElem?_eq_getElem hk, e] at h7
        simp only [Option.some.injEq, Prod.mk.injEq] at h7
        have hkx : k = x - n := by omega
        subst hkx
        rw [List.getElem?_eq_getElem hk, e] at h5
        simpa using h5
      · have := h3.mem hm
        simp only at this
        omega
    · rintro rfl
      exact Or.inl (List.mem_of_getElem? h5)

/-- C95, second model.  From `n ≥ 1` unconnected nodes, for all coins and draws, `evolve` returns `T` states; state `t` has the nodes
`0 .. n+t-1` and one edge in each direction for each of the links made by the coins and draws. -/
theorem C95_run2 {cfg : Config Nat A V I σ κ} {coin : σ → Bool × σ} {draw2 : List Nat → σ → Except Err ((Nat × Nat) × σ)} {T : Nat}
    (h : TopologyCall cfg (growRule2 coin draw2) T) (hd : DrawsTwo draw2) {n : Nat} (hn : 1 ≤ n)
    (hcl : ∀ x, x < n + T → cfg.labelCodec.ExactAt x) (hT : 1 ≤ T) {init : Option (Conds Nat V)} {r : Nat} {w : World Nat A σ}
    (hr : w.heap[r]? = some (disconnectedN A n)) {fuel : Nat} (hf : T ≤ fuel) :
    ∃ res, evolve fuel cfg init r w = .ok res ∧ res.states.length = T ∧ ∀ t, t < T → ∃ ls u N,
      growLinks2 coin draw2 n w.user t = .ok (ls, u) ∧ res.net cfg t = some N ∧ Linked N (n + t) (fun _ _ => []) ls ∧
      N.edges.length = 2 * ls.length := by
  have hr' : w.heap[r]? = some (ofMG (linkMG ([] : List (Edge Nat A)) n [])) := by rw [hr, ← ofSize_link]; rfl
  have hok : ∀ t ls u, growLinks2 coin draw2 n w.user t = .ok (ls, u) → Grow2Ok n t ls := by
    intro t ls u h1
    obtain ⟨ls', u', h2, h3, _⟩ := grow2_ok (coin := coin) hd hn w.user t
    rw [h1] at h2
    cases h2
    exact h3
  have hlk : ∀ t ls u, growLinks2 coin draw2 n w.user t = .ok (ls, u) → LinkOk ([] : List (Edge Nat A)) (n + t) ls :=
    fun t ls u h1 => ⟨by simp, (hok t ls u h1).range⟩
  obtain ⟨res, e1, e2, e3⟩ := link_run (base := ([] : List (Edge Nat A))) (m := fun t => n + t)
    (links := growLinks2 coin draw2 n w.user) h.rule h.topology h.copy h.input h.persist h.compression (fun _ => by omega) hlk
    (fun t x ht hx => hcl x (by omega)) (by simp) (by
      intro t acts ls u h1
      have hok1 := hlk t ls u h1
      have hok2 : LinkOk ([] : List (Edge Nat A)) (n + t + 1) ls := ⟨by simp, fun p hp => by have := hok1.2 p hp; omega⟩
      unfold growRule2
      simp only [linkMG_size, linkMG_addNode hok1, labels_ofMG, linkMG_labels]
      rcases grow2_next (coin := coin) hd hn h1 with ⟨hc, d1⟩ | ⟨hc, a, b, u2, d1, d2, d3, d4, d5⟩
      · refine ⟨_, _, d1, ?_⟩
        rw [show coin u = (false, (coin u).2) from Prod.ext hc rfl]
        rfl
      · refine ⟨_, _, d5, ?_⟩
        rw [show coin u = (true, (coin u).2) from Prod.ext hc rfl]
        simp only [d1, mutateGiven]
        rw [linkMG_addLink hok2 d2 d3]
        rfl) hT rfl hr' hf (init := init)
  refine ⟨res, e1, e2, ?_⟩
  intro t ht
  obtain ⟨ls, u, h1, h2⟩ := e3 t ht
  refine ⟨ls, u, _, h1, h2, linkMG_linked (hlk t ls u h1) (hok t ls u h1).ne, ?_⟩
  rw [linkMG_edges (hlk t ls u h1)]
  simp

/-- C95, second model: the links lie between different nodes; there are at most `t` of them, exactly `t` if the coin always says so (`delta = 1`), and
none if it never does. -/
theorem C95_links2 {coin : σ → Bool × σ} {draw2 : List Nat → σ → Except Err ((Nat × Nat) × σ)} (hd : DrawsTwo draw2) {n : Nat} (hn : 1 ≤ n)
    {u : σ} {t : Nat} {ls : List (Nat × Nat)} {u1 : σ} (h : growLinks2 coin draw2 n u t = .ok (ls, u1)) :
    (∀ p ∈ ls, p.1 < n + t ∧ p.2 < n + t ∧ p.1 ≠ p.2) ∧ ls.length ≤ t ∧ ((∀ v, (coin v).1 = true) → ls.length = t) ∧
      ((∀ v, (coin v).1 = false) → ls = []) := by
  obtain ⟨ls', u', h2, h3, h4, h5⟩ := grow2_ok (coin := coin) hd hn u t
  rw [h] at h2
  cases h2
  exact ⟨fun p hp => ⟨(h3.range p hp).1, (h3.range p hp).2, h3.ne p hp⟩, h3.count, h4, h5⟩

/-- C95: a network of links is undirected and, apart from its first edges, without loops. -/
theorem C95_undirected {N : Net Nat A} {n : Nat} {ls : List (Nat × Nat)} (h : Linked N n (fun _ _ => []) ls) (hne : ∀ p ∈ ls, p.1 ≠ p.2)
    (i j : Nat) : parallel N i i = [] ∧ parallel N i j = parallel N j i := by
  refine ⟨?_, ?_⟩
  · rw [h.edges]
    simp only [List.nil_append, List.map_eq_nil_iff, List.filter_eq_nil_iff, or_self, decide_eq_true_eq]
    rintro p hp rfl
    exact hne _ hp rfl
  · rw [h.edges, h.edges]
    congr 2
    apply List.filter_congr
    intro p _
    exact decide_eq_decide.2 Or.comm

end

/-- C95: the first model as in the demo: the network of the matrix `[[1]]` is a single node with a loop of weight 1, and state `t` has the nodes
`0 .. t` and `2t + 1` edges: the loop, and both directions of the `t` links. -/
theorem C95_demo {V I σ κ : Type} [DecidableEq V] [DecidableEq κ] {cfg : Config Nat Int V I σ κ} {draw1 : Nat → σ → Except Err (Nat × σ)} {T : Nat}
    (h : TopologyCall cfg (growRule1 draw1) T) (hd : DrawsOne draw1) (hca : cfg.attrCodec.ExactAt 1)
    (hcl : ∀ x, x < 1 + T → cfg.labelCodec.ExactAt x) (hT : 1 ≤ T) {init : Option (Conds Nat V)} {r : Nat} {w : World Nat Int σ}
    (hr : w.heap[r]? = some (fromAdjacencyMatrix [[1]])) {fuel : Nat} (hf : T ≤ fuel) :
    ∃ res, evolve fuel cfg init r w = .ok res ∧ res.states.length = T ∧ ∀ t, t < T → ∃ ls u N,
      growLinks1 draw1 1 w.user t = .ok (ls, u) ∧ res.net cfg t = some N ∧
      Linked N (t + 1) (fun i j => if i = 0 ∧ j = 0 then [[("weight", 1)]] else []) ls ∧ N.edges.length = 2 * t + 1 ∧
      ∀ x, x ≤ t → Reaches ls 0 x := by
  have hstart : fromAdjacencyMatrix [[(1 : Int)]] = ofMG ⟨(List.range 1).map (fun x => (x, [])), [⟨0, 0, [("weight", 1)]⟩], none⟩ := by
    decide +kernel
  obtain ⟨res, e1, e2, e3⟩ := C95_run1 h hd (Nat.le_refl 1) (base := [⟨0, 0, [("weight", 1)]⟩]) (by simp) (by simpa using hca) hcl hT
    (by rw [hr, hstart]) hf (init := init)
  refine ⟨res, e1, e2, ?_⟩
  intro t ht
  obtain ⟨ls, u, N, h1, h2, h3, h4⟩ := e3 t ht
  refine ⟨ls, u, N, h1, h2, ⟨by rw [h3.labels, Nat.add_comm], ?_⟩, by rw [h4]; simp; omega, ?_⟩
  · intro i j
    rw [h3.edges, between_singleton]
    simp only [eq_comm (a := (0 : Nat))]
  · intro x hx
    obtain ⟨y, hy, hr⟩ := (C95_tree hd (Nat.le_refl 1) h1).2.2.2.2 x (by omega)
    rwa [show y = 0 by omega] at hr

/-! ## Examples -/

/-- Draws the first element and another one, which depends on the number of draws before. -/
def Ex.draw2 (l : List Nat) (u : List Int) : Except Err ((Nat × Nat) × List Int) :=
  match l with
  | a :: b :: l => .ok ((a, ((b :: l)[u.length % (b :: l).length]?).getD b), 0 :: u)
  | _ => .error .valueError

/-- Draws a number that depends on the number of draws before. -/
def Ex.draw1 (k : Nat) (u : List Int) : Except Err (Nat × List Int) :=
  if k = 0 then .error .valueError else .ok (u.length / 2 % k, 0 :: u)

theorem Ex.draws2 : DrawsTwo Ex.draw2 := by
  refine ⟨?_, ?_⟩
  · rintro (_ | ⟨a, _ | ⟨b, l⟩⟩) u hnd hl
    · simp at hl
    · simp at hl
    · have hlt : u.length % (b :: l).length < (b :: l).length := Nat.mod_lt _ (by simp)
      refine ⟨a, (b :: l)[u.length % (b :: l).length], 0 :: u, ?_, by simp, List.mem_cons_of_mem _ (List.getElem_mem hlt), ?_⟩
      · simp only [Ex.draw2, List.getElem?_eq_getElem hlt, Option.getD_some]
      · intro e
        exact (List.nodup_cons.1 hnd).1 (e ▸ List.getElem_mem hlt)
  · rintro (_ | ⟨a, _ | ⟨b, l⟩⟩) u hl
    · rfl
    · rfl
    · simp only [List.length_cons] at hl
      omega

theorem Ex.draws1 : DrawsOne Ex.draw1 := by
  refine ⟨?_, fun u => rfl⟩
  intro k u hk
  refine ⟨u.length / 2 % k, 0 :: u, ?_, Nat.mod_lt _ hk⟩
  unfold Ex.draw1
  rw [if_neg (by omega)]

/-- A call with the topology rule `R`. -/
def Ex.topCall (R : TopCtx Nat Int Int → List Int → Except Err (TopOut Nat Int × List Int)) (T : Nat) :
    Config Nat Int Int Int (List Int) Unit := { Ex.base with topology := some R, input := .timesteps T }

theorem Ex.topCall_ok (R : TopCtx Nat Int Int → List Int → Except Err (TopOut Nat Int × List Int)) (T : Nat) :
    TopologyCall (Ex.topCall R T) R T := ⟨rfl, rfl, rfl, rfl, rfl, rfl⟩

/-- The hypotheses of C94 are met, and in four timesteps the five nodes get these links. -/
example : (∃ res, evolve 4 (Ex.topCall (attachRule Ex.draw2) 4) none 0 ⟨[disconnectedN Int 5], []⟩ = .ok res ∧ res.states.length = 4 ∧
      ∀ t, t < 4 → ∃ ls u N, attachLinks Ex.draw2 5 [] t = .ok (ls, u) ∧ res.net (Ex.topCall (attachRule Ex.draw2) 4) t = some N ∧
        Linked N 5 (fun _ _ => []) ls ∧ N.edges.length = 2 * ls.length) ∧
    attachLinks Ex.draw2 5 [] 4 = .ok ([(0, 1), (0, 2), (0, 3), (0, 4)], [0, 0, 0, 0]) ∧
    (attachLinks Ex.draw2 5 [] 6 = .ok ([(0, 1), (0, 2), (0, 3), (0, 4)], [0, 0, 0, 0, 0, 0])) :=
  ⟨C94_run (Ex.topCall_ok _ 4) Ex.draws2 (by decide) (fun _ _ => ⟨rfl, rfl⟩) (by decide) rfl (by decide), by decide, by decide⟩

/-- With one node the run raises. -/
example : evolve 4 (Ex.topCall (attachRule Ex.draw2) 4) none 0 ⟨[disconnectedN Int 1], []⟩ = .error .valueError :=
  C94_few (Ex.topCall_ok _ 4) Ex.draws2 (by decide) (fun _ _ => ⟨rfl, rfl⟩) (by decide) rfl (by decide)

/-- The hypotheses of C95 are met, and in five timesteps the first model makes these links. -/
example : (∃ res, evolve 6 (Ex.topCall (growRule1 Ex.draw1) 6) none 0 ⟨[fromAdjacencyMatrix [[1]]], []⟩ = .ok res ∧ res.states.length = 6 ∧
      ∀ t, t < 6 → ∃ ls u N, growLinks1 Ex.draw1 1 [] t = .ok (ls, u) ∧ res.net (Ex.topCall (growRule1 Ex.draw1) 6) t = some N ∧
        Linked N (t + 1) (fun i j => if i = 0 ∧ j = 0 then [[("weight", 1)]] else []) ls ∧ N.edges.length = 2 * t + 1 ∧
        ∀ x, x ≤ t → Reaches ls 0 x) ∧
    growLinks1 Ex.draw1 1 [] 5 = .ok ([(0, 1), (0, 2), (1, 3), (1, 4), (2, 5)], [0, 0, 0, 0, 0]) :=
  ⟨C95_demo (Ex.topCall_ok _ 6) Ex.draws1 ⟨rfl, rfl⟩ (fun _ _ => ⟨rfl, rfl⟩) (by decide) rfl (by decide), by decide⟩

/-- The second model, with a coin that says yes unless the number of calls of the generator before is 1 or 2 modulo 3. -/
example : (∃ res, evolve 4 (Ex.topCall (growRule2 (fun u => (u.length % 3 = 0, 1 :: u)) Ex.draw2) 4) none 0 ⟨[disconnectedN Int 1], []⟩ =
      .ok res ∧ res.states.length = 4 ∧ ∀ t, t < 4 → ∃ ls u N, growLinks2 (fun u => (u.length % 3 = 0, 1 :: u)) Ex.draw2 1 [] t = .ok (ls, u) ∧
        res.net (Ex.topCall (growRule2 (fun u => (u.length % 3 = 0, 1 :: u)) Ex.draw2) 4) t = some N ∧
        Linked N (1 + t) (fun _ _ => []) ls ∧ N.edges.length = 2 * ls.length) ∧
    growLinks2 (fun u => (u.length % 3 = 0, 1 :: u)) Ex.draw2 1 [] 5 = .ok ([(0, 1), (0, 2), (0, 3)], [0, 1, 1, 0, 1, 1, 0, 1]) :=
  ⟨C95_run2 (Ex.topCall_ok _ 4) Ex.draws2 (by decide) (fun _ _ => ⟨rfl, rfl⟩) (by decide) rfl (by decide), by decide⟩

end Verif
