import Verif.Proofs.NetworkEq
import Verif.Props.Examples
import Verif.Spec.Evolution
/-! # Property C154: what `==` on networks compares

Networks are reached by arbitrary histories of public calls from the empty network, in which exceptions are caught by
the caller.  `Keywords` says that the names of the keyword arguments of a call are different, as Python demands. -/

namespace Verif
open MG Spec
section
variable {L A : Type} [DecidableEq L] [DecidableEq A]

/-- C154.  Two networks are equal exactly when their multigraphs have the same labels, the same attributes, the same
parallel edges by age, and for every node the same targets of the edges that leave it, by age. -/
theorem C154_equal_iff (ops ops' : List (Net.Op L A)) (h : ∀ op ∈ ops, Keywords op) (h' : ∀ op ∈ ops', Keywords op) :
    Net.pyEq (Net.run Net.empty ops) (Net.run Net.empty ops') = true ↔
      SameGraph (MG.run MG.empty ops) (MG.run MG.empty ops') := by
  obtain ⟨e, v⟩ := run_empty ops
  obtain ⟨e', v'⟩ := run_empty ops'
  rw [e, e']
  exact pyEq_ofMG v v' (attrsOk_run attrsOk_empty h) (attrsOk_run attrsOk_empty h')

/-- C154.  `==` is reflexive, symmetric and transitive. -/
theorem C154_equivalence (ops ops' ops'' : List (Net.Op L A)) (h : ∀ op ∈ ops, Keywords op)
    (h' : ∀ op ∈ ops', Keywords op) (h'' : ∀ op ∈ ops'', Keywords op) :
    Net.pyEq (Net.run Net.empty ops) (Net.run Net.empty ops) = true ∧
    (Net.pyEq (Net.run Net.empty ops) (Net.run Net.empty ops') = true →
      Net.pyEq (Net.run Net.empty ops') (Net.run Net.empty ops) = true) ∧
    (Net.pyEq (Net.run Net.empty ops) (Net.run Net.empty ops') = true →
      Net.pyEq (Net.run Net.empty ops') (Net.run Net.empty ops'') = true →
      Net.pyEq (Net.run Net.empty ops) (Net.run Net.empty ops'') = true) := by
  rw [C154_equal_iff _ _ h h, C154_equal_iff _ _ h h', C154_equal_iff _ _ h' h, C154_equal_iff _ _ h' h'',
    C154_equal_iff _ _ h h'']
  exact ⟨SameGraph.rfl' _, fun s => s.symm, fun s s' => s.trans s'⟩

/-- C154.  Equal networks answer the queries alike: they have equally many nodes, the same nodes, the same degrees (or
the same `KeyError`), the same answers of `has_edge`, and as many edges between any two nodes. -/
theorem C154_queries (ops ops' : List (Net.Op L A)) (h : ∀ op ∈ ops, Keywords op) (h' : ∀ op ∈ ops', Keywords op)
    (heq : Net.pyEq (Net.run Net.empty ops) (Net.run Net.empty ops') = true) :
    let m := Net.run Net.empty ops
    let n := Net.run Net.empty ops'
    m.size = n.size ∧ (∀ x, x ∈ m.labels ↔ x ∈ n.labels) ∧ (∀ x, m.inDegree x = n.inDegree x) ∧
    (∀ x, m.outDegree x = n.outDegree x) ∧ (∀ x, m.degree x = n.degree x) ∧ (∀ i j, m.hasEdge i j = n.hasEdge i j) ∧
    ∀ i j, (m.edge i j).map List.length = (n.edge i j).map List.length := by
  have s := (C154_equal_iff _ _ h h').1 heq
  obtain ⟨e, v⟩ := run_empty ops
  obtain ⟨e', v'⟩ := run_empty ops'
  simp only [e, e']
  have hl : ∀ x, x ∈ (ofMG (MG.run MG.empty ops)).labels ↔ x ∈ (ofMG (MG.run MG.empty ops')).labels := by
    intro x; rw [labels_ofMG, labels_ofMG]; exact s.labels x
  have err : ∀ {g : MG L A} {x : L}, x ∉ g.labels → (ofMG g).inDegree x = .error .keyError ∧
      (ofMG g).outDegree x = .error .keyError ∧ (ofMG g).degree x = .error .keyError := by
    intro g x hx
    simp [Net.inDegree, Net.outDegree, Net.degree, get_ofMG_of_not_mem hx, Except.map]
  refine ⟨?_, hl, fun x => ?_, fun x => ?_, fun x => ?_, fun i j => ?_, fun i j => ?_⟩
  · rw [size_ofMG, size_ofMG]
    exact Nat.le_antisymm (v.nodup.length_le_of_subset (fun x hx => (s.labels x).1 hx))
      (v'.nodup.length_le_of_subset (fun x hx => (s.labels x).2 hx))
  · by_cases hx : x ∈ (MG.run MG.empty ops).labels
    · rw [inDegree_ofMG hx, inDegree_ofMG ((s.labels x).1 hx)]
      rw [s.inCount x]
    · rw [(err hx).1, (err (mt (s.labels x).2 hx)).1]
  · by_cases hx : x ∈ (MG.run MG.empty ops).labels
    · rw [outDegree_ofMG hx, outDegree_ofMG ((s.labels x).1 hx)]
      rw [s.outCount x]
    · rw [(err hx).2.1, (err (mt (s.labels x).2 hx)).2.1]
  · by_cases hx : x ∈ (MG.run MG.empty ops).labels
    · rw [degree_ofMG hx, degree_ofMG ((s.labels x).1 hx)]
      rw [s.inCount x, s.outCount x]
    · rw [(err hx).2.2, (err (mt (s.labels x).2 hx)).2.2]
  · rw [hasEdge_ofMG v, hasEdge_ofMG v']
    have := s.sources i j
    simp only [this]
  · rw [edge_ofMG v, edge_ofMG v']
    by_cases hb : between (MG.run MG.empty ops).edges i j = []
    · rw [if_pos hb, if_pos ((s.parallel i j).nil_iff.1 hb)]
    · rw [if_neg hb, if_neg (mt (s.parallel i j).nil_iff.2 hb)]
      simp [Except.map, (s.parallel i j).1]

/-- C154.  After the same further calls equal networks are still equal, and the last of these calls has the same outcome
on both, so the same exception if any. -/
theorem C154_calls (ops ops' more : List (Net.Op L A)) (op : Net.Op L A) (h : ∀ op ∈ ops, Keywords op)
    (h' : ∀ op ∈ ops', Keywords op) (hm : ∀ op ∈ more, Keywords op) (hop : Keywords op)
    (heq : Net.pyEq (Net.run Net.empty ops) (Net.run Net.empty ops') = true) :
    Net.pyEq (Net.run Net.empty (ops ++ more)) (Net.run Net.empty (ops' ++ more)) = true ∧
    (Net.exec op (Net.run Net.empty (ops ++ more))).1 = (Net.exec op (Net.run Net.empty (ops' ++ more))).1 := by
  have s := (C154_equal_iff _ _ h h').1 heq
  have s2 : SameGraph (MG.run MG.empty (ops ++ more)) (MG.run MG.empty (ops' ++ more)) := by
    have := sameGraph_run s hm
    unfold MG.run at this ⊢
    rwa [List.foldl_append, List.foldl_append]
  have k : ∀ {l : List (Net.Op L A)}, (∀ op ∈ l, Keywords op) → ∀ op ∈ l ++ more, Keywords op := by
    intro l hl o ho
    rcases List.mem_append.1 ho with ho | ho
    · exact hl o ho
    · exact hm o ho
  refine ⟨(C154_equal_iff _ _ (k h) (k h')).2 s2, ?_⟩
  obtain ⟨e, v⟩ := run_empty (ops ++ more)
  obtain ⟨e', v'⟩ := run_empty (ops' ++ more)
  rw [e, e', (exec_ofMG v op).1, (exec_ofMG v' op).1]
  exact (sameGraph_exec s2 hop).1

omit [DecidableEq A] in
theorem run_snoc2 (ops : List (Net.Op L A)) (o o' : Net.Op L A) :
    MG.run MG.empty (ops ++ [o, o']) = (MG.exec (MG.exec (MG.run MG.empty ops) o).2 o').2 := by
  simp [MG.run]

/-- C154.  Two edges that leave different nodes may be added in either order: the networks are equal.  This also holds
if the edges enter the same node, whose neighbours then come in another order. -/
theorem C154_order_of_edges (ops : List (Net.Op L A)) (h : ∀ op ∈ ops, Keywords op) (i j k l : L) (a b : Attr A)
    (ha : a.keys.Nodup) (hb : b.keys.Nodup) (hik : i ≠ k) :
    Net.pyEq (Net.run Net.empty (ops ++ [.addEdge i j a, .addEdge k l b]))
      (Net.run Net.empty (ops ++ [.addEdge k l b, .addEdge i j a])) = true := by
  have kw : ∀ o o' : Net.Op L A, Keywords o → Keywords o' → ∀ op ∈ ops ++ [o, o'], Keywords op := by
    intro o o' h1 h2 op hop
    simp only [List.mem_append, List.mem_cons, List.not_mem_nil, or_false] at hop
    rcases hop with hop | rfl | rfl
    · exact h op hop
    · exact h1
    · exact h2
  rw [C154_equal_iff _ _ (kw (.addEdge i j a) (.addEdge k l b) ha hb) (kw (.addEdge k l b) (.addEdge i j a) hb ha), run_snoc2, run_snoc2]
  generalize MG.run MG.empty ops = g
  simp only [MG.exec]
  refine ⟨fun x => ?_, fun x c d hc hd => ?_, fun p q => ?_, fun p => ?_⟩
  · simp only [mem_labels_addEdge]
    constructor
    · rintro (h | h | h | h | h) <;> simp [h]
    · rintro (h | h | h | h | h) <;> simp [h]
  · rw [get?_addEdge2] at hc hd
    have e : (x = i ∨ x = j ∨ x = k ∨ x = l) ↔ (x = k ∨ x = l ∨ x = i ∨ x = j) := by
      constructor
      · rintro (h | h | h | h) <;> simp [h]
      · rintro (h | h | h | h) <;> simp [h]
    simp only [e] at hc
    rw [hc] at hd
    cases hd
    exact SameAttrs.rfl' _
  · simp only [MG.addEdge, between_append, between_singleton, List.append_assoc]
    by_cases h1 : i = p
    · have : ¬ k = p := fun e => hik (h1.trans e.symm)
      simp only [this, false_and, if_false, List.append_nil, List.nil_append]; exact SameParallel.rfl' _
    · simp only [h1, false_and, if_false, List.append_nil, List.nil_append]; exact SameParallel.rfl' _
  · simp only [MG.addEdge, targets_append]
    rw [List.append_assoc, List.append_assoc]
    by_cases h1 : i = p
    · have : ¬ k = p := fun e => hik (h1.trans e.symm)
      simp [this]
    · simp [h1]

/-- C154.  Two edges that leave the same node for different nodes: the two orders of adding them never give equal
networks, although the nodes and edges are the same. -/
theorem C154_order_of_targets (ops : List (Net.Op L A)) (h : ∀ op ∈ ops, Keywords op) (i j l : L) (a b : Attr A)
    (ha : a.keys.Nodup) (hb : b.keys.Nodup) (hjl : j ≠ l) :
    Net.pyEq (Net.run Net.empty (ops ++ [.addEdge i j a, .addEdge i l b]))
      (Net.run Net.empty (ops ++ [.addEdge i l b, .addEdge i j a])) = false := by
  have kw : ∀ o o' : Net.Op L A, Keywords o → Keywords o' → ∀ op ∈ ops ++ [o, o'], Keywords op := by
    intro o o' h1 h2 op hop
    simp only [List.mem_append, List.mem_cons, List.not_mem_nil, or_false] at hop
    rcases hop with hop | rfl | rfl
    · exact h op hop
    · exact h1
    · exact h2
  rw [Bool.eq_false_iff, ne_eq, C154_equal_iff _ _ (kw (.addEdge i j a) (.addEdge i l b) ha hb) (kw (.addEdge i l b) (.addEdge i j a) hb ha), run_snoc2, run_snoc2]
  intro s
  have := s.targets i
  simp only [MG.exec, MG.addEdge, targets_append, if_true] at this
  rw [List.append_assoc, List.append_assoc] at this
  have := List.append_cancel_left this
  simp at this
  exact hjl this.1

/-- C154.  Adding an edge between two nodes without one and removing it again gives the network back, and so does
adding a new node and removing it. -/
theorem C154_undo (ops : List (Net.Op L A)) :
    (∀ i j a, i ∈ (Net.run Net.empty ops).labels → j ∈ (Net.run Net.empty ops).labels →
      (Net.run Net.empty ops).hasEdge i j = false →
      Net.run Net.empty (ops ++ [.addEdge i j a, .removeEdge i j]) = Net.run Net.empty ops) ∧
    ∀ x a, x ∉ (Net.run Net.empty ops).labels →
      Net.run Net.empty (ops ++ [.addNode x a, .removeNode x]) = Net.run Net.empty ops := by
  obtain ⟨e, v⟩ := run_empty ops
  have e2 : ∀ o o' : Net.Op L A, Net.run Net.empty (ops ++ [o, o']) =
      ofMG (MG.exec (MG.exec (MG.run MG.empty ops) o).2 o').2 := by
    intro o o'; rw [(run_empty (ops ++ [o, o'])).1, run_snoc2]
  simp only [e2]
  rw [e]
  generalize MG.run MG.empty ops = g at v
  simp only [labels_ofMG]
  constructor
  · intro i j a hi hj hn
    rw [hasEdge_ofMG v, decide_eq_false_iff_not] at hn
    have hb := between_eq_nil_iff.2 hn
    congr 1
    have h1 : ensure g i = g := by unfold ensure; rw [if_pos hi]
    have h2 : ensure g j = g := by unfold ensure; rw [if_pos hj]
    have hne : ¬ between (g.edges ++ [(⟨i, j, a⟩ : Edge L A)]) i j = [] := by
      simp [between_append, between_singleton]
    have h0 : MG.addEdge g i j a = { g with edges := g.edges ++ [(⟨i, j, a⟩ : Edge L A)] } := by
      unfold MG.addEdge; rw [h1, h2]
    show (MG.exec (MG.addEdge g i j a) (.removeEdge i j)).2 = g
    rw [h0]
    simp only [MG.exec]
    rw [if_neg hne]
    simp only [MG.removeEdge]
    have : (g.edges ++ [(⟨i, j, a⟩ : Edge L A)]).filter (fun e => !(decide (e.src = i) && decide (e.dst = j))) = g.edges := by
      rw [List.filter_append]
      have h3 : g.edges.filter (fun e => !(decide (e.src = i) && decide (e.dst = j))) = g.edges := by
        rw [List.filter_eq_self]
        intro e he
        unfold MG.between at hb
        rw [List.map_eq_nil_iff, List.filter_eq_nil_iff] at hb
        have h4 := hb e he
        cases hd : (decide (e.src = i) && decide (e.dst = j)) with
        | true => exact absurd hd h4
        | false => rfl
      rw [h3]; simp
    rw [this]
  · intro x a hx
    congr 1
    show (MG.exec (MG.addNode g x a) (.removeNode x)).2 = g
    have h1 : (MG.addNode g x a).nodes = g.nodes ++ [(x, Dict.update [] a)] := by
      simp only [MG.addNode, ensure, if_neg hx, List.map_append, List.map_cons, List.map_nil, if_true]
      congr 1
      conv => rhs; rw [← List.map_id g.nodes]
      apply List.map_congr_left
      intro p hp
      have : ¬ p.1 = x := fun e => hx (by rw [← e]; exact List.mem_map.2 ⟨p, hp, rfl⟩)
      rw [if_neg this]; rfl
    have h2 : (MG.addNode g x a).edges = g.edges := by
      show (ensure g x).edges = _; exact ensure_edges g x
    have h3 : (MG.addNode g x a).rot = g.rot := by
      show (ensure g x).rot = _; exact ensure_rot g x
    have h4 : x ∈ (MG.addNode g x a).labels := by unfold MG.labels; rw [h1]; simp
    simp only [MG.exec]
    rw [if_pos h4]
    unfold MG.removeNode
    rw [h1, h2]
    have h5 : (g.nodes ++ [(x, Dict.update [] a)]).filter (fun p => decide (p.1 ≠ x)) = g.nodes := by
      rw [List.filter_append]
      have : g.nodes.filter (fun p => decide (p.1 ≠ x)) = g.nodes := by
        rw [List.filter_eq_self]
        intro p hp
        have : ¬ p.1 = x := fun e => hx (by rw [← e]; exact List.mem_map.2 ⟨p, hp, rfl⟩)
        simpa using this
      rw [this]; simp
    have h6 : g.edges.filter (fun e => decide (e.src ≠ x) && decide (e.dst ≠ x)) = g.edges := by
      rw [List.filter_eq_self]
      intro e he
      have := v.closed e he
      have a1 : ¬ e.src = x := fun h => hx (h ▸ this.1)
      have a2 : ¬ e.dst = x := fun h => hx (h ▸ this.2)
      simp [a1, a2]
    rw [h5, h6]
    simp only [h3]

/-- C154.  A rotation system makes no difference to `==`. -/
theorem C154_rotation_ignored (ops : List (Net.Op L A)) (h : ∀ op ∈ ops, Keywords op) (rs : Dict L (List L)) :
    Net.pyEq (Net.run Net.empty ops) (Net.run Net.empty (ops ++ [.setRotation rs])) = true := by
  rw [C154_equal_iff _ _ h (by
    intro op hop
    simp only [List.mem_append, List.mem_cons, List.not_mem_nil, or_false] at hop
    rcases hop with hop | rfl
    · exact h op hop
    · trivial)]
  have : MG.run MG.empty (ops ++ [.setRotation rs]) = (MG.exec (MG.run MG.empty ops) (.setRotation rs)).2 := by
    simp [MG.run]
  rw [this]
  simp only [MG.exec]
  split
  · exact ⟨fun _ => Iff.rfl, (SameGraph.rfl' (MG.run MG.empty ops)).attrs, fun _ _ => SameParallel.rfl' _, fun _ => rfl⟩
  · exact SameGraph.rfl' _

end

/-! ## Equal networks evolve differently -/

/-- Node 0 hears from node 1 and then from node 2. -/
def hears12 : List (Net.Op Nat Int) := [.addEdge 1 0 [], .addEdge 2 0 []]
/-- Node 0 hears from node 2 and then from node 1. -/
def hears21 : List (Net.Op Nat Int) := [.addEdge 2 0 [], .addEdge 1 0 []]
/-- Nodes 0, 1 and 2 with the neighbours in the other order by a rotation system. -/
def hearsRotated : List (Net.Op Nat Int) := hears12 ++ [.setRotation [(0, [2, 1]), (1, []), (2, [])]]

/-- The rule returns the activity of the first neighbour. -/
def firstHeard : Config Nat Int Int Int (List Int) Unit :=
  { Ex.base with
    rule := some (pureRule (fun ctx => .ok (ctx.neighbourActs.headD 0)))
    input := .timesteps 2 }

/-- The activity of node 0 in the second state. -/
def heardBy0 (ops : List (Net.Op Nat Int)) : Option Int :=
  match Ex.runActs 2 firstHeard [5, 6, 7] (Net.run Net.empty ops) with
  | .ok [_, some d] => d.get? 0
  | _ => none

/-- C154.  It is false that equal networks evolve alike: the same rule and initial conditions on two equal networks give
different activities if only the order differs in which edges into a node were added, or only a rotation system. -/
theorem C154_equal_but_different_runs :
    Net.pyEq (Net.run Net.empty hears12) (Net.run Net.empty hears21) = true ∧
    Net.pyEq (Net.run Net.empty hears12) (Net.run Net.empty hearsRotated) = true ∧
    heardBy0 hears12 = some 6 ∧ heardBy0 hears21 = some 7 ∧ heardBy0 hearsRotated = some 7 := by decide +kernel

/-- The hypotheses of the theorems are met by networks with attributes and parallel edges that are equal although built
in different orders, and by networks that are not equal. -/
example : (∀ op ∈ ([.addEdge 1 0 [("w", 1), ("v", 2)], .addEdge 2 0 [], .addNode 0 [("c", 3)]] : List (Net.Op Nat Int)),
      Keywords op) ∧
    Net.pyEq (Net.run (Net.empty : Net Nat Int) [.addEdge 1 0 [("w", 1), ("v", 2)], .addEdge 2 0 [], .addNode 0 [("c", 3)]])
      (Net.run Net.empty [.addNode 0 [("c", 3)], .addEdge 2 0 [], .addEdge 1 0 [("v", 2), ("w", 1)]]) = true ∧
    Net.pyEq (Net.run (Net.empty : Net Nat Int) [.addEdge 1 0 [("w", 1)]]) (Net.run Net.empty [.addEdge 1 0 [("w", 2)]]) = false ∧
    Net.pyEq (Net.run (Net.empty : Net Nat Int) [.addEdge 1 0 []]) (Net.run Net.empty [.addEdge 1 0 [], .addNode 5 []]) = false ∧
    Net.pyEq (Net.run (Net.empty : Net Nat Int) [.addEdge 0 1 [], .addEdge 0 2 []])
      (Net.run Net.empty [.addEdge 0 2 [], .addEdge 0 1 []]) = false := by
  refine ⟨?_, by decide +kernel⟩
  intro op hop
  simp only [List.mem_cons, List.not_mem_nil, or_false] at hop
  rcases hop with rfl | rfl | rfl
  · show List.Nodup _; decide
  · show List.Nodup _; decide
  · show List.Nodup _; decide

/-- `C154_undo` has instances: nodes 0 and 1 without an edge from 1 to 0, and no node 7. -/
example : (0 : Nat) ∈ (Net.run Net.empty [Net.Op.addEdge 0 1 ([] : Attr Int)]).labels ∧ 1 ∈ (Net.run Net.empty [Net.Op.addEdge 0 1 ([] : Attr Int)]).labels ∧
    (Net.run Net.empty [Net.Op.addEdge 0 1 ([] : Attr Int)]).hasEdge 1 0 = false ∧ 7 ∉ (Net.run Net.empty [Net.Op.addEdge 0 1 ([] : Attr Int)]).labels := by decide

end Verif
