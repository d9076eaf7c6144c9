import Verif.Proofs.NetworkQueries
/-! # Properties C01-C07, C11: the `Network` class

All theorems quantify over every finite history `ops` of public calls, in which exceptions are caught by the caller.
`Net.run Net.empty ops` is the resulting object. -/

namespace Verif
open MG

variable {L A : Type} [DecidableEq L]

/-! ## C01 -/

/-- C01.  For every node, `in_degree`, `out_degree` and `degree` count the triples yielded by `edges`. -/
theorem C01_degrees_count_edges (ops : List (Net.Op L A)) (x : L) (hx : x ∈ (Net.run Net.empty ops).labels) :
    let n := Net.run Net.empty ops
    n.inDegree x = .ok ((n.edges.filter (fun t => decide (t.2.1 = x))).length : Int) ∧
    n.outDegree x = .ok ((n.edges.filter (fun t => decide (t.1 = x))).length : Int) ∧
    n.degree x = .ok ((n.edges.filter (fun t => decide (t.1 = x))).length +
                      (n.edges.filter (fun t => decide (t.2.1 = x))).length : Int) := by
  obtain ⟨h, hv⟩ := run_empty ops
  rw [h, labels_ofMG] at hx
  simp only [h]
  have e1 := length_filter_edges hv (fun _ b => decide (b = x))
  have e2 := length_filter_edges hv (fun a _ => decide (a = x))
  rw [e1, e2]
  exact ⟨inDegree_ofMG hx, outDegree_ofMG hx, degree_ofMG hx⟩

/-- A history with parallel edges, a self-loop and a failing call. -/
def exampleOps : List (Net.Op Nat Int) :=
  [.addEdge 0 1 [("w", 5)], .addEdge 0 1 [], .addEdge 2 2 [], .removeEdge 7 8, .addEdgeBidir 1 2 [], .removeNode 0,
   .addNode 0 [("c", 1)], .addEdge 2 0 []]

/-- The hypothesis of C01 is met by a node with a self-loop. -/
example : (2 : Nat) ∈ (Net.run Net.empty exampleOps).labels ∧
    (Net.run Net.empty exampleOps).degree 2 = .ok 5 := by decide

/-! ## C02 -/

/-- C02.  The queries on the object reached by any history are those of the abstract multigraph reached by the same
history, and every further call has the outcome the specification gives. -/
theorem C02_refines_multigraph (ops : List (Net.Op L A)) :
    let n := Net.run Net.empty ops
    let g := MG.run MG.empty ops
    n.labels = g.labels ∧
    (∀ i j, n.edge i j = if between g.edges i j = [] then .error .keyError else .ok (between g.edges i j)) ∧
    (∀ i j, n.hasEdge i j = true ↔ between g.edges i j ≠ []) ∧
    (∀ j, n.inEdges j = if j ∈ g.labels then .ok ((sources g.edges j).map (fun i => (i, between g.edges i j)))
                        else .error .keyError) ∧
    n.edges = g.labels.flatMap (fun j => (sources g.edges j).flatMap (fun i =>
      (between g.edges i j).map (fun a => (i, j, a)))) ∧
    n.rotation = g.rot ∧
    (∀ x, (n.nodes.get? x).map Node.attrs = g.nodes.get? x) ∧
    (∀ op, (Net.exec op n).1 = (MG.exec g op).1) := by
  obtain ⟨h, hv⟩ := run_empty ops
  simp only [h]
  refine ⟨labels_ofMG _, edge_ofMG hv, ?_, ?_, edges_ofMG _, rfl, ?_, fun op => by rw [(exec_ofMG hv op).1]⟩
  · intro i j
    rw [hasEdge_ofMG hv, decide_eq_true_eq, ne_eq, between_eq_nil_iff, Decidable.not_not]
  · intro j
    split
    · rename_i hj; rw [inEdges_ofMG hj]; rfl
    · rename_i hj; simp [Net.inEdges, get_ofMG_of_not_mem hj, Except.map]
  · intro x
    rw [get?_ofMG, Option.map_map]
    cases (MG.run MG.empty ops).nodes.get? x <;> rfl

/-- The example history reaches a graph with four edges, of which two enter node 1's former neighbours. -/
example : (MG.run MG.empty exampleOps).labels = [1, 2, 0] ∧
    (MG.run MG.empty exampleOps).edges.length = 4 := by decide

/-! ## C03 -/

/-- C03.  `remove_node` removes exactly the node and its incident edges, or raises `KeyError` and changes nothing. -/
theorem C03_remove_node (ops : List (Net.Op L A)) (x : L) :
    let n := Net.run Net.empty ops
    let r := Net.removeNode x n
    (x ∉ n.labels → r = (.error .keyError, n)) ∧
    (x ∈ n.labels →
      r.1 = .ok () ∧
      r.2.labels = n.labels.filter (fun y => decide (y ≠ x)) ∧
      r.2.edges = n.edges.filter (fun t => decide (t.1 ≠ x) && decide (t.2.1 ≠ x)) ∧
      (∀ y, y ≠ x → (r.2.nodes.get? y).map Node.attrs = (n.nodes.get? y).map Node.attrs) ∧
      (∀ y ∈ r.2.labels,
        r.2.inDegree y = .ok ((r.2.edges.filter (fun t => decide (t.2.1 = y))).length : Int) ∧
        r.2.outDegree y = .ok ((r.2.edges.filter (fun t => decide (t.1 = y))).length : Int))) := by
  obtain ⟨h, hv⟩ := run_empty ops
  simp only [h, labels_ofMG]
  rw [removeNode_ofMG hv]
  refine ⟨fun hx => by rw [if_neg hx], fun hx => ?_⟩
  rw [if_pos hx]
  refine ⟨rfl, ?_, edges_removeNode x, ?_, ?_⟩
  · rw [labels_ofMG]; simp only [MG.removeNode, MG.labels, List.filter_map]; rfl
  · intro y hy
    rw [get?_ofMG, get?_ofMG]
    have : (MG.removeNode (MG.run MG.empty ops) x).nodes.get? y = (MG.run MG.empty ops).nodes.get? y := by
      have := Dict.get?_erase (MG.run MG.empty ops).nodes x y
      rw [if_neg (fun e => hy e.symm)] at this
      exact this
    rw [this, Option.map_map, Option.map_map]
    cases (MG.run MG.empty ops).nodes.get? y <;> rfl
  · intro y hy
    have hv' := valid_removeNode hv x
    have e1 := length_filter_edges hv' (fun _ b => decide (b = y))
    have e2 := length_filter_edges hv' (fun a _ => decide (a = y))
    rw [e1, e2]
    rw [labels_ofMG] at hy
    exact ⟨inDegree_ofMG hy, outDegree_ofMG hy⟩

example : (2 : Nat) ∈ (Net.run Net.empty exampleOps).labels ∧
    (Net.removeNode 2 (Net.run Net.empty exampleOps)).2.edges = [] ∧ (9 : Nat) ∉ (Net.run Net.empty exampleOps).labels := by
  decide

/-! ## C04 -/

/-- C04.  `remove_edge` removes all parallel edges from `i` to `j` and nothing else, or raises `KeyError` and changes
nothing. -/
theorem C04_remove_edge (ops : List (Net.Op L A)) (i j : L) :
    let n := Net.run Net.empty ops
    let r := Net.removeEdge i j n
    (n.hasEdge i j = false → r = (.error .keyError, n)) ∧
    (n.hasEdge i j = true →
      r.1 = .ok () ∧
      r.2.labels = n.labels ∧
      r.2.edges = n.edges.filter (fun t => !(decide (t.1 = i) && decide (t.2.1 = j))) ∧
      r.2.hasEdge i j = false ∧
      (∀ y, (r.2.nodes.get? y).map Node.attrs = (n.nodes.get? y).map Node.attrs) ∧
      (∀ y ∈ r.2.labels,
        r.2.inDegree y = .ok ((r.2.edges.filter (fun t => decide (t.2.1 = y))).length : Int) ∧
        r.2.outDegree y = .ok ((r.2.edges.filter (fun t => decide (t.1 = y))).length : Int))) := by
  obtain ⟨h, hv⟩ := run_empty ops
  simp only [h]
  rw [removeEdge_ofMG hv, hasEdge_ofMG hv]
  simp only [between_eq_nil_iff, decide_eq_false_iff_not, decide_eq_true_eq]
  refine ⟨fun hx => by rw [if_pos hx], fun hx => ?_⟩
  rw [if_neg (fun h => h hx)]
  refine ⟨rfl, by rw [labels_ofMG, labels_ofMG]; rfl, edges_removeEdge i j, ?_, ?_, ?_⟩
  · rw [hasEdge_ofMG (valid_removeEdge hv i j), decide_eq_false_iff_not]
    simp only [MG.removeEdge]
    rw [sources_filter_pair, if_pos rfl]; simp
  · intro y
    rw [get?_ofMG, get?_ofMG, Option.map_map, Option.map_map]
    simp only [MG.removeEdge]
    cases (MG.run MG.empty ops).nodes.get? y <;> rfl
  · intro y hy
    have hv' := valid_removeEdge hv i j
    have e1 := length_filter_edges hv' (fun _ b => decide (b = y))
    have e2 := length_filter_edges hv' (fun a _ => decide (a = y))
    rw [e1, e2]
    rw [labels_ofMG] at hy
    exact ⟨inDegree_ofMG hy, outDegree_ofMG hy⟩

example : (Net.run Net.empty exampleOps).hasEdge 2 2 = true ∧ (Net.run Net.empty exampleOps).hasEdge 0 1 = false := by
  decide

/-! ## C05 -/

/-- C05, partial.  Full claim: "`update_edge` merges the attributes into exactly the selected parallel edges, raises if
there is no edge, *and a call that raises leaves the network unchanged*".  The last part is false for an index out of
range (`C05_bad_index_not_atomic`); everything else is proved here: outcome and effect for all edges, for any index
list in range, and for a missing edge. -/
theorem C05_update_edge_partial (ops : List (Net.Op L A)) (i j : L) (attr : Attr A) :
    let n := Net.run Net.empty ops
    -- no such edge: raises, nothing changes
    (∀ ks, n.hasEdge i j = false → Net.updateEdge i j ks attr n = (.error (.exception "edge does not exist"), n)) ∧
    -- all edges
    (∀ es, n.edge i j = .ok es →
      ∃ n', Net.updateEdge i j none attr n = (.ok (), n') ∧
        n'.edge i j = .ok (es.map (fun e => e.update attr)) ∧
        n'.labels = n.labels ∧
        (∀ a b, ¬ (a = i ∧ b = j) → n'.edge a b = n.edge a b) ∧
        (∀ y, n'.inDegree y = n.inDegree y ∧ n'.outDegree y = n.outDegree y)) ∧
    -- selected edges, all indices in range
    (∀ es ks, n.edge i j = .ok es → (∀ k ∈ ks, -(es.length : Int) ≤ k ∧ k < es.length) →
      ∃ n', Net.updateEdge i j (some ks) attr n = (.ok (), n') ∧
        n'.edge i j = .ok (ks.foldl (fun l k => l.modify (k % (es.length : Int)).toNat (fun e => e.update attr)) es) ∧
        n'.labels = n.labels ∧
        (∀ a b, ¬ (a = i ∧ b = j) → n'.edge a b = n.edge a b) ∧
        (∀ y, n'.inDegree y = n.inDegree y ∧ n'.outDegree y = n.outDegree y)) := by
  obtain ⟨h, hv⟩ := run_empty ops
  simp only [h]
  generalize MG.run MG.empty ops = g at hv
  clear h
  have degs : ∀ es', SameEnds es' g.edges → ∀ y,
      (ofMG { g with edges := es' }).inDegree y = (ofMG g).inDegree y ∧
      (ofMG { g with edges := es' }).outDegree y = (ofMG g).outDegree y := by
    intro es' hse y
    by_cases hy : y ∈ g.labels
    · rw [inDegree_ofMG (g := { g with edges := es' }) hy, inDegree_ofMG hy, outDegree_ofMG (g := { g with edges := es' }) hy,
        outDegree_ofMG hy]
      simp only [hse.inCount, hse.outCount]; exact ⟨trivial, trivial⟩
    · simp [Net.inDegree, Net.outDegree, get_ofMG_of_not_mem hy, get_ofMG_of_not_mem (g := { g with edges := es' }) hy]
  have edge_of : ∀ es, (ofMG g).edge i j = .ok es → between g.edges i j = es ∧ i ∈ sources g.edges j := by
    intro es hes
    rw [edge_ofMG hv] at hes
    split at hes
    · cases hes
    · rename_i hne
      refine ⟨by simpa using hes, ?_⟩
      rw [between_eq_nil_iff] at hne
      exact Decidable.not_not.1 hne
  refine ⟨?_, ?_, ?_⟩
  · intro ks hno
    rw [hasEdge_ofMG hv, decide_eq_false_iff_not] at hno
    have := (updateEdge_ofMG hv i j ks attr).1
    rw [this]
    simp [MG.exec, between_eq_nil_iff.2 hno]
  · intro es hes
    obtain ⟨hb, hs⟩ := edge_of es hes
    have hne : ¬ between g.edges i j = [] := by rw [between_eq_nil_iff]; exact fun h => h hs
    have hse := sameEnds_updateAll g i j attr
    have hv' : (updateAll g i j attr).Valid := valid_sameEnds hv hse
    refine ⟨ofMG (updateAll g i j attr), ?_, ?_, ?_, ?_, ?_⟩
    · rw [(updateEdge_ofMG hv i j none attr).1]; simp [MG.exec, hne]
    · have : between (updateAll g i j attr).edges i j = es.map (fun e => e.update attr) := by
        simp only [updateAll]; rw [between_map_update, if_pos ⟨rfl, rfl⟩, hb]
      rw [edge_ofMG hv', this, if_neg]
      rw [← hb]; simpa using hne
    · rw [labels_ofMG, labels_ofMG]; rfl
    · intro a b hab
      have hbt : between (updateAll g i j attr).edges a b = between g.edges a b := by
        simp only [updateAll]; rw [between_map_update, if_neg hab]
      rw [edge_ofMG hv', edge_ofMG hv]
      simp only [hbt]
    · exact degs _ hse
  · intro es ks hes hks
    obtain ⟨hb, hs⟩ := edge_of es hes
    have hne : ¬ between g.edges i j = [] := by rw [between_eq_nil_iff]; exact fun h => h hs
    have key : ∀ (ks : List Int) (g' : MG L A), g'.nodes = g.nodes → g'.rot = g.rot → SameEnds g'.edges g.edges →
        (∀ k ∈ ks, -((between g'.edges i j).length : Int) ≤ k ∧ k < (between g'.edges i j).length) →
        ∃ es', (updateMany g' i j attr ks) = (.ok (), { g with edges := es' }) ∧ SameEnds es' g.edges ∧
          between es' i j = ks.foldl (fun l k => l.modify (k % ((between g'.edges i j).length : Int)).toNat
            (fun e => e.update attr)) (between g'.edges i j) ∧
          ∀ a b, ¬ (a = i ∧ b = j) → between es' a b = between g'.edges a b := by
      intro ks
      induction ks with
      | nil =>
        intro g' h1 h2 h3 _
        refine ⟨g'.edges, ?_, h3, rfl, fun _ _ _ => rfl⟩
        simp only [updateMany]; congr 1; cases g'; simp_all
      | cons k ks ih =>
        intro g' h1 h2 h3 hk
        have hk0 := hk k (by simp)
        have hp := pyIndex_emod hk0.1 hk0.2
        have hbs := between_updateNth_self g'.edges i j attr (k % ((between g'.edges i j).length : Int)).toNat
        have hlen : (between (updateNth i j attr (k % ((between g'.edges i j).length : Int)).toNat g'.edges) i j).length =
            (between g'.edges i j).length := by rw [hbs, List.length_modify]
        obtain ⟨es', e1, e2, e3, e4⟩ := ih
          { g' with edges := updateNth i j attr (k % ((between g'.edges i j).length : Int)).toNat g'.edges } h1 h2
          ((sameEnds_updateNth _ _ _ _ _).trans h3)
          (by simp only; rw [hlen]; exact fun k hk' => hk k (by simp [hk']))
        refine ⟨es', ?_, e2, ?_, ?_⟩
        · simp only [updateMany, hp]; exact e1
        · rw [e3]; simp only [hlen]; rw [hbs]; rfl
        · intro a b hab
          rw [e4 a b hab]; exact between_updateNth_ne _ _ _ _ _ _ _ hab
    obtain ⟨es', e1, e2, e3, e4⟩ := key ks g rfl rfl rfl (by rw [hb]; exact hks)
    have hv' := valid_sameEnds hv e2
    refine ⟨ofMG { g with edges := es' }, ?_, ?_, ?_, ?_, ?_⟩
    · rw [(updateEdge_ofMG hv i j (some ks) attr).1]; simp [MG.exec, hne, e1]
    · rw [edge_ofMG hv', if_neg]
      · simp only [e3, hb]
      · rw [between_eq_nil_iff]
        simp only
        rw [e2.sources]; exact fun h => h hs
    · rw [labels_ofMG, labels_ofMG]; rfl
    · intro a b hab
      rw [edge_ofMG hv', edge_ofMG hv]
      simp only [e4 a b hab]
    · exact degs _ e2

/-- The index hypotheses of C05 are met with two parallel edges and a negative index. -/
example : (Net.run (Net.empty : Net Nat Int) [.addEdge 0 1 [("w", 5)], .addEdge 0 1 []]).edge 0 1 =
    .ok [[("w", 5)], []] ∧ (∀ k ∈ [(-1 : Int), 0], -(2 : Int) ≤ k ∧ k < 2) := by decide

/-- C05, negation of the atomicity part: the call below raises `IndexError` after having changed edge 0. -/
theorem C05_bad_index_not_atomic :
    ∃ (ops : List (Net.Op Nat Int)) (i j : Nat) (ks : List Int) (attr : Attr Int),
      let n := Net.run Net.empty ops
      (Net.updateEdge i j (some ks) attr n).1 = .error .indexError ∧
      (Net.updateEdge i j (some ks) attr n).2.edge i j ≠ n.edge i j :=
  ⟨[.addEdge 0 1 [("w", 5)]], 0, 1, [0, 3], [("w", 6)], by decide⟩

/-! ## C06 -/

/-- C06.  Both degree sums equal the number of edges.  (`d.toOption.getD 0` reads the value of a degree query; by C01
the query does not raise for nodes.) -/
theorem C06_handshake (ops : List (Net.Op L A)) :
    let n := Net.run Net.empty ops
    (n.labels.map (fun x => (n.inDegree x).toOption.getD 0)).sum = (n.edges.length : Int) ∧
    (n.labels.map (fun x => (n.outDegree x).toOption.getD 0)).sum = (n.edges.length : Int) := by
  obtain ⟨h, hv⟩ := run_empty ops
  simp only [h, labels_ofMG]
  generalize MG.run MG.empty ops = g at hv
  clear h
  have hsum : ∀ (l : List L) (f : L → Nat), (l.map (fun x => (f x : Int))).sum = ((l.map f).sum : Int) := by
    intro l f
    induction l with
    | nil => rfl
    | cons a l ih => simp only [List.map_cons, List.sum_cons, ih]; omega
  have hlen : ((ofMG g).edges).length = g.edges.length := by
    rw [(edges_perm hv).length_eq, List.length_map]
  refine ⟨?_, ?_⟩
  · have : g.labels.map (fun x => ((ofMG g).inDegree x).toOption.getD 0) = g.labels.map (fun x => (inCount g.edges x : Int)) := by
      apply List.map_congr_left
      intro x hx; rw [inDegree_ofMG hx]; rfl
    rw [this, hsum, hlen]
    have := sum_length_filter g.labels hv.nodup g.edges Edge.dst (fun e he => (hv.closed e he).2)
    exact congrArg (Nat.cast (R := Int)) this
  · have : g.labels.map (fun x => ((ofMG g).outDegree x).toOption.getD 0) = g.labels.map (fun x => (outCount g.edges x : Int)) := by
      apply List.map_congr_left
      intro x hx; rw [outDegree_ofMG hx]; rfl
    rw [this, hsum, hlen]
    have := sum_length_filter g.labels hv.nodup g.edges Edge.src (fun e he => (hv.closed e he).1)
    exact congrArg (Nat.cast (R := Int)) this

example : (Net.run Net.empty exampleOps).edges.length = 4 := by decide

/-! ## C07 -/

/-- C07.  Endpoints of edges are nodes, so degree, `in_edges` and `edge` queries about them do not raise; labels are
not repeated. -/
theorem C07_no_dangling (ops : List (Net.Op L A)) :
    let n := Net.run Net.empty ops
    n.labels.Nodup ∧
    ∀ i j a, (i, j, a) ∈ n.edges →
      i ∈ n.labels ∧ j ∈ n.labels ∧ n.hasEdge i j = true ∧
      (∃ es, n.edge i j = .ok es ∧ a ∈ es) ∧ (∃ d, n.inEdges i = .ok d) ∧ (∃ d, n.outDegree j = .ok d) := by
  obtain ⟨h, hv⟩ := run_empty ops
  simp only [h, labels_ofMG]
  refine ⟨hv.nodup, ?_⟩
  intro i j a hm
  have hm' := (edges_perm hv).mem_iff.1 hm
  obtain ⟨e, he, heq⟩ := List.mem_map.1 hm'
  simp only [Prod.mk.injEq] at heq
  obtain ⟨rfl, rfl, rfl⟩ := heq
  have hc := hv.closed e he
  have hs : e.src ∈ sources (MG.run MG.empty ops).edges e.dst := mem_sources.2 ⟨e, he, rfl, rfl⟩
  refine ⟨hc.1, hc.2, ?_, ⟨between (MG.run MG.empty ops).edges e.src e.dst, ?_, ?_⟩, ⟨_, inEdges_ofMG hc.1⟩, ⟨_, outDegree_ofMG hc.2⟩⟩
  · rw [hasEdge_ofMG hv]; simpa using hs
  · rw [edge_ofMG hv, if_neg]; rw [between_eq_nil_iff]; exact fun h => h hs
  · simp only [between, List.mem_map, List.mem_filter, Bool.and_eq_true, decide_eq_true_eq]
    exact ⟨e, ⟨he, rfl, rfl⟩, rfl⟩

example : ((2, 2, []) : Nat × Nat × Attr Int) ∈ (Net.run Net.empty exampleOps).edges := by decide

/-! ## C11 -/

/-- C11, partial.  Full claim: "at all times the rotation system mentions only nodes of the network".  The setter
accepts exactly the mappings over existing nodes and otherwise raises and keeps the old value (proved here), but a
later `remove_node` does not update the rotation system (`C11_stale_after_removal`). -/
theorem C11_rotation_setter_partial (ops : List (Net.Op L A)) (rs : Dict L (List L)) :
    let n := Net.run Net.empty ops
    let r := Net.setRotation rs n
    ((∀ p ∈ rs, p.1 ∈ n.labels ∧ ∀ x ∈ p.2, x ∈ n.labels) →
      r = (.ok (), { n with rotation := some rs })) ∧
    (¬ (∀ p ∈ rs, p.1 ∈ n.labels ∧ ∀ x ∈ p.2, x ∈ n.labels) → r = (.error .assertion, n)) := by
  obtain ⟨h, _⟩ := run_empty ops
  simp only [h, labels_ofMG]
  rw [setRotation_ofMG]
  refine ⟨fun hok => ?_, fun hno => ?_⟩
  · simp only [MG.exec]; rw [if_pos hok]; rfl
  · simp only [MG.exec]; rw [if_neg hno]

example : (Net.setRotation [(1, [2, 1, 0])] (Net.run Net.empty exampleOps)).1 = .ok () ∧
    (Net.setRotation [(1, [2, 5])] (Net.run Net.empty exampleOps)).1 = .error .assertion := by decide

/-- C11, negation of the invariant: after `remove_node` the rotation system still mentions the removed node. -/
theorem C11_stale_after_removal :
    ∃ (ops : List (Net.Op Nat Int)) (rs : Dict Nat (List Nat)),
      (Net.run Net.empty ops).rotation = some rs ∧
      ¬ (∀ p ∈ rs, p.1 ∈ (Net.run Net.empty ops).labels) :=
  ⟨[.addEdge 0 1 [], .setRotation [(0, [0]), (1, [0])], .removeNode 0], [(0, [0]), (1, [0])], by decide⟩

end Verif
