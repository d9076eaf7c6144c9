import Verif.Proofs.Msgpack
import Verif.Proofs.NetworkX
import Verif.Props.Network
/-! # Properties C10 and C12: copies and NetworkX conversion -/

namespace Verif
open MG

variable {L A : Type} [DecidableEq L]

/-! ## C10

Full statement: `copy()` of any network with msgpack-representable content returns the same network.  It is false:
the rotation system is lost (`C10_copy_drops_rotation`), and tuples come back as lists although msgpack accepts them
(`C10_copy_changes_tuples`).  The partial theorem gives the exact result when every label and attribute value survives
msgpack; `C10_surviving_values` says which attribute values do. -/

/-- C10, for the content that survives msgpack: the copy is the same network, in the same order, except that it has no
rotation system. -/
theorem C10_copy_partial (cl : Codec L) (ca : Codec A) (ops : List (Net.Op L A))
    (hl : ∀ x ∈ (Net.run Net.empty ops).labels, cl.ExactAt x)
    (he : ∀ t ∈ (Net.run Net.empty ops).edges, ∀ kv ∈ t.2.2, ca.ExactAt kv.2)
    (ha : ∀ p ∈ (Net.run Net.empty ops).nodes, ∀ kv ∈ p.2.attrs, ca.ExactAt kv.2) :
    (Net.run Net.empty ops).copy cl ca = .ok { Net.run Net.empty ops with rotation := none } := by
  obtain ⟨h, hv⟩ := run_empty ops
  rw [h] at hl he ha ⊢
  rw [labels_ofMG] at hl
  refine copy_ofMG hv hl ?_ ?_
  · intro e hm
    refine he (e.src, e.dst, e.attr) ?_
    exact (edges_perm hv).mem_iff.2 (List.mem_map.2 ⟨e, hm, rfl⟩)
  · intro p hp kv hkv
    exact ha (p.1, nodeOf (MG.run MG.empty ops).edges p.1 p.2) (by
      simp only [ofMG, List.mem_map]
      exact ⟨p, hp, rfl⟩) kv hkv

/-- The attribute values that come back unchanged are exactly those built from `None`, booleans, 64-bit integers,
floats, strings, lists and string-keyed dicts. -/
theorem C10_surviving_values_partial (v : PyVal) :
    (PyVal.codec.pack v = .ok () ∧ PyVal.codec.unpack v = v) ↔ v.plain = true := PyVal.exactAt_iff v

/-- A codec that keeps every value. -/
def idCodec (T : Type) : Codec T := ⟨fun _ => .ok (), fun x => x⟩

/-- A history whose network carries a nested attribute and meets the hypotheses of `C10_copy_partial`. -/
def exampleCopyOps : List (Net.Op Nat PyVal) :=
  [.addEdge 0 1 [("w", .list [.int 3, .str "a"])], .addEdge 0 1 [], .addNode 1 [("c", .dict [("k", .none)])],
   .removeNode 0]

example : ∃ n, (Net.run Net.empty exampleCopyOps).copy (idCodec Nat) PyVal.codec = .ok n ∧ n.labels = [1] :=
  ⟨_, C10_copy_partial _ _ exampleCopyOps (fun _ _ => ⟨rfl, rfl⟩)
    (by intro t ht; have : (Net.run Net.empty exampleCopyOps).edges = [] := rfl
        rw [this] at ht; cases ht)
    (by intro p hp kv hkv
        have : (Net.run Net.empty exampleCopyOps).nodes =
          [(1, ⟨0, 0, [], [], [("c", .dict [("k", .none)])]⟩)] := rfl
        rw [this] at hp
        simp only [List.mem_singleton] at hp
        subst hp
        simp only [List.mem_singleton] at hkv
        subst hkv
        exact (PyVal.exactAt_iff _).2 rfl), rfl⟩

/-- The unrestricted C10 is false: a network with a rotation system is not equal to its copy. -/
theorem C10_copy_drops_rotation :
    ¬ ∀ (ops : List (Net.Op Nat Int)), ∃ m, (Net.run Net.empty ops).copy (idCodec Nat) (idCodec Int) = .ok m ∧
      m.rotation = (Net.run Net.empty ops).rotation := by
  intro h
  obtain ⟨m, h1, h2⟩ := h [.addEdge 0 1 [], .addEdge 1 0 [], .setRotation [(0, [1]), (1, [0])]]
  have e : (Net.run (Net.empty : Net Nat Int)
      [.addEdge 0 1 [], .addEdge 1 0 [], .setRotation [(0, [1]), (1, [0])]]).rotation = some [(0, [1]), (1, [0])] := by
    decide
  rw [e] at h2
  unfold Net.copy at h1
  split at h1
  · cases h1
  · cases h1; cases h2

/-- The unrestricted C10 is false: msgpack accepts a tuple, and the copy holds a list instead. -/
theorem C10_copy_changes_tuples :
    ¬ ∀ v : PyVal, PyVal.codec.pack v = .ok () → PyVal.codec.unpack v = v := by
  intro h
  have := h (.tuple [.int 1]) rfl
  simp [PyVal.codec, PyVal.unpack] at this

/-! ## C12

Full statement: the round trip through NetworkX keeps nodes, node attributes, edges and edge attributes, and an
undirected graph yields every edge in both directions.  The second half is false (`C12_undirected_one_direction`). -/

/-- C12, first half: the round trip through a `MultiDiGraph` keeps the node order, the node attributes and, for every
pair, the list of attribute dicts of the parallel edges.  It never raises.  (The rotation system is dropped.) -/
theorem C12_round_trip_partial (ops : List (Net.Op L A)) :
    let n := Net.run Net.empty ops
    ∃ m, Net.fromNetworkx n.toNetworkx = (.ok (), m) ∧
      m.nodes.map (fun p => (p.1, p.2.attrs)) = n.nodes.map (fun p => (p.1, p.2.attrs)) ∧
      (∀ i j, m.edge i j = n.edge i j) ∧
      (∀ x, m.inDegree x = n.inDegree x ∧ m.outDegree x = n.outDegree x) ∧
      m.rotation = none := by
  obtain ⟨h, hv⟩ := run_empty ops
  have ha := attrNodup_run ops
  intro n
  generalize hg : MG.run MG.empty ops = g at h hv ha
  have hn : n = ofMG g := h
  have hnodes : n.nodes.foldl (fun G p => G.addNode p.1 p.2.attrs) NX.empty =
      ⟨g.nodes, g.nodes.map (fun p => (p.1, []))⟩ := by
    rw [hn]
    have := NX.foldl_addNode g.nodes NX.empty (by simpa [NX.empty, Dict.keys] using (show (g.nodes.map Prod.fst).Nodup from hv.nodup)) ha rfl
    simp only [ofMG, List.foldl_map, nodeOf]
    rw [this]; rfl
  have hok : (⟨g.nodes, g.nodes.map (fun p => (p.1, []))⟩ : NX L A).Ok := by
    refine ⟨by simp [Dict.keys, Function.comp_def], hv.nodup, ?_⟩
    intro u d hd
    have := Dict.mem_of_get? hd
    simp only [List.mem_map, Prod.mk.injEq] at this
    obtain ⟨_, _, _, rfl⟩ := this
    exact List.nodup_nil
  have hmem : ∀ e ∈ n.edges, e.1 ∈ g.nodes.keys ∧ e.2.1 ∈ g.nodes.keys := by
    intro e he
    rw [hn] at he
    obtain ⟨e', he', rfl⟩ := List.mem_map.1 ((edges_perm hv).mem_iff.1 he)
    exact hv.closed e' he'
  obtain ⟨b1, b2, b3⟩ := NX.foldl_addEdge (es := n.edges) hok hmem
  have hto : n.toNetworkx = n.edges.foldl (fun G e => G.addEdge e.1 e.2.1 e.2.2)
      ⟨g.nodes, g.nodes.map (fun p => (p.1, []))⟩ := by
    unfold Net.toNetworkx; rw [hnodes]
  rw [← hto] at b1 b2 b3
  have hpar : ∀ i j, between (toEdges n.toNetworkx.edgesData) i j = between g.edges i j := by
    intro i j
    rw [between_edgesData b2, b3, hn, between_edges_ofMG hv]
    have : NX.parallel (⟨g.nodes, g.nodes.map (fun p => (p.1, []))⟩ : NX L A) i j = [] := by
      unfold NX.parallel
      cases hd : Dict.get? (g.nodes.map (fun p => (p.1, ([] : Dict L (List (Attr A)))))) i with
      | none => rfl
      | some d =>
        have := Dict.mem_of_get? hd
        simp only [List.mem_map, Prod.mk.injEq] at this
        obtain ⟨_, _, _, rfl⟩ := this
        rfl
    rw [this, List.nil_append]
  have hclosed : ∀ e ∈ n.toNetworkx.edgesData, e.1 ∈ n.toNetworkx.nodes.keys ∧ e.2.1 ∈ n.toNetworkx.nodes.keys := by
    intro e he
    have : e.2.2 ∈ between (toEdges n.toNetworkx.edgesData) e.1 e.2.1 := by
      simp only [between, toEdges, List.mem_map, List.mem_filter]
      exact ⟨⟨e.1, e.2.1, e.2.2⟩, ⟨⟨e, he, rfl⟩, by simp⟩, rfl⟩
    rw [hpar] at this
    rw [b1]
    exact hv.closed _ (mem_of_mem_between this)
  obtain ⟨c1, c2⟩ := fromData_closed (nodes := n.toNetworkx.nodes) (es := n.toNetworkx.edgesData) b2.nodup
    (by rw [b1]; exact ha) hclosed
  refine ⟨_, c1, ?_, ?_, ?_, rfl⟩
  · rw [b1, hn]
    simp only [ofMG, List.map_map, Function.comp_def, nodeOf]
  · intro i j
    rw [edge_ofMG c2, hn, edge_ofMG hv]
    simp only
    rw [← hn, hpar]
  · have hp : (toEdges n.toNetworkx.edgesData).Perm g.edges := perm_of_between hpar
    intro x
    have hl : (⟨n.toNetworkx.nodes, toEdges n.toNetworkx.edgesData, none⟩ : MG L A).labels = g.labels := by
      simp only [MG.labels, b1]
    by_cases hx : x ∈ g.labels
    · rw [hn, inDegree_ofMG hx, outDegree_ofMG hx, ← hn, inDegree_ofMG (by rw [hl]; exact hx),
        outDegree_ofMG (by rw [hl]; exact hx)]
      simp only [inCount, outCount]
      rw [(hp.filter _).length_eq, (hp.filter _).length_eq]
      exact ⟨rfl, rfl⟩
    · have e1 : ∀ g : MG L A, x ∉ g.labels → (ofMG g).nodes.get? x = none := by
        intro g hx
        rw [Dict.get?_eq_none_iff]
        rw [← labels_ofMG] at hx
        exact hx
      have e2 := e1 g hx
      have e3 := e1 _ (show x ∉ (⟨n.toNetworkx.nodes, toEdges n.toNetworkx.edgesData, none⟩ : MG L A).labels by
        rw [hl]; exact hx)
      rw [← hn] at e2
      simp [Net.inDegree, Net.outDegree, Dict.get, e2, e3]

example : ∃ m, Net.fromNetworkx (Net.run Net.empty exampleOps).toNetworkx = (.ok (), m) ∧
    m.edge 2 0 = .ok [[]] ∧ m.inDegree 2 = .ok 2 := by
  obtain ⟨m, h1, _, h3, h4, _⟩ := C12_round_trip_partial exampleOps
  exact ⟨m, h1, by rw [h3]; decide, by rw [(h4 2).1]; decide⟩

/-- C12 is false for undirected graphs: each edge is added in one direction only. -/
theorem C12_undirected_one_direction :
    ¬ ∀ (G : UNX Nat Int) (e : Nat × Nat × Attr Int), e ∈ G.edges → e.1 ∈ G.nodes.keys → e.2.1 ∈ G.nodes.keys →
      (Net.fromNetworkxU G).2.hasEdge e.1 e.2.1 = true ∧ (Net.fromNetworkxU G).2.hasEdge e.2.1 e.1 = true := by
  intro h
  have := h ⟨[(0, []), (1, [])], [(0, 1, [])]⟩ (0, 1, []) (by simp) (by decide) (by decide)
  revert this
  decide

/-- C12 for undirected graphs: every edge is present in exactly the direction in which NetworkX reports it. -/
theorem C12_undirected_partial (G : UNX L A) (hn : G.nodes.keys.Nodup) (ha : ∀ p ∈ G.nodes, (Dict.keys p.2).Nodup)
    (he : ∀ e ∈ G.edges, e.1 ∈ G.nodes.keys ∧ e.2.1 ∈ G.nodes.keys) :
    ∃ m, Net.fromNetworkxU G = (.ok (), m) ∧ m.nodes.map (fun p => (p.1, p.2.attrs)) = G.nodes ∧
      ∀ i j, m.edge i j = if between (toEdges (G.edges.map G.orient)) i j = [] then .error .keyError
        else .ok (between (toEdges (G.edges.map G.orient)) i j) := by
  obtain ⟨c1, c2⟩ := fromData_closed (nodes := G.nodes) (es := G.edgesData) hn ha (by
    intro e hm
    obtain ⟨e', he', rfl⟩ := List.mem_map.1 hm
    unfold UNX.orient
    split
    · exact he e' he'
    · exact (he e' he').symm)
  refine ⟨_, c1, by simp [ofMG, Function.comp_def, nodeOf], fun i j => edge_ofMG c2 i j⟩

example : ((Net.fromNetworkxU (⟨[(0, []), (1, [])], [(1, 0, [("w", 2)])]⟩ : UNX Nat Int)).2).edge 0 1 = .ok [[("w", 2)]] := by
  decide

end Verif
