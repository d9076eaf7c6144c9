import Verif.Proofs.NetworkQueries
import Verif.Model.NetworkX
/-! # Lemmas: NetworkX conversion -/

namespace Verif
open MG

variable {L A : Type} [DecidableEq L]

theorem forEach_ofMG {β : Type} {f : β → NetM L A Unit} {F : MG L A → β → MG L A}
    (h : ∀ g b, g.Valid → f b (ofMG g) = (.ok (), ofMG (F g b)) ∧ (F g b).Valid) (bs : List β) (g : MG L A)
    (hg : g.Valid) : NetM.forEach bs f (ofMG g) = (.ok (), ofMG (bs.foldl F g)) ∧ (bs.foldl F g).Valid := by
  induction bs generalizing g with
  | nil => exact ⟨rfl, hg⟩
  | cons b bs ih =>
    obtain ⟨h1, h2⟩ := h g b hg
    simp only [NetM.forEach, NetM.bind, h1, List.foldl_cons]
    exact ih _ h2

/-! ## Node attributes have no repeated names -/

/-- Attribute dicts of nodes have no repeated names. -/
def AttrNodup (g : MG L A) : Prop := ∀ p ∈ g.nodes, (Dict.keys p.2).Nodup

theorem attrNodup_ensure {g : MG L A} (h : AttrNodup g) (x : L) : AttrNodup (ensure g x) := by
  unfold ensure
  split
  · exact h
  · intro p hp
    rcases List.mem_append.1 hp with hp | hp
    · exact h p hp
    · simp only [List.mem_singleton] at hp; subst hp; simp

theorem attrNodup_addEdge {g : MG L A} (h : AttrNodup g) (i j : L) (a : Attr A) : AttrNodup (MG.addEdge g i j a) :=
  attrNodup_ensure (attrNodup_ensure h i) j

theorem attrNodup_updateMany {g : MG L A} (h : AttrNodup g) (i j : L) (a : Attr A) (ks : List Int) :
    AttrNodup (updateMany g i j a ks).2 := by
  induction ks generalizing g with
  | nil => exact h
  | cons k ks ih =>
    unfold updateMany
    split
    · exact h
    · exact ih h

theorem attrNodup_exec {g : MG L A} (h : AttrNodup g) (op : Net.Op L A) : AttrNodup (MG.exec g op).2 := by
  cases op with
  | addNode x attr =>
    intro p hp
    simp only [MG.exec, MG.addNode, List.mem_map] at hp
    obtain ⟨q, hq, rfl⟩ := hp
    have := attrNodup_ensure h x q hq
    split
    · exact Dict.nodup_keys_update this attr
    · exact this
  | addEdge i j attr => exact attrNodup_addEdge h i j attr
  | addEdgeBidir i j attr => exact attrNodup_addEdge (attrNodup_addEdge h i j attr) j i attr
  | updateEdge i j ks attr =>
    simp only [MG.exec]
    split
    · exact h
    · split
      · exact h
      · exact attrNodup_updateMany h i j attr _
  | removeNode x =>
    simp only [MG.exec]
    split
    · intro p hp
      exact h p (List.mem_filter.1 hp).1
    · exact h
  | removeEdge i j =>
    simp only [MG.exec]
    split <;> exact h
  | setRotation rs =>
    simp only [MG.exec]
    split <;> exact h

theorem attrNodup_run (ops : List (Net.Op L A)) : AttrNodup (MG.run MG.empty ops) := by
  have : ∀ g : MG L A, AttrNodup g → AttrNodup (MG.run g ops) := by
    induction ops with
    | nil => exact fun g h => h
    | cons op ops ih => exact fun g h => ih _ (attrNodup_exec h op)
  exact this _ (fun p hp => by simp [MG.empty] at hp)

theorem update_nil {K V : Type} [DecidableEq K] (e : Dict K V) (h : e.keys.Nodup) : Dict.update [] e = e := by
  have : ∀ (acc : Dict K V), (acc.keys ++ e.keys).Nodup → e.foldl (fun d p => d.set p.1 p.2) acc = acc ++ e := by
    clear h
    induction e with
    | nil => intro acc _; simp
    | cons p ps ih =>
      intro acc hn
      have hp : p.1 ∉ acc.keys := by
        rw [List.nodup_append] at hn
        exact fun hm => hn.2.2 p.1 hm p.1 (by simp) rfl
      rw [List.foldl_cons, Dict.set_of_not_mem hp, ih]
      · simp
      · simpa [Dict.keys_append] using hn
  have h2 := this [] (by simpa using h)
  unfold Dict.update
  rw [h2]; rfl

/-! ## Parallel edges -/

theorem filter_flatMap_key {α : Type} {key : α → L} {l : List L} {f : L → List α} (hn : l.Nodup)
    (hf : ∀ u ∈ l, ∀ e ∈ f u, key e = u) (i : L) :
    (l.flatMap f).filter (fun e => decide (key e = i)) = if i ∈ l then f i else [] := by
  induction l with
  | nil => simp
  | cons u l ih =>
    rw [List.nodup_cons] at hn
    rw [List.flatMap_cons, List.filter_append, ih hn.2 (fun v hv => hf v (by simp [hv]))]
    by_cases hu : u = i
    · subst hu
      rw [List.filter_eq_self.2 (fun e he => by simp [hf u (by simp) e he])]
      simp [hn.1]
    · have : (f u).filter (fun e => decide (key e = i)) = [] := by
        rw [List.filter_eq_nil_iff]
        intro e he
        simp [hf u (by simp) e he, hu]
      rw [this]
      simp [show ¬ i = u from fun e => hu e.symm]

/-- Triples as edges. -/
def toEdges (ts : List (L × L × Attr A)) : List (Edge L A) := ts.map (fun t => ⟨t.1, t.2.1, t.2.2⟩)

theorem between_toEdges (ts : List (L × L × Attr A)) (i j : L) :
    between (toEdges ts) i j = ((ts.filter (fun t => decide (t.1 = i))).filter (fun t => decide (t.2.1 = j))).map
      (fun t => t.2.2) := by
  unfold between toEdges
  rw [List.filter_map, List.map_map, List.filter_filter]
  congr 1
  apply List.filter_congr
  intro t _
  simp only [Function.comp]
  rw [Bool.and_comm]

theorem between_eq_nil_of_not_mem {g : MG L A} (hg : g.Valid) {i j : L} (h : i ∉ g.labels ∨ j ∉ g.labels) :
    between g.edges i j = [] := by
  rw [between_eq_nil_iff]
  intro hs
  obtain ⟨h1, h2⟩ := mem_labels_of_mem_sources hg hs
  rcases h with h | h
  · exact h h1
  · exact h h2

/-- The `edges` generator keeps the parallel edges of each pair in order. -/
theorem between_edges_ofMG {g : MG L A} (hg : g.Valid) (i j : L) :
    between (toEdges (ofMG g).edges) i j = between g.edges i j := by
  rw [between_toEdges, List.filter_filter]
  have hc : ∀ t : L × L × Attr A, (decide (t.2.1 = j) && decide (t.1 = i)) = (decide (t.1 = i) && decide (t.2.1 = j)) :=
    fun t => Bool.and_comm _ _
  simp only [hc]
  rw [← List.filter_filter (p := fun t : L × L × Attr A => decide (t.1 = i)), edges_ofMG]
  rw [filter_flatMap_key (key := fun t : L × L × Attr A => t.2.1) hg.nodup]
  · split
    · rename_i hj
      rw [filter_flatMap_key (key := fun t : L × L × Attr A => t.1) (nodup_sources _ _)]
      · split
        · simp [Function.comp_def]
        · rename_i hs
          rw [← between_eq_nil_iff] at hs
          simp [hs]
      · intro u _ e he
        simp only [List.mem_map] at he
        obtain ⟨a, _, rfl⟩ := he
        rfl
    · rename_i hj
      rw [between_eq_nil_of_not_mem hg (Or.inr hj)]; rfl
  · intro u _ e he
    simp only [List.mem_flatMap, List.mem_map] at he
    obtain ⟨_, _, a, _, rfl⟩ := he
    rfl

theorem perm_of_between {es es' : List (Edge L A)} (h : ∀ i j, between es i j = between es' i j) : es.Perm es' := by
  classical
  have hc : ∀ (l : List (Edge L A)) (e : Edge L A), l.count e = (between l e.src e.dst).count e.attr := by
    intro l e
    induction l with
    | nil => rfl
    | cons x l ih =>
      simp only [between, List.filter_cons]
      by_cases hx : x.src = e.src ∧ x.dst = e.dst
      · rw [if_pos (by simp [hx.1, hx.2]), List.map_cons, List.count_cons, List.count_cons, ih]
        congr 1
        have : (x == e) = (x.attr == e.attr) := by
          rw [Bool.eq_iff_iff, beq_iff_eq, beq_iff_eq]
          constructor
          · rintro rfl; rfl
          · intro ha; cases x; cases e; simp_all
        rw [this]
      · rw [if_neg (by simpa using hx), List.count_cons_of_ne, ih]
        · rfl
        · rintro rfl; exact hx ⟨rfl, rfl⟩
  rw [List.perm_iff_count]
  intro e
  rw [hc, hc, h]

/-! ## The NetworkX graph -/

/-- Parallel edges from `u` to `v`. -/
def NX.parallel (G : NX L A) (u v : L) : List (Attr A) := ((G.adj.get? u).bind (fun d => d.get? v)).getD []

/-- Shape of a NetworkX graph. -/
structure NX.Ok (G : NX L A) : Prop where
  keys : G.adj.keys = G.nodes.keys
  nodup : G.nodes.keys.Nodup
  inner : ∀ u d, G.adj.get? u = some d → d.keys.Nodup

theorem NX.addEdge_ok {G : NX L A} (h : G.Ok) {u v : L} (hu : u ∈ G.nodes.keys) (hv : v ∈ G.nodes.keys) (a : Attr A) :
    (G.addEdge u v a).nodes = G.nodes ∧ (G.addEdge u v a).Ok ∧
    ∀ i j, (G.addEdge u v a).parallel i j = G.parallel i j ++ (if u = i ∧ v = j then [a] else []) := by
  have e1 : G.ensure u = G := by unfold NX.ensure; rw [if_pos (Dict.has_iff.2 hu)]
  have e2 : G.ensure v = G := by unfold NX.ensure; rw [if_pos (Dict.has_iff.2 hv)]
  unfold NX.addEdge
  rw [e1, e2]
  refine ⟨rfl, ⟨by simp [h.keys], h.nodup, ?_⟩, ?_⟩
  · intro x d hd
    simp only [Dict.get?_modify] at hd
    split at hd
    · obtain ⟨d', hd', rfl⟩ := Option.map_eq_some_iff.1 hd
      exact Dict.nodup_keys_set (h.inner x d' hd') _ _
    · exact h.inner x d hd
  · intro i j
    unfold NX.parallel
    simp only [Dict.get?_modify]
    by_cases hi : u = i
    · subst hi
      simp only [if_true, true_and]
      obtain ⟨d, hd⟩ := Dict.exists_get?_of_mem_keys (d := G.adj) (k := u) (by rw [h.keys]; exact hu)
      simp only [hd, Option.map_some, Option.bind_some, Dict.get?_set]
      by_cases hj : v = j
      · subst hj; simp
      · simp [hj]
    · simp [hi]

theorem NX.foldl_addEdge {es : List (L × L × Attr A)} {G : NX L A} (h : G.Ok)
    (he : ∀ e ∈ es, e.1 ∈ G.nodes.keys ∧ e.2.1 ∈ G.nodes.keys) :
    let G' := es.foldl (fun G e => G.addEdge e.1 e.2.1 e.2.2) G
    G'.nodes = G.nodes ∧ G'.Ok ∧ ∀ i j, G'.parallel i j = G.parallel i j ++ between (toEdges es) i j := by
  induction es generalizing G with
  | nil => exact ⟨rfl, h, fun i j => by simp [toEdges, between]⟩
  | cons e es ih =>
    obtain ⟨h1, h2⟩ := he e (by simp)
    obtain ⟨a1, a2, a3⟩ := NX.addEdge_ok h h1 h2 e.2.2
    obtain ⟨b1, b2, b3⟩ := ih a2 (fun e' he' => by rw [a1]; exact he e' (by simp [he']))
    simp only [List.foldl_cons]
    refine ⟨b1.trans a1, b2, ?_⟩
    intro i j
    rw [b3, a3, List.append_assoc]
    congr 1
    simp only [toEdges, between, List.map_cons, List.filter_cons]
    by_cases hc : e.1 = i ∧ e.2.1 = j
    · simp [hc.1, hc.2]
    · rw [if_neg hc, if_neg (by simpa using hc)]
      simp

theorem NX.foldl_addNode (ps : List (L × Attr A)) (G : NX L A) (hn : (G.nodes.keys ++ ps.map Prod.fst).Nodup)
    (ha : ∀ p ∈ ps, (Dict.keys p.2).Nodup) (hk : G.adj.keys = G.nodes.keys) :
    ps.foldl (fun G p => G.addNode p.1 p.2) G = ⟨G.nodes ++ ps, G.adj ++ ps.map (fun p => (p.1, []))⟩ := by
  induction ps generalizing G with
  | nil => simp
  | cons p ps ih =>
    have hp : p.1 ∉ G.nodes.keys := by
      rw [List.nodup_append] at hn
      exact fun hm => hn.2.2 p.1 hm p.1 (by simp) rfl
    have e1 : G.addNode p.1 p.2 = ⟨G.nodes ++ [p], G.adj ++ [(p.1, [])]⟩ := by
      unfold NX.addNode NX.ensure
      rw [if_neg (by rw [Dict.has_iff]; exact hp)]
      simp only [NX.mk.injEq]
      rw [Dict.set_of_not_mem hp, Dict.set_of_not_mem (by rw [hk]; exact hp)]
      refine ⟨?_, rfl⟩
      have : ∀ d : Dict L (Attr A), p.1 ∉ d.keys →
          Dict.modify (d ++ [(p.1, [])] : List (L × Attr A)) p.1 (fun a => a.update p.2) = d ++ [p] := by
        intro d hd
        unfold Dict.modify
        rw [List.map_append]
        congr 1
        · conv => rhs; rw [← List.map_id d]
          apply List.map_congr_left
          intro q hq
          have : q.1 ≠ p.1 := fun e => hd (e ▸ List.mem_map_of_mem hq)
          simp [this]
        · simp [update_nil _ (ha p (by simp))]
      exact this _ hp
    rw [List.foldl_cons, e1, ih]
    · simp
    · simpa [Dict.keys_append] using hn
    · intro q hq; exact ha q (by simp [hq])
    · simp [Dict.keys_append, hk]

theorem between_edgesData {G : NX L A} (h : G.Ok) (i j : L) :
    between (toEdges G.edgesData) i j = G.parallel i j := by
  have hadj : ∀ (d : Dict L (Dict L (List (Attr A)))), d.keys.Nodup →
      d.flatMap (fun p => p.2.flatMap (fun q => q.2.map (fun a => (p.1, q.1, a)))) =
      d.keys.flatMap (fun u => ((d.get? u).getD []).flatMap (fun q => q.2.map (fun a => (u, q.1, a)))) := by
    intro d hd
    simp only [Dict.keys, List.flatMap_map]
    apply flatMap_congr'
    intro p hp
    rw [Dict.get?_of_mem hd (k := p.1) (v := p.2) hp]
    rfl
  have hinner : ∀ (u : L) (d : Dict L (List (Attr A))), d.keys.Nodup →
      d.flatMap (fun q => q.2.map (fun a => (u, q.1, a))) =
      d.keys.flatMap (fun v => ((d.get? v).getD []).map (fun a => (u, v, a))) := by
    intro u d hd
    simp only [Dict.keys, List.flatMap_map]
    apply flatMap_congr'
    intro p hp
    rw [Dict.get?_of_mem hd (k := p.1) (v := p.2) hp]
    rfl
  rw [between_toEdges]
  unfold NX.edgesData
  rw [hadj _ (by rw [h.keys]; exact h.nodup)]
  rw [filter_flatMap_key (key := fun t : L × L × Attr A => t.1) (by rw [h.keys]; exact h.nodup)]
  · unfold NX.parallel
    split
    · rename_i hi
      obtain ⟨d, hd⟩ := Dict.exists_get?_of_mem_keys hi
      simp only [hd, Option.getD_some, Option.bind_some]
      rw [hinner i d (h.inner i d hd), filter_flatMap_key (key := fun t : L × L × Attr A => t.2.1) (h.inner i d hd)]
      · split
        · simp [Function.comp_def]
        · rename_i hj
          rw [Dict.get?_eq_none_iff.2 hj]; rfl
      · intro v _ e he
        simp only [List.mem_map] at he
        obtain ⟨a, _, rfl⟩ := he
        rfl
    · rename_i hi
      rw [Dict.get?_eq_none_iff.2 hi]; rfl
  · intro u _ e he
    simp only [List.mem_flatMap, List.mem_map] at he
    obtain ⟨_, _, a, _, rfl⟩ := he
    rfl

/-! ## Building a network from data -/

theorem ensure_of_mem {g : MG L A} {x : L} (h : x ∈ g.labels) : ensure g x = g := by unfold ensure; rw [if_pos h]

theorem foldl_addEdge_closed (es : List (L × L × Attr A)) (g : MG L A)
    (he : ∀ e ∈ es, e.1 ∈ g.labels ∧ e.2.1 ∈ g.labels) :
    es.foldl (fun g e => MG.addEdge g e.1 e.2.1 e.2.2) g = { g with edges := g.edges ++ toEdges es } := by
  induction es generalizing g with
  | nil => simp [toEdges]
  | cons e es ih =>
    obtain ⟨h1, h2⟩ := he e (by simp)
    have : MG.addEdge g e.1 e.2.1 e.2.2 = { g with edges := g.edges ++ [⟨e.1, e.2.1, e.2.2⟩] } := by
      unfold MG.addEdge
      rw [ensure_of_mem h1, ensure_of_mem h2]
    rw [List.foldl_cons, this, ih]
    · simp [toEdges]
    · intro e' he'; exact he e' (by simp [he'])

theorem foldl_addNode_mg (ps : List (L × Attr A)) (g : MG L A) (hn : (g.labels ++ ps.map Prod.fst).Nodup)
    (ha : ∀ p ∈ ps, (Dict.keys p.2).Nodup) :
    ps.foldl (fun g p => MG.addNode g p.1 p.2) g = { g with nodes := g.nodes ++ ps } := by
  induction ps generalizing g with
  | nil => simp
  | cons p ps ih =>
    have hp : p.1 ∉ g.labels := by
      rw [List.nodup_append] at hn
      exact fun hm => hn.2.2 p.1 hm p.1 (by simp) rfl
    have e1 : MG.addNode g p.1 p.2 = { g with nodes := g.nodes ++ [p] } := by
      unfold MG.addNode ensure
      rw [if_neg hp]
      simp only [MG.mk.injEq, and_true]
      rw [List.map_append]
      congr 1
      · conv => rhs; rw [← List.map_id g.nodes]
        apply List.map_congr_left
        intro q hq
        have : q.1 ≠ p.1 := fun e => hp (e ▸ List.mem_map_of_mem hq)
        simp [this]
      · simp [update_nil _ (ha p (by simp))]
    rw [List.foldl_cons, e1, ih]
    · simp
    · simpa [MG.labels] using hn
    · intro q hq; exact ha q (by simp [hq])

theorem fromData_closed {nodes : Dict L (Attr A)} {es : List (L × L × Attr A)} (hn : nodes.keys.Nodup)
    (ha : ∀ p ∈ nodes, (Dict.keys p.2).Nodup) (he : ∀ e ∈ es, e.1 ∈ nodes.keys ∧ e.2.1 ∈ nodes.keys) :
    Net.fromData nodes es = (.ok (), ofMG ⟨nodes, toEdges es, none⟩) ∧ (⟨nodes, toEdges es, none⟩ : MG L A).Valid := by
  obtain ⟨a1, a2⟩ := forEach_ofMG (f := fun p : L × Attr A => Net.addNode p.1 p.2)
    (F := fun g p => MG.addNode g p.1 p.2)
    (fun g b hg => ⟨addNode_ofMG hg b.1 b.2, valid_addNode hg b.1 b.2⟩) nodes MG.empty valid_empty
  rw [foldl_addNode_mg nodes MG.empty (by simpa [MG.empty, MG.labels, Dict.keys] using hn) ha] at a1 a2
  obtain ⟨b1, b2⟩ := forEach_ofMG (f := fun e : L × L × Attr A => Net.addEdge e.1 e.2.1 e.2.2)
    (F := fun g e => MG.addEdge g e.1 e.2.1 e.2.2)
    (fun g b hg => ⟨addEdge_ofMG hg b.1 b.2.1 b.2.2, valid_addEdge hg b.1 b.2.1 b.2.2⟩) es _ a2
  rw [foldl_addEdge_closed es _ (by simpa [MG.empty, MG.labels, Dict.keys] using he)] at b1 b2
  rw [ofMG_empty] at a1
  simp only [MG.empty, List.nil_append] at b1 b2 a1
  refine ⟨?_, b2⟩
  unfold Net.fromData
  exact (NetM.bind_ok a1).trans b1

end Verif
