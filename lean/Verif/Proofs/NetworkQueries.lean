import Verif.Proofs.Network2
/-! # Lemmas: queries on the representation of a multigraph -/

namespace Verif
open MG

variable {L A : Type} [DecidableEq L]

/-- The `edges` generator in terms of the abstract multigraph. -/
theorem edges_ofMG (g : MG L A) : (ofMG g).edges =
    g.labels.flatMap (fun j => (sources g.edges j).flatMap (fun i => (between g.edges i j).map (fun a => (i, j, a)))) := by
  simp only [Net.edges, ofMG, MG.labels, List.flatMap_map, nodeOf, incomingOf, Dict.ofKeys]

theorem perm_filter_split {α : Type} (l : List α) (p : α → Bool) :
    (l.filter p ++ l.filter (fun x => !p x)).Perm l := by
  induction l with
  | nil => simp
  | cons a l ih =>
    cases h : p a
    · simp only [List.filter_cons, h, Bool.false_eq_true, if_false, Bool.not_false, if_true]
      exact List.perm_middle.trans (ih.cons a)
    · simp only [List.filter_cons, h, Bool.not_true, Bool.false_eq_true, if_false, if_true, List.cons_append]
      exact ih.cons a

/-- Partitioning a list by a key that ranges over a repetition-free list of keys. -/
theorem perm_flatMap_filter {α : Type} (ks : List L) (hks : ks.Nodup) (l : List α) (f : α → L)
    (h : ∀ x ∈ l, f x ∈ ks) : (ks.flatMap (fun k => l.filter (fun x => decide (f x = k)))).Perm l := by
  induction ks generalizing l with
  | nil =>
    cases l with
    | nil => simp
    | cons a l => exact absurd (h a (by simp)) (by simp)
  | cons k ks ih =>
    simp only [List.nodup_cons] at hks
    simp only [List.flatMap_cons]
    have hrest : ks.flatMap (fun k' => l.filter (fun x => decide (f x = k'))) =
        ks.flatMap (fun k' => (l.filter (fun x => !decide (f x = k))).filter (fun x => decide (f x = k'))) := by
      simp only [List.flatMap_def]
      congr 1
      apply List.map_congr_left
      intro k' hk'
      rw [List.filter_filter]
      apply List.filter_congr
      intro x _
      by_cases hx : f x = k'
      · have : ¬ f x = k := by rw [hx]; rintro rfl; exact hks.1 hk'
        simp [hx]; rintro rfl; exact hks.1 hk'
      · simp [hx]
    rw [hrest]
    refine List.Perm.trans (List.Perm.append_left _ (ih hks.2 _ ?_)) (perm_filter_split _ _)
    intro x hx
    simp only [List.mem_filter, Bool.not_eq_true', decide_eq_false_iff_not] at hx
    have := h x hx.1
    simp only [List.mem_cons] at this
    exact this.resolve_left hx.2

/-- `edges` yields every edge of the multigraph exactly once. -/
theorem edges_perm {g : MG L A} (hg : g.Valid) :
    ((ofMG g).edges).Perm (g.edges.map (fun e => (e.src, e.dst, e.attr))) := by
  rw [edges_ofMG]
  have h1 : ∀ j ∈ g.labels,
      ((sources g.edges j).flatMap (fun i => (between g.edges i j).map (fun a => (i, j, a)))).Perm
        ((g.edges.filter (fun e => decide (e.dst = j))).map (fun e => (e.src, e.dst, e.attr))) := by
    intro j _
    have hp := perm_flatMap_filter (sources g.edges j) (nodup_sources _ _)
      (g.edges.filter (fun e => decide (e.dst = j))) Edge.src (by
        intro e he
        simp only [List.mem_filter, decide_eq_true_eq] at he
        exact mem_sources.2 ⟨e, he.1, rfl, he.2⟩)
    have hp' := hp.map (fun e => (e.src, e.dst, e.attr))
    rw [List.map_flatMap] at hp'
    refine List.Perm.trans (List.Perm.of_eq ?_) hp'
    simp only [List.flatMap_def]
    congr 1
    apply List.map_congr_left
    intro i _
    unfold between
    rw [List.map_map, List.filter_filter]
    apply List.map_congr_left
    intro e he
    simp only [List.mem_filter, Bool.and_eq_true, decide_eq_true_eq] at he
    simp [he.2.1, he.2.2]
  have h2 := perm_flatMap_filter g.labels hg.nodup g.edges Edge.dst (fun e he => (hg.closed e he).2)
  have h3 := h2.map (fun e => (e.src, e.dst, e.attr))
  rw [List.map_flatMap] at h3
  refine List.Perm.trans ?_ h3
  clear h2 h3
  generalize g.labels = ls at h1
  induction ls with
  | nil => simp
  | cons j ls ih =>
    simp only [List.flatMap_cons]
    exact (h1 j (by simp)).append (ih (fun j hj => h1 j (by simp [hj])))

theorem length_filter_edges {g : MG L A} (hg : g.Valid) (p : L → L → Bool) :
    (((ofMG g).edges).filter (fun t => p t.1 t.2.1)).length = (g.edges.filter (fun e => p e.src e.dst)).length := by
  have := ((edges_perm hg).filter (fun t => p t.1 t.2.1)).length_eq
  rw [this, List.filter_map, List.length_map]; rfl

theorem get_ofMG_of_mem {g : MG L A} {x : L} (h : x ∈ g.labels) :
    ∃ a, (ofMG g).nodes.get x = .ok (nodeOf g.edges x a) := by
  obtain ⟨a, _, h2⟩ := get?_ofMG_of_mem h
  exact ⟨a, by rw [Dict.get_eq_ok_iff, h2]⟩

theorem get_ofMG_of_not_mem {g : MG L A} {x : L} (h : x ∉ g.labels) :
    (ofMG g).nodes.get x = .error .keyError := by
  rw [Dict.get_eq_error_iff, keys_ofMG]; exact ⟨h, rfl⟩

theorem inDegree_ofMG {g : MG L A} {x : L} (h : x ∈ g.labels) :
    (ofMG g).inDegree x = .ok (inCount g.edges x : Int) := by
  obtain ⟨a, ha⟩ := get_ofMG_of_mem h
  simp [Net.inDegree, ha, Except.map, nodeOf]

theorem outDegree_ofMG {g : MG L A} {x : L} (h : x ∈ g.labels) :
    (ofMG g).outDegree x = .ok (outCount g.edges x : Int) := by
  obtain ⟨a, ha⟩ := get_ofMG_of_mem h
  simp [Net.outDegree, ha, Except.map, nodeOf]

theorem degree_ofMG {g : MG L A} {x : L} (h : x ∈ g.labels) :
    (ofMG g).degree x = .ok ((outCount g.edges x : Int) + inCount g.edges x) := by
  obtain ⟨a, ha⟩ := get_ofMG_of_mem h
  simp [Net.degree, ha, Except.map, nodeOf]

theorem inEdges_ofMG {g : MG L A} {x : L} (h : x ∈ g.labels) :
    (ofMG g).inEdges x = .ok (incomingOf g.edges x) := by
  obtain ⟨a, ha⟩ := get_ofMG_of_mem h
  simp [Net.inEdges, ha, Except.map, nodeOf]

theorem labels_ofMG (g : MG L A) : (ofMG g).labels = g.labels := keys_ofMG g

theorem size_ofMG (g : MG L A) : (ofMG g).size = g.labels.length := by
  simp [Net.size, ofMG, MG.labels]

theorem hasEdge_ofMG {g : MG L A} (hg : g.Valid) (i j : L) :
    (ofMG g).hasEdge i j = decide (i ∈ sources g.edges j) := by
  unfold Net.hasEdge
  by_cases h : j ∈ g.labels
  · obtain ⟨a, _, h2⟩ := get?_ofMG_of_mem h
    rw [h2]
    simp only [nodeOf]
    rw [Bool.eq_iff_iff, Dict.has_iff, keys_incomingOf]; simp
  · rw [get?_ofMG_of_not_mem h]
    simp only
    symm
    rw [decide_eq_false_iff_not]
    intro hs; exact h (mem_labels_of_mem_sources hg hs).2

theorem edge_ofMG {g : MG L A} (hg : g.Valid) (i j : L) :
    (ofMG g).edge i j = if between g.edges i j = [] then .error .keyError else .ok (between g.edges i j) := by
  unfold Net.edge
  by_cases h : j ∈ g.labels
  · obtain ⟨a, ha⟩ := get_ofMG_of_mem h
    rw [ha]
    simp only [nodeOf]
    by_cases hs : i ∈ sources g.edges j
    · rw [if_neg (by rw [between_eq_nil_iff]; exact fun h => h hs), Dict.get_eq_ok_iff, get?_incomingOf, if_pos hs]
    · rw [if_pos (between_eq_nil_iff.2 hs), Dict.get_eq_error_iff, keys_incomingOf]; exact ⟨hs, rfl⟩
  · rw [get_ofMG_of_not_mem h, if_pos]
    rw [between_eq_nil_iff]
    intro hs; exact h (mem_labels_of_mem_sources hg hs).2

theorem ofMG_empty : (ofMG MG.empty : Net L A) = Net.empty := rfl

/-- Every network reachable through the API represents a valid multigraph. -/
theorem run_empty (ops : List (Net.Op L A)) :
    Net.run Net.empty ops = ofMG (MG.run MG.empty ops) ∧ (MG.run MG.empty ops).Valid := by
  have := run_ofMG (valid_empty (L := L) (A := A)) ops
  rwa [ofMG_empty] at this

theorem filter_flatMap' {α β : Type} (l : List α) (f : α → List β) (p : β → Bool) :
    (l.flatMap f).filter p = l.flatMap (fun a => (f a).filter p) := by
  induction l with
  | nil => rfl
  | cons a l ih => simp [List.flatMap_cons, ih]

theorem flatMap_filter' {α β : Type} (l : List α) (f : α → List β) (q : α → Bool) :
    (l.filter q).flatMap f = l.flatMap (fun a => if q a then f a else []) := by
  induction l with
  | nil => rfl
  | cons a l ih => cases h : q a <;> simp [List.filter_cons, h, ih, List.flatMap_cons]

theorem flatMap_congr' {α β : Type} {l : List α} {f g : α → List β} (h : ∀ a ∈ l, f a = g a) :
    l.flatMap f = l.flatMap g := by
  simp only [List.flatMap_def]; congr 1; exact List.map_congr_left h

theorem flatMap_nil' {α β : Type} (l : List α) : l.flatMap (fun _ => ([] : List β)) = [] := by
  induction l with
  | nil => rfl
  | cons a l ih => simp [List.flatMap_cons]

theorem edges_removeEdge {g : MG L A} (i j : L) :
    (ofMG (MG.removeEdge g i j)).edges =
      (ofMG g).edges.filter (fun t => !(decide (t.1 = i) && decide (t.2.1 = j))) := by
  rw [edges_ofMG, edges_ofMG, filter_flatMap']
  have : (MG.removeEdge g i j).labels = g.labels := rfl
  rw [this]
  apply flatMap_congr'
  intro b _
  rw [filter_flatMap']
  simp only [MG.removeEdge]
  rw [sources_filter_pair]
  by_cases hb : b = j
  · subst hb
    rw [if_pos rfl, flatMap_filter']
    apply flatMap_congr'
    intro a _
    by_cases ha : a = i
    · subst ha; simp
    · simp only [ha, ne_eq, not_false_eq_true, decide_true, if_true]
      rw [between_filter_pair _ _ _ _ _ (fun h => ha h.1)]
      symm; rw [List.filter_eq_self]
      intro t ht
      obtain ⟨x, _, rfl⟩ := List.mem_map.1 ht
      simp [ha]
  · rw [if_neg hb]
    apply flatMap_congr'
    intro a _
    rw [between_filter_pair _ _ _ _ _ (fun h => hb h.2)]
    symm; rw [List.filter_eq_self]
    intro t ht
    obtain ⟨x, _, rfl⟩ := List.mem_map.1 ht
    simp [hb]

theorem edges_removeNode {g : MG L A} (x : L) :
    (ofMG (MG.removeNode g x)).edges =
      (ofMG g).edges.filter (fun t => decide (t.1 ≠ x) && decide (t.2.1 ≠ x)) := by
  rw [edges_ofMG, edges_ofMG, filter_flatMap']
  have : (MG.removeNode g x).labels = g.labels.filter (fun y => decide (y ≠ x)) := by
    simp only [MG.removeNode, MG.labels, List.filter_map]; rfl
  rw [this, flatMap_filter']
  apply flatMap_congr'
  intro b _
  by_cases hb : b = x
  · subst hb
    simp only [ne_eq, not_true_eq_false, decide_false, Bool.false_eq_true, if_false]
    symm; rw [List.filter_eq_nil_iff]
    intro t ht
    simp only [List.mem_flatMap, List.mem_map] at ht
    obtain ⟨a, _, y, _, rfl⟩ := ht
    simp
  · simp only [ne_eq, hb, not_false_eq_true, decide_true, if_true]
    rw [filter_flatMap']
    simp only [MG.removeNode]
    have hs : sources (g.edges.filter (fun e => decide (e.src ≠ x) && decide (e.dst ≠ x))) b =
        (sources g.edges b).filter (fun y => decide (y ≠ x)) := by
      unfold sources
      rw [← dedup_filter, List.filter_map, List.filter_filter, List.filter_filter]
      congr 2
      apply List.filter_congr
      intro e _
      by_cases h1 : e.dst = b
      · simp [h1, hb]
      · simp [h1]
    have hbt : ∀ a, a ≠ x → between (g.edges.filter (fun e => decide (e.src ≠ x) && decide (e.dst ≠ x))) a b =
        between g.edges a b := by
      intro a ha
      unfold between
      rw [List.filter_filter]
      congr 1
      apply List.filter_congr
      intro e _
      by_cases h1 : e.dst = b <;> by_cases h2 : e.src = a <;> simp [h1, h2, hb, ha]
    rw [hs, flatMap_filter']
    apply flatMap_congr'
    intro a _
    by_cases ha : a = x
    · subst ha
      simp
    · simp only [ne_eq, ha, not_false_eq_true, decide_true, if_true]
      rw [hbt a ha]
      symm; rw [List.filter_eq_self]
      intro t ht
      obtain ⟨y, _, rfl⟩ := List.mem_map.1 ht
      simp [ha, hb]

theorem sum_length_filter {α : Type} (ks : List L) (hks : ks.Nodup) (l : List α) (f : α → L)
    (h : ∀ x ∈ l, f x ∈ ks) : (ks.map (fun k => (l.filter (fun x => decide (f x = k))).length)).sum = l.length := by
  have := (perm_flatMap_filter ks hks l f h).length_eq
  rw [← this, List.length_flatMap]

end Verif
