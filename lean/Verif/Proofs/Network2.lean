import Verif.Proofs.Network
/-! # Lemmas: removals, updates and the simulation theorem for `Network` -/

namespace Verif
open MG

variable {L A : Type} [DecidableEq L]

theorem getNode_ok {g : MG L A} {x : L} (h : x ∈ g.labels) :
    ∃ a, g.nodes.get? x = some a ∧ Net.getNode x (ofMG g) = (.ok (nodeOf g.edges x a), ofMG g) := by
  obtain ⟨a, h1, h2⟩ := get?_ofMG_of_mem h
  exact ⟨a, h1, by simp [Net.getNode, Dict.get, h2]⟩

theorem getNode_error {g : MG L A} {x : L} (h : x ∉ g.labels) :
    Net.getNode x (ofMG g) = (.error .keyError, ofMG g) := by
  simp [Net.getNode, Dict.get, get?_ofMG_of_not_mem h]

/-! ## filtered edge lists -/

theorem sources_filter_pair (es : List (Edge L A)) (i j k : L) :
    sources (es.filter (fun e => !(decide (e.src = i) && decide (e.dst = j)))) k =
      if k = j then (sources es k).filter (fun x => decide (x ≠ i)) else sources es k := by
  unfold sources
  by_cases h : k = j
  · subst h
    rw [if_pos rfl, ← dedup_filter, List.filter_map, List.filter_filter, List.filter_filter]
    congr 2
    apply List.filter_congr
    intro e _
    by_cases h1 : e.dst = k <;> by_cases h2 : e.src = i <;> simp [h1, h2]
  · rw [if_neg h, List.filter_filter]
    congr 2
    apply List.filter_congr
    intro e _
    by_cases h1 : e.dst = k
    · have : ¬ e.dst = j := by rw [h1]; exact h
      simp [h1, h]
    · simp [h1]

theorem between_filter_pair (es : List (Edge L A)) (i j a b : L) (h : ¬ (a = i ∧ b = j)) :
    between (es.filter (fun e => !(decide (e.src = i) && decide (e.dst = j)))) a b = between es a b := by
  unfold between
  rw [List.filter_filter]
  congr 1
  apply List.filter_congr
  intro e _
  by_cases h1 : e.src = a <;> by_cases h2 : e.dst = b <;> simp [h1, h2]
  exact Decidable.not_and_iff_not_or_not.1 h

theorem length_filter_split {α : Type} (l : List α) (p q : α → Bool) :
    (l.filter p).length = (l.filter (fun e => p e && !q e)).length + (l.filter (fun e => p e && q e)).length := by
  induction l with
  | nil => rfl
  | cons a l ih => cases hp : p a <;> cases hq : q a <;> simp [List.filter_cons, hp, hq, ih] <;> omega

theorem length_between (es : List (Edge L A)) (i j : L) :
    (between es i j).length = (es.filter (fun e => decide (e.src = i) && decide (e.dst = j))).length := by
  simp [between]

theorem incomingOf_filter_pair (es : List (Edge L A)) (i j k : L) :
    incomingOf (es.filter (fun e => !(decide (e.src = i) && decide (e.dst = j)))) k =
      if k = j then (incomingOf es k).erase i else incomingOf es k := by
  by_cases h : k = j
  · subst h
    rw [if_pos rfl]
    unfold incomingOf Dict.erase Dict.ofKeys
    rw [sources_filter_pair, if_pos rfl, List.filter_map]
    apply List.map_congr_left
    intro x hx
    simp only [List.mem_filter, decide_eq_true_eq] at hx
    simp only
    rw [between_filter_pair]; exact fun h => hx.2 h.1
  · rw [if_neg h]
    unfold incomingOf Dict.ofKeys
    rw [sources_filter_pair, if_neg h]
    apply List.map_congr_left
    intro x _
    simp only
    rw [between_filter_pair]; exact fun h' => h h'.2

theorem nodeOf_filter_pair (es : List (Edge L A)) (i j k : L) (at' : Attr A) :
    nodeOf (es.filter (fun e => !(decide (e.src = i) && decide (e.dst = j)))) k at' =
      { nodeOf es k at' with
        inDeg := (nodeOf es k at').inDeg - (if k = j then ((between es i j).length : Int) else 0)
        outDeg := (nodeOf es k at').outDeg - (if k = i then ((between es i j).length : Int) else 0)
        incoming := if k = j then (nodeOf es k at').incoming.erase i else (nodeOf es k at').incoming
        outgoing := if k = i then (nodeOf es k at').outgoing.filter (fun x => decide (x ≠ j))
                    else (nodeOf es k at').outgoing } := by
  have e1 : (inCount (es.filter (fun e => !(decide (e.src = i) && decide (e.dst = j)))) k : Int) =
      inCount es k - (if k = j then ((between es i j).length : Int) else 0) := by
    unfold inCount
    rw [List.filter_filter, length_between]
    by_cases h : k = j
    · subst h
      rw [if_pos rfl, length_filter_split es (fun e => decide (e.dst = k)) (fun e => decide (e.src = i))]
      have : (es.filter (fun e => decide (e.dst = k) && !(decide (e.src = i) && decide (e.dst = k)))) =
          es.filter (fun e => decide (e.dst = k) && !decide (e.src = i)) := by
        apply List.filter_congr; intro e _
        by_cases h1 : e.dst = k <;> simp [h1]
      rw [this]
      have : (es.filter (fun e => decide (e.src = i) && decide (e.dst = k))) =
          es.filter (fun e => decide (e.dst = k) && decide (e.src = i)) := by
        apply List.filter_congr; intro e _; exact Bool.and_comm _ _
      rw [this]; omega
    · rw [if_neg h]
      have : (es.filter (fun e => decide (e.dst = k) && !(decide (e.src = i) && decide (e.dst = j)))) =
          es.filter (fun e => decide (e.dst = k)) := by
        apply List.filter_congr; intro e _
        by_cases h1 : e.dst = k
        · simp [h1, h]
        · simp [h1]
      rw [this]; omega
  have e2 : (outCount (es.filter (fun e => !(decide (e.src = i) && decide (e.dst = j)))) k : Int) =
      outCount es k - (if k = i then ((between es i j).length : Int) else 0) := by
    unfold outCount
    rw [List.filter_filter, length_between]
    by_cases h : k = i
    · subst h
      rw [if_pos rfl, length_filter_split es (fun e => decide (e.src = k)) (fun e => decide (e.dst = j))]
      have : (es.filter (fun e => decide (e.src = k) && !(decide (e.src = k) && decide (e.dst = j)))) =
          es.filter (fun e => decide (e.src = k) && !decide (e.dst = j)) := by
        apply List.filter_congr; intro e _
        by_cases h1 : e.src = k <;> simp [h1]
      rw [this]; omega
    · rw [if_neg h]
      have : (es.filter (fun e => decide (e.src = k) && !(decide (e.src = i) && decide (e.dst = j)))) =
          es.filter (fun e => decide (e.src = k)) := by
        apply List.filter_congr; intro e _
        by_cases h1 : e.src = k
        · simp [h1, h]
        · simp [h1]
      rw [this]; omega
  have e4 : ((es.filter (fun e => !(decide (e.src = i) && decide (e.dst = j)))).filter
        (fun e => decide (e.src = k))).map Edge.dst =
      if k = i then ((es.filter (fun e => decide (e.src = k))).map Edge.dst).filter (fun x => decide (x ≠ j))
      else (es.filter (fun e => decide (e.src = k))).map Edge.dst := by
    by_cases h : k = i
    · subst h
      rw [if_pos rfl, List.filter_map, List.filter_filter, List.filter_filter]
      congr 1
      apply List.filter_congr; intro e _
      by_cases h1 : e.src = k <;> by_cases h2 : e.dst = j <;> simp [h1, h2]
    · rw [if_neg h, List.filter_filter]
      congr 1
      apply List.filter_congr; intro e _
      by_cases h1 : e.src = k
      · simp [h1, h]
      · simp [h1]
  simp only [nodeOf, e1, e2, e4, incomingOf_filter_pair]

theorem valid_of_subset {g g' : MG L A} (hg : g.Valid) (hl : g'.labels = g.labels)
    (hs : ∀ e ∈ g'.edges, ∃ e' ∈ g.edges, e'.src = e.src ∧ e'.dst = e.dst) : g'.Valid := by
  refine ⟨by rw [hl]; exact hg.nodup, ?_⟩
  intro e he
  obtain ⟨e', h1, h2, h3⟩ := hs e he
  rw [hl, ← h2, ← h3]; exact hg.closed e' h1

theorem valid_removeEdge {g : MG L A} (hg : g.Valid) (i j : L) : (MG.removeEdge g i j).Valid := by
  refine valid_of_subset (g' := MG.removeEdge g i j) hg rfl ?_
  intro e he
  exact ⟨e, (List.mem_filter.1 he).1, rfl, rfl⟩

theorem mem_labels_of_mem_sources {g : MG L A} (hg : g.Valid) {i j : L} (h : i ∈ sources g.edges j) :
    i ∈ g.labels ∧ j ∈ g.labels := by
  obtain ⟨e, he, rfl, rfl⟩ := mem_sources.1 h
  exact hg.closed e he

theorem erase_if_has {V : Type} (d : Dict L V) (i : L) : (if d.has i then d.erase i else d) = d.erase i := by
  split
  · rfl
  · rename_i h
    rw [Dict.erase_of_not_mem]; rw [← Dict.has_iff]; exact h

theorem removeEdge_ofMG {g : MG L A} (hg : g.Valid) (i j : L) :
    Net.removeEdge i j (ofMG g) =
      if between g.edges i j = [] then (.error .keyError, ofMG g) else (.ok (), ofMG (MG.removeEdge g i j)) := by
  unfold Net.removeEdge
  by_cases hj : j ∈ g.labels
  · obtain ⟨a, h1, h2⟩ := getNode_ok hj
    rw [NetM.bind_ok h2]
    by_cases hb : i ∈ sources g.edges j
    · rw [if_neg (by rw [between_eq_nil_iff]; exact fun h => h hb)]
      have hi := (mem_labels_of_mem_sources hg hb).1
      have hget : (nodeOf g.edges j a).incoming.get i = .ok (between g.edges i j) := by
        rw [Dict.get_eq_ok_iff]; simp [nodeOf, get?_incomingOf, hb]
      rw [hget, NetM.bind_ok (x := NetM.lift _) rfl]
      unfold Net.removeOutgoing
      rw [NetM.bind_ok (withNode_ok (by rw [keys_ofMG]; exact hi) _)]
      unfold Net.decOut
      rw [NetM.bind_ok (withNode_ok (by simp only [Dict.keys_modify]; rw [keys_ofMG]; exact hi) _)]
      unfold Net.decIn
      rw [NetM.bind_ok (withNode_ok (by simp only [Dict.keys_modify]; rw [keys_ofMG]; exact hj) _)]
      unfold Net.removeIncoming
      rw [withNode_ok (by simp only [Dict.keys_modify]; rw [keys_ofMG]; exact hj)]
      simp only [ofMG, Dict.modify, List.map_map, MG.removeEdge, erase_if_has]
      congr 2
      apply List.map_congr_left
      intro p _
      rw [nodeOf_filter_pair]
      simp only [Function.comp]
      by_cases h1 : p.1 = j <;> by_cases h2 : p.1 = i <;> simp_all
    · rw [if_pos (between_eq_nil_iff.2 hb)]
      have hget : (nodeOf g.edges j a).incoming.get i = .error .keyError := by
        rw [Dict.get_eq_error_iff]; refine ⟨?_, rfl⟩; simp only [nodeOf, keys_incomingOf]; exact hb
      rw [hget, NetM.bind_error (x := NetM.lift _) rfl]
  · rw [NetM.bind_error (getNode_error hj)]
    rw [if_pos]
    rw [between_eq_nil_iff]
    intro h; exact hj (mem_labels_of_mem_sources hg h).2

/-! ## remove_node -/

theorem foldl_if_dict {V B : Type} (d : Dict L V) (hd : d.keys.Nodup) (f : L × V → B → B) (k : L) (v : B) :
    d.foldl (fun v b => if b.1 = k then f b v else v) v =
      match d.get? k with
      | none => v
      | some w => f (k, w) v := by
  induction d generalizing v with
  | nil => rfl
  | cons p d ih =>
    obtain ⟨a, b⟩ := p
    simp only [Dict.keys_cons, List.nodup_cons] at hd
    simp only [List.foldl_cons, Dict.get?_cons]
    by_cases h : a = k
    · subst h
      have := ih hd.2 (f (a, b) v)
      rw [if_pos rfl, if_pos rfl, this, Dict.get?_eq_none_iff.2 hd.1]
    · rw [if_neg h, if_neg h]
      exact ih hd.2 v

theorem foldl_dec (js : List L) (x k : L) (v : Node L A) :
    js.foldl (fun v j => if j = k then
        { v with inDeg := v.inDeg - 1, incoming := v.incoming.erase x } else v) v =
      { v with inDeg := v.inDeg - (js.filter (fun j => decide (j = k))).length,
               incoming := if k ∈ js then v.incoming.erase x else v.incoming } := by
  induction js generalizing v with
  | nil => simp
  | cons j js ih =>
    simp only [List.foldl_cons]
    by_cases h : j = k
    · subst h
      rw [if_pos rfl, ih]
      have : (v.incoming.erase x).erase x = v.incoming.erase x := by
        apply Dict.erase_of_not_mem
        rw [Dict.keys_erase]; simp
      simp only [List.filter_cons, decide_true, if_true, List.length_cons, List.mem_cons, true_or, this]
      simp only [ite_self]
      congr 1
      omega
    · rw [if_neg h, ih]
      have h' : ¬ k = j := fun e => h e.symm
      simp [List.filter_cons, h, h']

theorem nodeOf_filter_node (es : List (Edge L A)) (x k : L) (at' : Attr A) (hk : k ≠ x) :
    nodeOf (es.filter (fun e => decide (e.src ≠ x) && decide (e.dst ≠ x))) k at' =
      { nodeOf es k at' with
        inDeg := (nodeOf es k at').inDeg - ((between es x k).length : Int)
        outDeg := (nodeOf es k at').outDeg - ((between es k x).length : Int)
        incoming := (nodeOf es k at').incoming.erase x
        outgoing := (nodeOf es k at').outgoing.filter (fun y => decide (y ≠ x)) } := by
  have e1 : (inCount (es.filter (fun e => decide (e.src ≠ x) && decide (e.dst ≠ x))) k : Int) =
      inCount es k - ((between es x k).length : Int) := by
    unfold inCount
    rw [List.filter_filter, length_between,
      length_filter_split es (fun e => decide (e.dst = k)) (fun e => decide (e.src = x))]
    have : (es.filter (fun e => decide (e.dst = k) && (decide (e.src ≠ x) && decide (e.dst ≠ x)))) =
        es.filter (fun e => decide (e.dst = k) && !decide (e.src = x)) := by
      apply List.filter_congr; intro e _
      by_cases h1 : e.dst = k
      · simp [h1, hk]
      · simp [h1]
    rw [this]
    have : (es.filter (fun e => decide (e.src = x) && decide (e.dst = k))) =
        es.filter (fun e => decide (e.dst = k) && decide (e.src = x)) := by
      apply List.filter_congr; intro e _; exact Bool.and_comm _ _
    rw [this]; omega
  have e2 : (outCount (es.filter (fun e => decide (e.src ≠ x) && decide (e.dst ≠ x))) k : Int) =
      outCount es k - ((between es k x).length : Int) := by
    unfold outCount
    rw [List.filter_filter, length_between,
      length_filter_split es (fun e => decide (e.src = k)) (fun e => decide (e.dst = x))]
    have : (es.filter (fun e => decide (e.src = k) && (decide (e.src ≠ x) && decide (e.dst ≠ x)))) =
        es.filter (fun e => decide (e.src = k) && !decide (e.dst = x)) := by
      apply List.filter_congr; intro e _
      by_cases h1 : e.src = k
      · simp [h1, hk]
      · simp [h1]
    rw [this]; omega
  have e3 : incomingOf (es.filter (fun e => decide (e.src ≠ x) && decide (e.dst ≠ x))) k =
      (incomingOf es k).erase x := by
    unfold incomingOf Dict.erase Dict.ofKeys
    rw [List.filter_map]
    have hs : sources (es.filter (fun e => decide (e.src ≠ x) && decide (e.dst ≠ x))) k =
        (sources es k).filter (fun y => decide (y ≠ x)) := by
      unfold sources
      rw [← dedup_filter, List.filter_map, List.filter_filter, List.filter_filter]
      congr 2
      apply List.filter_congr
      intro e _
      by_cases h1 : e.dst = k
      · simp [h1, hk]
      · simp [h1]
    rw [hs]
    apply List.map_congr_left
    intro y hy
    simp only [List.mem_filter, decide_eq_true_eq] at hy
    congr 1
    unfold between
    simp only
    rw [List.filter_filter]
    congr 1
    apply List.filter_congr
    intro e _
    by_cases h1 : e.dst = k <;> by_cases h2 : e.src = y <;> simp [h1, h2, hk, hy.2]
  have e4 : ((es.filter (fun e => decide (e.src ≠ x) && decide (e.dst ≠ x))).filter
        (fun e => decide (e.src = k))).map Edge.dst =
      ((es.filter (fun e => decide (e.src = k))).map Edge.dst).filter (fun y => decide (y ≠ x)) := by
    rw [List.filter_map, List.filter_filter, List.filter_filter]
    congr 1
    apply List.filter_congr; intro e _
    by_cases h1 : e.src = k
    · simp [h1, hk]
    · simp [h1]
  simp only [nodeOf, e1, e2, e3, e4]

theorem valid_removeNode {g : MG L A} (hg : g.Valid) (x : L) : (MG.removeNode g x).Valid := by
  have hl : (MG.removeNode g x).labels = g.labels.filter (fun y => decide (y ≠ x)) := by
    simp only [MG.removeNode, MG.labels, List.filter_map]; rfl
  refine ⟨by rw [hl]; exact hg.nodup.filter _, ?_⟩
  intro e he
  simp only [MG.removeNode, List.mem_filter, Bool.and_eq_true, decide_eq_true_eq] at he
  have := hg.closed e he.1
  rw [hl]
  simp only [List.mem_filter, decide_eq_true_eq]
  exact ⟨⟨this.1, he.2.1⟩, ⟨this.2, he.2.2⟩⟩

theorem removeNode_ofMG {g : MG L A} (hg : g.Valid) (x : L) :
    Net.removeNode x (ofMG g) =
      if x ∈ g.labels then (.ok (), ofMG (MG.removeNode g x)) else (.error .keyError, ofMG g) := by
  unfold Net.removeNode
  by_cases hx : x ∈ g.labels
  · rw [if_pos hx]
    obtain ⟨a, h1, h2⟩ := getNode_ok hx
    rw [NetM.bind_ok h2]
    -- first loop
    have loop1 := forEach_withNode (A := A) (nodeOf g.edges x a).incoming (fun p => p.1)
      (fun p d => { d with outDeg := d.outDeg - (p.2.length : Int),
                           outgoing := d.outgoing.filter (fun y => decide (y ≠ x)) })
      (fun p => do
        Net.decOut p.1 (p.2.length : Int)
        Net.removeOutgoing p.1 x)
      (by
        intro b n hb
        unfold Net.decOut Net.removeOutgoing
        rw [NetM.bind_ok (withNode_ok hb _), withNode_ok (by simpa using hb)]
        simp only [Dict.modify, List.map_map]
        congr 2
        apply List.map_congr_left
        intro q _
        by_cases hq : q.1 = b.1 <;> simp [hq, Function.comp])
      (ofMG g)
      (by
        intro b hb
        have : b.1 ∈ (incomingOf g.edges x).keys := List.mem_map.2 ⟨b, hb, rfl⟩
        rw [keys_incomingOf] at this
        rw [keys_ofMG]; exact (mem_labels_of_mem_sources hg this).1)
    rw [NetM.bind_ok loop1]
    -- the state after the first loop
    have hstate : (ofMG g).nodes.map (fun p => (p.1, (nodeOf g.edges x a).incoming.foldl
        (fun v b => if b.1 = p.1 then { v with outDeg := v.outDeg - (b.2.length : Int),
                                               outgoing := v.outgoing.filter (fun y => decide (y ≠ x)) } else v) p.2)) =
        g.nodes.map (fun p => (p.1,
          { nodeOf g.edges p.1 p.2 with
            outDeg := (nodeOf g.edges p.1 p.2).outDeg - ((between g.edges p.1 x).length : Int),
            outgoing := (nodeOf g.edges p.1 p.2).outgoing.filter (fun y => decide (y ≠ x)) })) := by
      simp only [ofMG, List.map_map]
      apply List.map_congr_left
      intro p _
      simp only [Function.comp]
      rw [foldl_if_dict (nodeOf g.edges x a).incoming (nodup_keys_incomingOf _ _)]
      simp only [nodeOf, get?_incomingOf]
      by_cases hs : p.1 ∈ sources g.edges x
      · simp [hs]
      · have hb := between_eq_nil_iff.2 hs
        simp only [hs, if_false, hb, List.length_nil]
        have : ((g.edges.filter (fun e => decide (e.src = p.1))).map Edge.dst).filter (fun y => decide (y ≠ x)) =
            (g.edges.filter (fun e => decide (e.src = p.1))).map Edge.dst := by
          rw [List.filter_eq_self]
          intro y hy
          simp only [List.mem_map, List.mem_filter, decide_eq_true_eq] at hy
          obtain ⟨e, ⟨he, hes⟩, rfl⟩ := hy
          simp only [decide_eq_true_eq]
          intro hd
          exact hs (mem_sources.2 ⟨e, he, hes, hd⟩)
        rw [this]; simp
    rw [hstate]
    -- second read
    have hget2 : Net.getNode x (⟨g.nodes.map (fun p => (p.1,
          { nodeOf g.edges p.1 p.2 with
            outDeg := (nodeOf g.edges p.1 p.2).outDeg - ((between g.edges p.1 x).length : Int),
            outgoing := (nodeOf g.edges p.1 p.2).outgoing.filter (fun y => decide (y ≠ x)) })), (ofMG g).rotation⟩ : Net L A)
        = (.ok ({ nodeOf g.edges x a with
            outDeg := (nodeOf g.edges x a).outDeg - ((between g.edges x x).length : Int),
            outgoing := (nodeOf g.edges x a).outgoing.filter (fun y => decide (y ≠ x)) }),
          ⟨g.nodes.map (fun p => (p.1,
          { nodeOf g.edges p.1 p.2 with
            outDeg := (nodeOf g.edges p.1 p.2).outDeg - ((between g.edges p.1 x).length : Int),
            outgoing := (nodeOf g.edges p.1 p.2).outgoing.filter (fun y => decide (y ≠ x)) })), (ofMG g).rotation⟩) := by
      have := get?_mapVal g.nodes (fun k v => ({ nodeOf g.edges k v with
            outDeg := (nodeOf g.edges k v).outDeg - ((between g.edges k x).length : Int),
            outgoing := (nodeOf g.edges k v).outgoing.filter (fun y => decide (y ≠ x)) } : Node L A)) x
      simp only [Net.getNode, Dict.get, this, h1, Option.map_some]
    rw [NetM.bind_ok hget2]
    have loop2 := forEach_withNode (A := A)
      ((nodeOf g.edges x a).outgoing.filter (fun y => decide (y ≠ x))) (fun j => j)
      (fun _ d => { d with inDeg := d.inDeg - 1, incoming := d.incoming.erase x })
      (fun j => do
        Net.decIn j 1
        Net.removeIncoming x j)
      (by
        intro b n hb
        unfold Net.decIn Net.removeIncoming
        rw [NetM.bind_ok (withNode_ok hb _), withNode_ok (by simpa using hb)]
        simp only [Dict.modify, List.map_map, erase_if_has]
        congr 2
        apply List.map_congr_left
        intro q _
        by_cases hq : q.1 = b <;> simp [hq, Function.comp])
      (⟨g.nodes.map (fun p => (p.1,
          { nodeOf g.edges p.1 p.2 with
            outDeg := (nodeOf g.edges p.1 p.2).outDeg - ((between g.edges p.1 x).length : Int),
            outgoing := (nodeOf g.edges p.1 p.2).outgoing.filter (fun y => decide (y ≠ x)) })), (ofMG g).rotation⟩ : Net L A)
      (by
        intro b hb
        simp only [nodeOf, List.mem_filter, List.mem_map, decide_eq_true_eq] at hb
        obtain ⟨⟨e, ⟨he, hes⟩, hd⟩, _⟩ := hb
        have := (hg.closed e he).2
        rw [hd] at this
        simp only [Dict.keys, List.map_map]
        exact this)
    rw [NetM.bind_ok loop2]
    unfold Net.delNode
    rw [if_pos]
    · simp only [MG.removeNode, ofMG, List.map_map]
      conv => lhs; rw [Dict.erase]
      simp only [List.filter_map]
      congr 2
      apply List.map_congr_left
      intro p hp
      simp only [List.mem_filter, Function.comp, decide_eq_true_eq] at hp
      have hk : p.1 ≠ x := hp.2
      simp only [Function.comp]
      rw [foldl_dec, nodeOf_filter_node _ _ _ _ hk]
      have hcount : ((((nodeOf g.edges x a).outgoing.filter (fun y => decide (y ≠ x))).filter
          (fun j => decide (j = p.1))).length : Int) = ((between g.edges x p.1).length : Int) := by
        rw [length_between]
        simp only [nodeOf, List.filter_map, List.length_map, List.filter_filter]
        congr 2
        apply List.filter_congr
        intro e _
        simp only [Function.comp]
        by_cases h1 : e.dst = p.1
        · simp [h1, hk]
        · simp [h1]
      have hmem : (if p.1 ∈ (nodeOf g.edges x a).outgoing.filter (fun y => decide (y ≠ x)) then
            (nodeOf g.edges p.1 p.2).incoming.erase x else (nodeOf g.edges p.1 p.2).incoming) =
          (nodeOf g.edges p.1 p.2).incoming.erase x := by
        split
        · rfl
        · rename_i hnot
          rw [Dict.erase_of_not_mem]
          simp only [nodeOf, keys_incomingOf]
          intro hsrc
          obtain ⟨e, he, h3, h4⟩ := mem_sources.1 hsrc
          apply hnot
          simp only [nodeOf, List.mem_filter, List.mem_map, decide_eq_true_eq]
          exact ⟨⟨e, ⟨he, h3⟩, h4⟩, hk⟩
      simp only [hcount, hmem]
    · rw [Dict.has_iff]
      simp only [Dict.keys, List.map_map]
      exact hx
  · rw [if_neg hx, NetM.bind_error (getNode_error hx)]

/-! ## update_edge -/

theorem modify_ofKeys {V : Type} (ks : List L) (f : L → V) (i : L) (h : V → V) :
    Dict.modify (Dict.ofKeys ks f) i h = Dict.ofKeys ks (fun k => if k = i then h (f k) else f k) := by
  simp only [Dict.modify, Dict.ofKeys, List.map_map]
  apply List.map_congr_left
  intro k _
  by_cases hk : k = i <;> simp [hk]

theorem filter_map_of_inv (es : List (Edge L A)) (f : Edge L A → Edge L A) (p : Edge L A → Bool)
    (h : ∀ e, p (f e) = p e) : (es.map f).filter p = (es.filter p).map f := by
  rw [List.filter_map]; congr 1
  apply List.filter_congr; intro e _; exact h e

/-- Two edge lists with the same endpoints position by position. -/
def SameEnds (es fs : List (Edge L A)) : Prop :=
  es.map (fun e => (e.src, e.dst)) = fs.map (fun e => (e.src, e.dst))

theorem SameEnds.filter_map {es fs : List (Edge L A)} (h : SameEnds es fs) (p : L × L → Bool) (f : L × L → L) :
    (es.filter (fun e => p (e.src, e.dst))).map (fun e => f (e.src, e.dst)) =
      (fs.filter (fun e => p (e.src, e.dst))).map (fun e => f (e.src, e.dst)) := by
  induction es generalizing fs with
  | nil =>
    cases fs with
    | nil => rfl
    | cons _ _ => simp [SameEnds] at h
  | cons e es ih =>
    cases fs with
    | nil => simp [SameEnds] at h
    | cons g fs =>
      simp only [SameEnds, List.map_cons, List.cons.injEq] at h
      have := ih h.2
      rw [List.filter_cons, List.filter_cons, h.1]
      split
      · simp only [List.map_cons, this, h.1]
      · exact this

theorem SameEnds.sources {es fs : List (Edge L A)} (h : SameEnds es fs) (k : L) : sources es k = sources fs k := by
  unfold MG.sources
  congr 1
  exact h.filter_map (fun q => decide (q.2 = k)) (fun q => q.1)

theorem SameEnds.outgoing {es fs : List (Edge L A)} (h : SameEnds es fs) (k : L) :
    (es.filter (fun e => decide (e.src = k))).map Edge.dst = (fs.filter (fun e => decide (e.src = k))).map Edge.dst :=
  h.filter_map (fun q => decide (q.1 = k)) (fun q => q.2)

theorem SameEnds.inCount {es fs : List (Edge L A)} (h : SameEnds es fs) (k : L) : inCount es k = inCount fs k := by
  have := congrArg List.length (h.filter_map (fun q => decide (q.2 = k)) (fun q => q.1))
  simpa [MG.inCount] using this

theorem SameEnds.outCount {es fs : List (Edge L A)} (h : SameEnds es fs) (k : L) : outCount es k = outCount fs k := by
  have := congrArg List.length (h.filter_map (fun q => decide (q.1 = k)) (fun q => q.1))
  simpa [MG.outCount] using this

theorem valid_sameEnds {g : MG L A} (hg : g.Valid) {es : List (Edge L A)} (h : SameEnds es g.edges) :
    MG.Valid { g with edges := es } := by
  refine valid_of_subset (g' := { g with edges := es }) hg rfl ?_
  intro e he
  have : (e.src, e.dst) ∈ es.map (fun e => (e.src, e.dst)) := List.mem_map.2 ⟨e, he, rfl⟩
  rw [h] at this
  obtain ⟨e', h1, h2⟩ := List.mem_map.1 this
  simp only [Prod.mk.injEq] at h2
  exact ⟨e', h1, h2.1, h2.2⟩

/-- Changing only the attributes of the edges from `i` to `j` changes one entry of one `incoming` dict. -/
theorem ofMG_update {g : MG L A} (es : List (Edge L A)) (i j : L)
    (h : SameEnds es g.edges) (F : List (Attr A) → List (Attr A))
    (hb : between es i j = F (between g.edges i j))
    (hother : ∀ a b, ¬ (a = i ∧ b = j) → between es a b = between g.edges a b) :
    ofMG { g with edges := es } =
      { ofMG g with nodes := (ofMG g).nodes.modify j (fun d => { d with incoming := d.incoming.modify i F }) } := by
  simp only [ofMG, Dict.modify, List.map_map]
  congr 1
  apply List.map_congr_left
  intro p _
  simp only [Function.comp]
  have hnode : nodeOf es p.1 p.2 = if p.1 = j then
      { nodeOf g.edges p.1 p.2 with incoming := (nodeOf g.edges p.1 p.2).incoming.modify i F }
      else nodeOf g.edges p.1 p.2 := by
    simp only [nodeOf, h.inCount, h.outCount, h.outgoing]
    have hin : incomingOf es p.1 = if p.1 = j then (incomingOf g.edges p.1).modify i F
        else incomingOf g.edges p.1 := by
      unfold incomingOf
      rw [h.sources]
      split
      · rename_i hj
        rw [modify_ofKeys]
        apply List.map_congr_left
        intro a _
        by_cases ha : a = i
        · subst ha; simp [hj, hb]
        · simp [ha]; exact hother _ _ (fun e => ha e.1)
      · rename_i hj
        apply List.map_congr_left
        intro a _
        simp only
        rw [hother]; exact fun e => hj e.2
    rw [hin]; split <;> rfl
  rw [hnode]
  split <;> simp_all [Dict.modify]

theorem sameEnds_updateAll (g : MG L A) (i j : L) (attr : Attr A) :
    SameEnds (updateAll g i j attr).edges g.edges := by
  simp only [SameEnds, updateAll, List.map_map]
  apply List.map_congr_left
  intro e _; simp only [Function.comp]; split <;> rfl

theorem between_map_update (es : List (Edge L A)) (i j a b : L) (attr : Attr A) :
    between (es.map (fun e => if e.src = i ∧ e.dst = j then { e with attr := e.attr.update attr } else e)) a b =
      if a = i ∧ b = j then (between es a b).map (fun e => e.update attr) else between es a b := by
  induction es with
  | nil => simp [between]
  | cons e es ih =>
    simp only [List.map_cons, between_cons, ih]
    by_cases h : e.src = i ∧ e.dst = j
    · obtain ⟨h1, h2⟩ := h
      by_cases h3 : a = i ∧ b = j
      · obtain ⟨rfl, rfl⟩ := h3
        simp [h1, h2]
      · have : ¬ (i = a ∧ j = b) := fun e => h3 ⟨e.1.symm, e.2.symm⟩
        simp [h1, h2, h3, this]
    · rw [if_neg h]
      by_cases h3 : a = i ∧ b = j
      · obtain ⟨rfl, rfl⟩ := h3
        simp [h]
      · simp [h3]

theorem sameEnds_updateNth (es : List (Edge L A)) (i j : L) (attr : Attr A) (p : Nat) :
    SameEnds (updateNth i j attr p es) es := by
  induction es generalizing p with
  | nil => rfl
  | cons e es ih =>
    unfold updateNth
    split
    · cases p with
      | zero => rfl
      | succ p => simp only [SameEnds, List.map_cons]; congr 1; exact ih p
    · simp only [SameEnds, List.map_cons]; congr 1; exact ih p

theorem between_updateNth_self (es : List (Edge L A)) (i j : L) (attr : Attr A) (p : Nat) :
    between (updateNth i j attr p es) i j = (between es i j).modify p (fun e => e.update attr) := by
  induction es generalizing p with
  | nil => cases p <;> rfl
  | cons e es ih =>
    unfold updateNth
    by_cases h : e.src = i ∧ e.dst = j
    · rw [if_pos h]
      cases p with
      | zero => simp [between_cons, h]
      | succ p => simp [between_cons, h, ih]
    · rw [if_neg h]
      simp [between_cons, h, ih]

theorem between_updateNth_ne (es : List (Edge L A)) (i j a b : L) (attr : Attr A) (p : Nat)
    (hne : ¬ (a = i ∧ b = j)) : between (updateNth i j attr p es) a b = between es a b := by
  have hne' : ¬ (i = a ∧ j = b) := fun e => hne ⟨e.1.symm, e.2.symm⟩
  induction es generalizing p with
  | nil => rfl
  | cons e es ih =>
    unfold updateNth
    by_cases h : e.src = i ∧ e.dst = j
    · rw [if_pos h]
      cases p with
      | zero => simp [between_cons, h, hne']
      | succ p => simp [between_cons, ih]
    · rw [if_neg h]
      simp [between_cons, ih]

theorem updateEdgeAt_ofMG {g : MG L A} (hg : g.Valid) (i j : L) (attr : Attr A) (k : Int)
    (hb : i ∈ sources g.edges j) :
    Net.updateEdgeAt i j attr k (ofMG g) =
      match pyIndex (between g.edges i j).length k with
      | none => (.error .indexError, ofMG g)
      | some p => (.ok (), ofMG { g with edges := updateNth i j attr p g.edges }) := by
  obtain ⟨a, h1, h2⟩ := get?_ofMG_of_mem (mem_labels_of_mem_sources hg hb).2
  unfold Net.updateEdgeAt
  simp only [h2, nodeOf, get?_incomingOf, if_pos hb]
  cases hp : pyIndex (between g.edges i j).length k with
  | none => rfl
  | some p =>
    simp only
    rw [ofMG_update (updateNth i j attr p g.edges) i j (sameEnds_updateNth _ _ _ _ _)
      (fun l => l.modify p (fun e => e.update attr)) (between_updateNth_self _ _ _ _ _)
      (fun a b h => between_updateNth_ne _ _ _ _ _ _ _ h)]

theorem updateMany_ofMG {g : MG L A} (hg : g.Valid) (i j : L) (attr : Attr A) (ks : List Int)
    (hb : i ∈ sources g.edges j) :
    NetM.forEach ks (Net.updateEdgeAt i j attr) (ofMG g) =
      ((updateMany g i j attr ks).1, ofMG (updateMany g i j attr ks).2) ∧ (updateMany g i j attr ks).2.Valid := by
  induction ks generalizing g with
  | nil => exact ⟨rfl, hg⟩
  | cons k ks ih =>
    simp only [NetM.forEach, NetM.bind, updateEdgeAt_ofMG hg i j attr k hb, updateMany]
    cases hp : pyIndex (between g.edges i j).length k with
    | none => exact ⟨rfl, hg⟩
    | some p =>
      have hse := sameEnds_updateNth g.edges i j attr p
      simp only
      exact ih (valid_sameEnds hg hse) (by simp only; rw [hse.sources]; exact hb)

theorem updateEdge_ofMG {g : MG L A} (hg : g.Valid) (i j : L) (ks : Option (List Int)) (attr : Attr A) :
    Net.updateEdge i j ks attr (ofMG g) =
      ((MG.exec g (.updateEdge i j ks attr)).1, ofMG (MG.exec g (.updateEdge i j ks attr)).2) ∧
    (MG.exec g (.updateEdge i j ks attr)).2.Valid := by
  unfold Net.updateEdge MG.exec
  by_cases hb : i ∈ sources g.edges j
  · have hne : ¬ between g.edges i j = [] := by rw [between_eq_nil_iff]; exact fun h => h hb
    obtain ⟨a, h1, h2⟩ := get?_ofMG_of_mem (mem_labels_of_mem_sources hg hb).2
    simp only [h2, nodeOf, get?_incomingOf, if_pos hb, if_neg hne]
    cases ks with
    | none =>
      simp only
      refine ⟨?_, valid_sameEnds hg (sameEnds_updateAll g i j attr)⟩
      have := ofMG_update (g := g) (updateAll g i j attr).edges i j (sameEnds_updateAll g i j attr)
        (fun l => l.map (fun e => e.update attr))
        (by simp only [updateAll]; rw [between_map_update, if_pos ⟨rfl, rfl⟩])
        (by intro a b h; simp only [updateAll]; rw [between_map_update, if_neg h])
      rw [← this]; rfl
    | some ks => simp only; exact updateMany_ofMG hg i j attr ks hb
  · have he := between_eq_nil_iff.2 hb
    simp only [if_pos he]
    refine ⟨?_, hg⟩
    by_cases hj : j ∈ g.labels
    · obtain ⟨a, h1, h2⟩ := get?_ofMG_of_mem hj
      simp only [h2, nodeOf, get?_incomingOf, if_neg hb]
    · simp only [get?_ofMG_of_not_mem hj]

theorem setRotation_ofMG (g : MG L A) (rs : Dict L (List L)) :
    Net.setRotation rs (ofMG g) =
      ((MG.exec g (.setRotation rs)).1, ofMG (MG.exec g (.setRotation rs)).2) := by
  unfold Net.setRotation
  simp only [MG.exec]
  have : (rs.all (fun p => (ofMG g).nodes.has p.1 && p.2.all (fun x => (ofMG g).nodes.has x)) = true) ↔
      ∀ p ∈ rs, p.1 ∈ g.labels ∧ ∀ x ∈ p.2, x ∈ g.labels := by
    simp only [List.all_eq_true, Bool.and_eq_true, has_ofMG, decide_eq_true_eq]
  by_cases h : ∀ p ∈ rs, p.1 ∈ g.labels ∧ ∀ x ∈ p.2, x ∈ g.labels
  · rw [if_pos (this.2 h), if_pos h]; rfl
  · rw [if_neg (fun e => h (this.1 e)), if_neg h]

/-! ## Simulation -/

/-- One call on the representation of a valid multigraph does what the specification says. -/
theorem exec_ofMG {g : MG L A} (hg : g.Valid) (op : Net.Op L A) :
    Net.exec op (ofMG g) = ((MG.exec g op).1, ofMG (MG.exec g op).2) ∧ (MG.exec g op).2.Valid := by
  cases op with
  | addNode x attr => exact ⟨addNode_ofMG hg x attr, valid_addNode hg x attr⟩
  | addEdge i j attr => exact ⟨addEdge_ofMG hg i j attr, valid_addEdge hg i j attr⟩
  | addEdgeBidir i j attr =>
    refine ⟨?_, valid_addEdge (valid_addEdge hg i j attr) j i attr⟩
    simp only [Net.exec, Net.addEdgeBidir, MG.exec]
    rw [NetM.bind_ok (addEdge_ofMG hg i j attr), addEdge_ofMG (valid_addEdge hg i j attr)]
  | updateEdge i j ks attr => exact updateEdge_ofMG hg i j ks attr
  | removeNode x =>
    simp only [Net.exec, MG.exec]
    rw [removeNode_ofMG hg]
    split
    · exact ⟨rfl, valid_removeNode hg x⟩
    · exact ⟨rfl, hg⟩
  | removeEdge i j =>
    simp only [Net.exec, MG.exec]
    rw [removeEdge_ofMG hg]
    split
    · exact ⟨rfl, hg⟩
    · exact ⟨rfl, valid_removeEdge hg i j⟩
  | setRotation rs =>
    refine ⟨setRotation_ofMG g rs, ?_⟩
    simp only [MG.exec]
    split
    · exact ⟨hg.nodup, hg.closed⟩
    · exact hg

theorem valid_empty : (MG.empty : MG L A).Valid := ⟨by simp [MG.empty, MG.labels], by simp [MG.empty]⟩

theorem run_ofMG {g : MG L A} (hg : g.Valid) (ops : List (Net.Op L A)) :
    Net.run (ofMG g) ops = ofMG (MG.run g ops) ∧ (MG.run g ops).Valid := by
  induction ops generalizing g with
  | nil => exact ⟨rfl, hg⟩
  | cons op ops ih =>
    obtain ⟨h1, h2⟩ := exec_ofMG hg op
    have := ih h2
    simp only [Net.run, MG.run, List.foldl_cons] at this ⊢
    rw [h1]; exact this

end Verif
