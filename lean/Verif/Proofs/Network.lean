import Verif.Spec.MultigraphOps
/-! # Lemmas: `Network` refines the abstract multigraph -/

namespace Verif
open MG

variable {L A : Type} [DecidableEq L]

/-! ## dedup, between, sources -/

theorem mem_dedup {l : List L} {a : L} : a ∈ dedup l ↔ a ∈ l := by
  induction l with
  | nil => simp [dedup]
  | cons b l ih =>
    simp only [dedup, List.mem_cons, List.mem_filter, ih, decide_eq_true_eq]
    by_cases h : a = b <;> simp [h]

theorem nodup_dedup (l : List L) : (dedup l).Nodup := by
  induction l with
  | nil => simp [dedup]
  | cons b l ih =>
    simp only [dedup, List.nodup_cons, List.mem_filter]
    exact ⟨by simp, ih.filter _⟩

theorem dedup_append_singleton (l : List L) (a : L) :
    dedup (l ++ [a]) = if a ∈ l then dedup l else dedup l ++ [a] := by
  induction l with
  | nil => simp [dedup]
  | cons b l ih =>
    simp only [List.cons_append, dedup, ih, List.mem_cons]
    by_cases h : a = b
    · subst h
      by_cases h' : a ∈ l <;> simp [h']
    · by_cases h' : a ∈ l <;> simp [h', h]

theorem dedup_filter (l : List L) (p : L → Bool) : dedup (l.filter p) = (dedup l).filter p := by
  induction l with
  | nil => simp [dedup]
  | cons b l ih =>
    by_cases h : p b
    · simp only [List.filter_cons, h, if_true, dedup, ih, List.filter_filter]
      congr 1
      apply List.filter_congr
      intro x _; exact Bool.and_comm _ _
    · simp only [List.filter_cons, h, dedup, ih, List.filter_filter]
      simp only [Bool.false_eq_true, if_false, ih]
      apply List.filter_congr
      intro x _
      by_cases hx : x = b
      · subst hx; simp [h]
      · simp [hx]

theorem dedup_of_nodup {l : List L} (h : l.Nodup) : dedup l = l := by
  induction l with
  | nil => rfl
  | cons a l ih =>
    simp only [List.nodup_cons] at h
    simp only [dedup, ih h.2]
    congr 1
    rw [List.filter_eq_self]
    intro x hx; simp only [decide_eq_true_eq]; rintro rfl; exact h.1 hx

theorem mem_sources {es : List (Edge L A)} {i j : L} : i ∈ sources es j ↔ ∃ e ∈ es, e.src = i ∧ e.dst = j := by
  simp only [sources, mem_dedup, List.mem_map, List.mem_filter, decide_eq_true_eq]
  constructor
  · rintro ⟨e, ⟨h1, h2⟩, h3⟩; exact ⟨e, h1, h3, h2⟩
  · rintro ⟨e, h1, h3, h2⟩; exact ⟨e, ⟨h1, h2⟩, h3⟩

theorem between_eq_nil_iff {es : List (Edge L A)} {i j : L} : between es i j = [] ↔ i ∉ sources es j := by
  simp only [between, List.map_eq_nil_iff, List.filter_eq_nil_iff, mem_sources, not_exists, not_and]
  constructor
  · intro h e he h1 h2; exact absurd (h e he) (by simp [h1, h2])
  · intro h e he; simp only [Bool.and_eq_true, decide_eq_true_eq, not_and]; exact h e he

theorem nodup_sources (es : List (Edge L A)) (j : L) : (sources es j).Nodup := nodup_dedup _

theorem between_append (es fs : List (Edge L A)) (i j : L) :
    between (es ++ fs) i j = between es i j ++ between fs i j := by
  simp [between]

theorem between_singleton (e : Edge L A) (i j : L) :
    between [e] i j = if e.src = i ∧ e.dst = j then [e.attr] else [] := by
  by_cases h1 : e.src = i <;> by_cases h2 : e.dst = j <;> simp [between, h1, h2]

theorem between_cons (e : Edge L A) (es : List (Edge L A)) (i j : L) :
    between (e :: es) i j = (if e.src = i ∧ e.dst = j then [e.attr] else []) ++ between es i j := by
  rw [← between_singleton, ← between_append]; rfl

theorem sources_append_singleton (es : List (Edge L A)) (e : Edge L A) (k : L) :
    sources (es ++ [e]) k =
      if e.dst = k then (if e.src ∈ sources es k then sources es k else sources es k ++ [e.src])
      else sources es k := by
  unfold sources
  by_cases h : e.dst = k
  · simp only [List.filter_append, h, if_true, List.map_append]
    simp only [List.filter_cons, h, decide_true, if_true, List.filter_nil, List.map_cons, List.map_nil]
    rw [dedup_append_singleton]
    simp only [mem_dedup]
  · simp [List.filter_append, h]

/-! ## The concrete network of a multigraph -/

/-- The `incoming` dict of node `k`. -/
def incomingOf (es : List (Edge L A)) (k : L) : Dict L (List (Attr A)) :=
  Dict.ofKeys (sources es k) (fun i => between es i k)

/-- The node dict of `k`. -/
def nodeOf (es : List (Edge L A)) (k : L) (at' : Attr A) : Node L A :=
  { inDeg := (inCount es k : Int), outDeg := (outCount es k : Int), incoming := incomingOf es k,
    outgoing := (es.filter (fun e => decide (e.src = k))).map Edge.dst, attrs := at' }

/-- The representation of a multigraph as a `Network` object. -/
def ofMG (g : MG L A) : Net L A := ⟨g.nodes.map (fun p => (p.1, nodeOf g.edges p.1 p.2)), g.rot⟩

theorem keys_incomingOf (es : List (Edge L A)) (k : L) : (incomingOf es k).keys = sources es k :=
  Dict.keys_ofKeys _ _

theorem nodup_keys_incomingOf (es : List (Edge L A)) (k : L) : (incomingOf es k).keys.Nodup := by
  rw [keys_incomingOf]; exact nodup_sources _ _

theorem get?_incomingOf (es : List (Edge L A)) (k i : L) :
    (incomingOf es k).get? i = if i ∈ sources es k then some (between es i k) else none :=
  Dict.get?_ofKeys _ _ _

theorem keys_ofMG (g : MG L A) : (ofMG g).nodes.keys = g.labels := by
  simp [ofMG, Dict.keys, MG.labels]

theorem has_ofMG (g : MG L A) (x : L) : (ofMG g).nodes.has x = decide (x ∈ g.labels) := by
  rw [Bool.eq_iff_iff, Dict.has_iff, keys_ofMG]; simp

theorem get?_mapVal {V W : Type} (d : Dict L V) (F : L → V → W) (x : L) :
    Dict.get? (d.map (fun p => (p.1, F p.1 p.2))) x = (d.get? x).map (F x) := by
  induction d with
  | nil => rfl
  | cons p d ih =>
    simp only [List.map_cons, Dict.get?_cons, ih]
    by_cases h : p.1 = x
    · subst h; simp
    · simp [h]

theorem get?_ofMG (g : MG L A) (x : L) :
    (ofMG g).nodes.get? x = (g.nodes.get? x).map (nodeOf g.edges x) :=
  get?_mapVal _ _ _

theorem get?_ofMG_of_mem {g : MG L A} {x : L} (h : x ∈ g.labels) :
    ∃ a, g.nodes.get? x = some a ∧ (ofMG g).nodes.get? x = some (nodeOf g.edges x a) := by
  obtain ⟨a, ha⟩ := Dict.exists_get?_of_mem_keys (d := g.nodes) h
  exact ⟨a, ha, by rw [get?_ofMG, ha]; rfl⟩

theorem get?_ofMG_of_not_mem {g : MG L A} {x : L} (h : x ∉ g.labels) : (ofMG g).nodes.get? x = none := by
  rw [Dict.get?_eq_none_iff, keys_ofMG]; exact h

/-! ## Monadic plumbing -/

theorem NetM.bind_def {α β : Type} (x : NetM L A α) (f : α → NetM L A β) (n : Net L A) :
    (x >>= f) n = match x n with
      | (.ok a, n') => f a n'
      | (.error e, n') => (.error e, n') := rfl

theorem NetM.bind_ok {α β : Type} {x : NetM L A α} {f : α → NetM L A β} {n n' : Net L A} {a : α}
    (h : x n = (.ok a, n')) : (x >>= f) n = f a n' := by
  rw [NetM.bind_def, h]

theorem NetM.bind_error {α β : Type} {x : NetM L A α} {f : α → NetM L A β} {n n' : Net L A} {e : Err}
    (h : x n = (.error e, n')) : (x >>= f) n = (.error e, n') := by
  rw [NetM.bind_def, h]

theorem withNode_ok {n : Net L A} {x : L} (h : x ∈ n.nodes.keys) (f : Node L A → Node L A) :
    Net.withNode x f n = (.ok (), { n with nodes := n.nodes.modify x f }) := by
  unfold Net.withNode; rw [if_pos (Dict.has_iff.2 h)]

theorem modify_mapVal {V W : Type} (d : Dict L V) (F : L → V → W) (x : L) (f : W → W) :
    Dict.modify (d.map (fun p => (p.1, F p.1 p.2))) x f =
      d.map (fun p => (p.1, if p.1 = x then f (F p.1 p.2) else F p.1 p.2)) := by
  simp only [Dict.modify, List.map_map]
  apply List.map_congr_left
  intro p _
  by_cases h : p.1 = x <;> simp [h]

/-- A loop of in-place changes of existing nodes. -/
theorem forEach_withNode {β : Type} (bs : List β) (key : β → L) (f : β → Node L A → Node L A)
    (body : β → NetM L A Unit)
    (hbody : ∀ b n, key b ∈ n.nodes.keys → body b n = (.ok (), { n with nodes := n.nodes.modify (key b) (f b) }))
    (n : Net L A) (h : ∀ b ∈ bs, key b ∈ n.nodes.keys) :
    NetM.forEach bs body n = (.ok (), ⟨n.nodes.map (fun p =>
      (p.1, bs.foldl (fun v b => if key b = p.1 then f b v else v) p.2)), n.rotation⟩) := by
  induction bs generalizing n with
  | nil => simp [NetM.forEach, NetM.pure]
  | cons b bs ih =>
    have hb := hbody b n (h b (by simp))
    simp only [NetM.forEach, NetM.bind, hb]
    rw [ih]
    · simp only [Dict.modify, List.map_map, List.foldl_cons]
      congr 2
      apply List.map_congr_left
      intro p _
      by_cases hk : p.1 = key b
      · have hk' : key b = p.1 := hk.symm
        simp [hk, Function.comp]
      · have hk' : ¬ key b = p.1 := fun e => hk e.symm
        simp [hk, hk', Function.comp]
    · intro b' hb'
      simpa using h b' (by simp [hb'])

/-! ## Single calls -/

theorem mem_labels_ensure {g : MG L A} {x y : L} : y ∈ (ensure g x).labels ↔ y = x ∨ y ∈ g.labels := by
  unfold ensure
  split
  · rename_i h
    constructor
    · exact Or.inr
    · rintro (rfl | h') <;> assumption
  · simp only [MG.labels, List.map_append, List.map_cons, List.map_nil, List.mem_append, List.mem_singleton]
    exact or_comm

theorem ensure_edges (g : MG L A) (x : L) : (ensure g x).edges = g.edges := by
  unfold ensure; split <;> rfl

theorem ensure_rot (g : MG L A) (x : L) : (ensure g x).rot = g.rot := by
  unfold ensure; split <;> rfl

theorem valid_ensure {g : MG L A} (hg : g.Valid) (x : L) : (ensure g x).Valid := by
  refine ⟨?_, ?_⟩
  · unfold ensure; split
    · exact hg.nodup
    · rename_i h
      simp only [MG.labels, List.map_append, List.map_cons, List.map_nil]
      rw [List.nodup_append]
      refine ⟨hg.nodup, by simp, ?_⟩
      intro a ha b hb
      simp only [List.mem_singleton] at hb; subst hb; rintro rfl; exact h ha
  · intro e he
    rw [ensure_edges] at he
    have := hg.closed e he
    exact ⟨mem_labels_ensure.2 (Or.inr this.1), mem_labels_ensure.2 (Or.inr this.2)⟩

theorem filter_dst_eq_nil {g : MG L A} (hg : g.Valid) {x : L} (h : x ∉ g.labels) :
    g.edges.filter (fun e => decide (e.dst = x)) = [] := by
  rw [List.filter_eq_nil_iff]
  intro e he; simp only [decide_eq_true_eq]; rintro rfl; exact h (hg.closed e he).2

theorem filter_src_eq_nil {g : MG L A} (hg : g.Valid) {x : L} (h : x ∉ g.labels) :
    g.edges.filter (fun e => decide (e.src = x)) = [] := by
  rw [List.filter_eq_nil_iff]
  intro e he; simp only [decide_eq_true_eq]; rintro rfl; exact h (hg.closed e he).1

theorem nodeOf_new {g : MG L A} (hg : g.Valid) {x : L} (h : x ∉ g.labels) :
    nodeOf g.edges x [] = Net.newNode := by
  have h1 := filter_dst_eq_nil hg h
  have h2 := filter_src_eq_nil hg h
  simp [nodeOf, inCount, outCount, incomingOf, sources, h1, h2, dedup, Dict.ofKeys, Net.newNode]

theorem initNode_ofMG {g : MG L A} (hg : g.Valid) (x : L) :
    Net.initNode x (ofMG g) = (.ok (), ofMG (ensure g x)) := by
  unfold Net.initNode ensure
  by_cases h : x ∈ g.labels
  · simp [has_ofMG, h]
  · simp only [has_ofMG, h, decide_false, Bool.false_eq_true, if_false]
    rw [Dict.set_of_not_mem (by rw [keys_ofMG]; exact h)]
    simp [ofMG, nodeOf_new hg h]

theorem valid_addNode {g : MG L A} (hg : g.Valid) (x : L) (attr : Attr A) : (MG.addNode g x attr).Valid := by
  have hv := valid_ensure hg x
  have hl : (MG.addNode g x attr).labels = (ensure g x).labels := by
    simp only [MG.addNode, MG.labels, List.map_map]
    apply List.map_congr_left
    intro p _; simp only [Function.comp]; split <;> rfl
  exact ⟨by rw [hl]; exact hv.nodup, by rw [hl]; exact hv.closed⟩

theorem addNode_ofMG {g : MG L A} (hg : g.Valid) (x : L) (attr : Attr A) :
    Net.addNode x attr (ofMG g) = (.ok (), ofMG (MG.addNode g x attr)) := by
  unfold Net.addNode
  rw [NetM.bind_ok (initNode_ofMG hg x), withNode_ok]
  · simp only [ofMG, modify_mapVal, MG.addNode, List.map_map]
    congr 2
    apply List.map_congr_left
    intro p _
    by_cases h : p.1 = x <;> simp [h, nodeOf]
  · rw [keys_ofMG]; exact mem_labels_ensure.2 (Or.inl rfl)

theorem keys_pushIncoming (inc : Dict L (List (Attr A))) (i : L) (attr : Attr A) :
    (Net.pushIncoming inc i attr).keys = if i ∈ inc.keys then inc.keys else inc.keys ++ [i] := by
  unfold Net.pushIncoming
  rw [Dict.keys_modify]
  by_cases h : i ∈ inc.keys
  · rw [if_pos (Dict.has_iff.2 h), if_pos h]
  · rw [if_neg (by rw [Dict.has_iff]; exact h), if_neg h, Dict.keys_set, if_neg h]

theorem get?_pushIncoming (inc : Dict L (List (Attr A))) (i k : L) (attr : Attr A) :
    (Net.pushIncoming inc i attr).get? k =
      if i = k then some ((inc.get? i).getD [] ++ [attr]) else inc.get? k := by
  unfold Net.pushIncoming
  rw [Dict.get?_modify]
  by_cases h : i ∈ inc.keys
  · rw [if_pos (Dict.has_iff.2 h)]
    obtain ⟨v, hv⟩ := Dict.exists_get?_of_mem_keys h
    by_cases hk : i = k
    · subst hk; simp [hv]
    · simp [hk]
  · have hf : inc.has i = false := Dict.has_eq_false_iff.2 h
    simp only [hf, Bool.false_eq_true, if_false]
    have := Dict.get?_eq_none_iff.2 h
    by_cases hk : i = k
    · subst hk; simp [this]
    · simp [hk, Dict.get?_set]

theorem pushIncoming_incomingOf (es : List (Edge L A)) (i j : L) (attr : Attr A) :
    Net.pushIncoming (incomingOf es j) i attr = incomingOf (es ++ [⟨i, j, attr⟩]) j := by
  have hk : (Net.pushIncoming (incomingOf es j) i attr).keys = (incomingOf (es ++ [⟨i, j, attr⟩]) j).keys := by
    rw [keys_pushIncoming, keys_incomingOf, keys_incomingOf, sources_append_singleton]
    simp
  apply Dict.ext_of_keys hk
  · rw [hk]; exact nodup_keys_incomingOf _ _
  · intro k hmem
    rw [hk, keys_incomingOf] at hmem
    rw [get?_pushIncoming, get?_incomingOf, get?_incomingOf, get?_incomingOf, if_pos hmem, between_append,
      between_singleton]
    by_cases h : i = k
    · subst h
      by_cases h' : i ∈ sources es j
      · simp [h']
      · simp [h', between_eq_nil_iff.2 h']
    · rw [sources_append_singleton] at hmem
      have : k ∈ sources es j := by
        simp only [if_true] at hmem
        split at hmem
        · exact hmem
        · rcases List.mem_append.1 hmem with h' | h'
          · exact h'
          · simp at h'; exact absurd h'.symm h
      simp [h, this]

theorem incomingOf_append_of_ne (es : List (Edge L A)) (e : Edge L A) {k : L} (h : e.dst ≠ k) :
    incomingOf (es ++ [e]) k = incomingOf es k := by
  unfold incomingOf
  rw [sources_append_singleton, if_neg h]
  apply List.map_congr_left
  intro i _
  simp [between_append, between_singleton, h]

theorem nodeOf_append (es : List (Edge L A)) (i j k : L) (attr at' : Attr A) :
    nodeOf (es ++ [⟨i, j, attr⟩]) k at' =
      { nodeOf es k at' with
        inDeg := (nodeOf es k at').inDeg + (if k = j then 1 else 0)
        outDeg := (nodeOf es k at').outDeg + (if k = i then 1 else 0)
        incoming := if k = j then Net.pushIncoming (nodeOf es k at').incoming i attr else (nodeOf es k at').incoming
        outgoing := if k = i then (nodeOf es k at').outgoing ++ [j] else (nodeOf es k at').outgoing } := by
  have e1 : (inCount (es ++ [⟨i, j, attr⟩]) k : Int) = inCount es k + (if k = j then 1 else 0) := by
    by_cases h : k = j
    · simp [inCount, h]
    · have : ¬ j = k := fun e => h e.symm
      simp [inCount, h, this]
  have e2 : (outCount (es ++ [⟨i, j, attr⟩]) k : Int) = outCount es k + (if k = i then 1 else 0) := by
    by_cases h : k = i
    · simp [outCount, h]
    · have : ¬ i = k := fun e => h e.symm
      simp [outCount, h, this]
  have e3 : incomingOf (es ++ [⟨i, j, attr⟩]) k =
      if k = j then Net.pushIncoming (incomingOf es k) i attr else incomingOf es k := by
    by_cases h : k = j
    · subst h; rw [if_pos rfl, pushIncoming_incomingOf]
    · rw [if_neg h, incomingOf_append_of_ne]; exact fun e => h e.symm
  have e4 : ((es ++ [(⟨i, j, attr⟩ : Edge L A)]).filter (fun e => decide (e.src = k))).map Edge.dst =
      if k = i then (es.filter (fun e => decide (e.src = k))).map Edge.dst ++ [j]
      else (es.filter (fun e => decide (e.src = k))).map Edge.dst := by
    by_cases h : k = i
    · simp [h]
    · have : ¬ i = k := fun e => h e.symm
      simp [h, this]
  simp only [nodeOf, e1, e2, e3, e4]

theorem valid_addEdge {g : MG L A} (hg : g.Valid) (i j : L) (attr : Attr A) : (MG.addEdge g i j attr).Valid := by
  have hv := valid_ensure (valid_ensure hg i) j
  refine ⟨hv.nodup, ?_⟩
  intro e he
  simp only [MG.addEdge] at he
  rcases List.mem_append.1 he with he | he
  · exact hv.closed e (by rw [ensure_edges, ensure_edges]; exact he)
  · simp only [List.mem_singleton] at he; subst he
    exact ⟨mem_labels_ensure.2 (Or.inr (mem_labels_ensure.2 (Or.inl rfl))), mem_labels_ensure.2 (Or.inl rfl)⟩

theorem addEdge_ofMG {g : MG L A} (hg : g.Valid) (i j : L) (attr : Attr A) :
    Net.addEdge i j attr (ofMG g) = (.ok (), ofMG (MG.addEdge g i j attr)) := by
  have hi : i ∈ (ensure (ensure g i) j).labels := mem_labels_ensure.2 (Or.inr (mem_labels_ensure.2 (Or.inl rfl)))
  have hj : j ∈ (ensure (ensure g i) j).labels := mem_labels_ensure.2 (Or.inl rfl)
  unfold Net.addEdge
  rw [NetM.bind_ok (initNode_ofMG hg i), NetM.bind_ok (initNode_ofMG (valid_ensure hg i) j)]
  rw [NetM.bind_ok (withNode_ok (by rw [keys_ofMG]; exact hj) _)]
  unfold Net.incIn
  rw [NetM.bind_ok (withNode_ok (by simp only [Dict.keys_modify]; rw [keys_ofMG]; exact hj) _)]
  unfold Net.incOut
  rw [NetM.bind_ok (withNode_ok (by simp only [Dict.keys_modify]; rw [keys_ofMG]; exact hi) _)]
  unfold Net.addOutgoing
  rw [withNode_ok (by simp only [Dict.keys_modify]; rw [keys_ofMG]; exact hi)]
  simp only [ofMG, Dict.modify, List.map_map, MG.addEdge, ensure_edges]
  congr 2
  apply List.map_congr_left
  intro p _
  rw [nodeOf_append]
  simp only [Function.comp]
  by_cases h1 : p.1 = j <;> by_cases h2 : p.1 = i <;> simp_all

end Verif
