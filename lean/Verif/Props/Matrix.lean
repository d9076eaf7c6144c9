import Verif.Proofs.Matrix
/-! # Properties C08, C09: adjacency matrices -/

namespace Verif
open MG

/-! ## C08 -/

/-- Last element of a list, or 0. -/
def lastOrZero {W : Type} [Zero W] (ws : List W) : W := ws.getLast?.getD 0

/-- Weight of an edge with attributes `a`: the chosen attribute, or 1. -/
def specWeight {A W : Type} [One W] (toW : A → W) (weight : Option String) (a : Attr A) : W :=
  match weight with
  | none => 1
  | some k => ((a.get? k).map toW).getD 1

/-- C08.  For every history and every `nodelist` that enumerates the nodes once each (also the default one), the
matrix is square of the size of the network, and the entry of `(x, y)` is the sum, in the order of `edges`, of the
weights of the edges from `x` to `y` (`sum_multiedges=True`) or the last such weight, 0 if none
(`sum_multiedges=False`). -/
theorem C08_to_adjacency_matrix {L A W : Type} [DecidableEq L] [Add W] [One W] [Zero W] (toW : A → W)
    (ops : List (Net.Op L A)) (nl : List L) (hnl : nl.Perm (Net.run Net.empty ops).labels)
    (arg : Option (List L)) (harg : arg = some nl ∨ (arg = none ∧ nl = (Net.run Net.empty ops).labels))
    (weight : Option String) :
    let n := Net.run Net.empty ops
    let weights := fun x y => (n.edges.filter (fun t => decide (t.1 = x) && decide (t.2.1 = y))).map
      (fun t => specWeight toW weight t.2.2)
    (∃ M, n.toAdjacencyMatrix toW arg true weight = .ok M ∧ M.length = nl.length ∧ (∀ r ∈ M, r.length = nl.length) ∧
      ∀ (a b : Nat) x y, nl[a]? = some x → nl[b]? = some y →
        ∃ r : List W, M[a]? = some r ∧ r[b]? = some ((weights x y).foldl (· + ·) 0)) ∧
    (∃ M, n.toAdjacencyMatrix toW arg false weight = .ok M ∧ M.length = nl.length ∧ (∀ r ∈ M, r.length = nl.length) ∧
      ∀ (a b : Nat) x y, nl[a]? = some x → nl[b]? = some y →
        ∃ r : List W, M[a]? = some r ∧ r[b]? = some (lastOrZero (weights x y))) := by
  obtain ⟨h, hv⟩ := run_empty ops
  simp only
  have hnd : nl.Nodup := hnl.nodup_iff.2 (by rw [h, labels_ofMG]; exact hv.nodup)
  have hsize : (Net.run Net.empty ops).size = nl.length := by
    rw [h, size_ofMG, hnl.length_eq, h, labels_ofMG]
  have hes : ∀ t ∈ (Net.run Net.empty ops).edges, t.1 ∈ nl ∧ t.2.1 ∈ nl := by
    rintro ⟨i, j, a⟩ ht
    rw [h] at ht
    obtain ⟨e, he, heq⟩ := List.mem_map.1 ((edges_perm hv).mem_iff.1 ht)
    simp only [Prod.mk.injEq] at heq
    obtain ⟨rfl, rfl, rfl⟩ := heq
    have hc := hv.closed e he
    simp only [hnl.mem_iff, h, labels_ofMG]; exact hc
  have hdef : ∀ sum, (Net.run Net.empty ops).toAdjacencyMatrix toW arg sum weight =
      (Net.run Net.empty ops).edges.foldlM (adjStep toW weight sum nl)
        (List.replicate nl.length (List.replicate nl.length (0 : W))) := by
    intro sum
    unfold Net.toAdjacencyMatrix
    rw [hsize]
    rcases harg with rfl | ⟨rfl, hd⟩
    · cases hl : nl with
      | nil =>
        simp only
        have : (Net.run Net.empty ops).labels = [] := by
          have := hnl.length_eq; rw [hl] at this
          exact List.length_eq_zero_iff.1 this.symm
        rw [this]
      | cons _ _ => rfl
    · simp only [hd]
  have hw : (fun t : L × L × Attr A => edgeWeight toW weight t.2.2) = (fun t => specWeight toW weight t.2.2) := by
    funext t
    cases weight with
    | none => rfl
    | some k => simp only [edgeWeight, specWeight]; cases Dict.get? t.2.2 k <;> rfl
  have hzero : ∀ a b x y, nl[a]? = some x → nl[b]? = some y →
      entry (List.replicate nl.length (List.replicate nl.length (0 : W))) a b = some 0 := by
    intro a b x y hx hy
    have ha : a < nl.length := (List.getElem?_eq_some_iff.1 hx).1
    have hb : b < nl.length := (List.getElem?_eq_some_iff.1 hy).1
    simp [entry, ha, hb]
  have hentry : ∀ (M : List (List W)) a b v, entry M a b = some v → ∃ r, M[a]? = some r ∧ r[b]? = some v := by
    intro M a b v he
    simp only [entry] at he
    cases hr : M[a]? with
    | none => simp [hr] at he
    | some r => exact ⟨r, rfl, by simpa [hr] using he⟩
  refine ⟨?_, ?_⟩
  · obtain ⟨M, h1, h2, h3⟩ := adjLoop toW weight true nl hnd _ hes _ (square_zero nl.length)
    refine ⟨M, by rw [hdef]; exact h1, h2.1, h2.2, ?_⟩
    intro a b x y hx hy
    apply hentry
    rw [h3 a b x y hx hy, hzero a b x y hx hy, hw]
    rfl
  · obtain ⟨M, h1, h2, h3⟩ := adjLoop toW weight false nl hnd _ hes _ (square_zero nl.length)
    refine ⟨M, by rw [hdef]; exact h1, h2.1, h2.2, ?_⟩
    intro a b x y hx hy
    apply hentry
    rw [h3 a b x y hx hy, hzero a b x y hx hy, hw]
    simp only [Option.map_some, accum, Bool.false_eq_true, if_false]
    congr 1
    have hfold : ∀ (ws : List W) (v : W), ws.foldl (fun _ w => w) v = ws.getLast?.getD v := by
      intro ws
      induction ws with
      | nil => intro v; rfl
      | cons w ws ih =>
        intro v
        rw [List.foldl_cons, ih]
        cases ws <;> simp [List.getLast?_cons]
    rw [hfold]; rfl

/-- A two-node instance with a parallel edge and reordered `nodelist`. -/
example :
    let ops : List (Net.Op Nat Int) := [.addEdge 0 1 [("weight", 5)], .addEdge 0 1 [], .addEdge 1 1 [("weight", 2)]]
    List.Perm [1, 0] (Net.run Net.empty ops).labels ∧
    (Net.run Net.empty ops).toAdjacencyMatrix id (some [1, 0]) true (some "weight") = .ok [[2, 0], [6, 0]] ∧
    (Net.run Net.empty ops).toAdjacencyMatrix id (some [1, 0]) false (some "weight") = .ok [[2, 0], [1, 0]] := by
  refine ⟨List.Perm.swap _ _ _, ?_, ?_⟩ <;> decide

/-- C08.  A `nodelist` (other than `[]`, which counts as missing) that is not longer than the network and lacks an end of
some edge raises a `ValueError`. -/
theorem C08_missing_node {L A W : Type} [DecidableEq L] [Add W] [One W] [Zero W] (toW : A → W) (n : Net L A) (nl : List L)
    (hne : nl ≠ []) (hlen : nl.length ≤ n.size) (x y : L) (attr : Attr A) (he : (x, y, attr) ∈ n.edges)
    (hmiss : x ∉ nl ∨ y ∉ nl) (sum : Bool) (weight : Option String) :
    n.toAdjacencyMatrix toW (some nl) sum weight = .error .valueError := by
  have key : ∀ (es : List (L × L × Attr A)) (M : List (List W)), Square M n.size → (x, y, attr) ∈ es →
      es.foldlM (adjStep toW weight sum nl) M = .error .valueError := by
    intro es
    induction es with
    | nil => intro M _ h; cases h
    | cons t es ih =>
      intro M hM h
      obtain ⟨u, v, b⟩ := t
      rw [List.foldlM_cons]
      by_cases hu : u ∈ nl
      · by_cases hv : v ∈ nl
        · obtain ⟨i, i1, i2, -⟩ := idxOf?_of_mem hu
          obtain ⟨j, j1, j2, -⟩ := idxOf?_of_mem hv
          obtain ⟨M', e1, e2, -⟩ := putEntry_spec (sum := sum) (w := edgeWeight toW weight b) hM (show i < n.size by omega) (show j < n.size by omega)
          have hstep : adjStep toW weight sum nl M (u, v, b) = .ok M' := by
            simp only [adjStep, i1, j1]; exact e1
          rw [hstep]
          refine ih M' e2 ?_
          rcases List.mem_cons.1 h with h | h
          · cases h
            rcases hmiss with hm | hm
            · exact absurd hu hm
            · exact absurd hv hm
          · exact h
        · obtain ⟨i, i1, -⟩ := idxOf?_of_mem hu
          have : nl.idxOf? v = none := List.idxOf?_eq_none_iff.2 hv
          have hstep : adjStep toW weight sum nl M (u, v, b) = .error .valueError := by simp only [adjStep, i1, this]
          rw [hstep]; rfl
      · have : nl.idxOf? u = none := List.idxOf?_eq_none_iff.2 hu
        have hstep : adjStep toW weight sum nl M (u, v, b) = .error .valueError := by simp only [adjStep, this]
        rw [hstep]; rfl
  unfold Net.toAdjacencyMatrix
  cases nl with
  | nil => exact absurd rfl hne
  | cons a l => exact key _ _ (square_zero _) he

/-- A network with an edge from 0 to 1, and the `nodelist` `[0]`. -/
example : (Net.run Net.empty [Net.Op.addEdge 0 1 ([] : Attr Int)]).toAdjacencyMatrix (W := Int) id (some [0]) true none = .error .valueError :=
  C08_missing_node id _ [0] (by decide) (by decide) 0 1 [] (by decide) (Or.inr (by decide)) true none

/-! ## C09 -/

/-- C09, edges of `from_adjacency_matrix`: for every matrix (of any shape) the network has exactly one edge `i -> j`,
with that weight, for every non-zero entry, no other edge, and its nodes are the indices with a non-zero entry in
their row or column. -/
theorem C09_from_adjacency_matrix {W : Type} [Zero W] [DecidableEq W] (M : List (List W)) :
    let n := fromAdjacencyMatrix M
    (∀ i j : Nat, n.edge i j = match (M[i]?).bind (fun r => r[j]?) with
      | none => .error .keyError
      | some v => if v = 0 then .error .keyError else .ok [[("weight", v)]]) ∧
    (∀ x : Nat, x ∈ n.labels ↔ ∃ (y : Nat) (v : W), v ≠ 0 ∧ ((M[x]?).bind (fun r => r[y]?) = some v ∨ (M[y]?).bind (fun r => r[x]?) = some v)) := by
  obtain ⟨h, hv⟩ := fromAdjacencyMatrix_eq M
  simp only [h]
  refine ⟨?_, ?_⟩
  · intro i j
    rw [edge_ofMG hv, between_adjMG]
    unfold entry
    cases (M[i]?).bind (fun r => r[j]?) with
    | none => rfl
    | some v => by_cases hv : v = 0 <;> simp [hv]
  · intro x
    rw [labels_ofMG]; exact mem_adjMG_labels M x

/-- C09, round trip, partial.  Full claim: "for every square matrix, `to_adjacency_matrix` over `0..n-1` of
`from_adjacency_matrix(A)` is `A`".  It holds when every index has a non-zero entry in its row or column; otherwise
the node is lost (`C09_isolated_node_lost`). -/
theorem C09_round_trip_partial {W : Type} [Add W] [One W] [Zero W] [DecidableEq W] (hadd : ∀ w : W, 0 + w = w)
    (n : Nat) (hn : 0 < n) (M : List (List W)) (hrows : M.length = n) (hcols : ∀ r ∈ M, r.length = n)
    (hused : ∀ x : Nat, x < n → ∃ (y : Nat) (v : W), v ≠ 0 ∧
      ((M[x]?).bind (fun r => r[y]?) = some v ∨ (M[y]?).bind (fun r => r[x]?) = some v))
    (sum : Bool) :
    (fromAdjacencyMatrix M).toAdjacencyMatrix id (some (List.range n)) sum (some "weight") = .ok M := by
  obtain ⟨h, hv⟩ := fromAdjacencyMatrix_eq M
  have hentry_lt : ∀ a b v, entry M a b = some v → a < n ∧ b < n := by
    intro a b v he
    simp only [entry] at he
    cases hr : M[a]? with
    | none => simp [hr] at he
    | some r =>
      simp only [hr, Option.bind_some] at he
      have h1 := (List.getElem?_eq_some_iff.1 hr)
      have h2 := (List.getElem?_eq_some_iff.1 he).1
      have h3 : r.length = n := hcols r (List.mem_of_getElem? hr)
      exact ⟨by rw [← hrows]; exact h1.1, by omega⟩
  have hmem : ∀ x, x ∈ (adjMG M).labels ↔ x < n := by
    intro x
    rw [mem_adjMG_labels]
    constructor
    · rintro ⟨y, v, _, h | h⟩
      · exact (hentry_lt _ _ _ h).1
      · exact (hentry_lt _ _ _ h).2
    · exact hused x
  have hperm : (List.range n).Perm (adjMG M).labels := by
    rw [List.perm_ext_iff_of_nodup List.nodup_range hv.nodup]
    intro x; rw [hmem, List.mem_range]
  have hsize : (fromAdjacencyMatrix M).size = n := by
    rw [h, size_ofMG, ← hperm.length_eq, List.length_range]
  have hes : ∀ t ∈ (fromAdjacencyMatrix M).edges, t.1 ∈ List.range n ∧ t.2.1 ∈ List.range n := by
    rintro ⟨i, j, a⟩ ht
    rw [h] at ht
    obtain ⟨e, he, heq⟩ := List.mem_map.1 ((edges_perm hv).mem_iff.1 ht)
    simp only [Prod.mk.injEq] at heq
    obtain ⟨rfl, rfl, rfl⟩ := heq
    have hc := hv.closed e he
    rw [hmem, hmem] at hc
    simpa using hc
  obtain ⟨M', h1, h2, h3⟩ := adjLoop (W := W) id (some "weight") sum (List.range n) List.nodup_range _ hes
    (List.replicate n (List.replicate n (0 : W))) (by rw [List.length_range]; exact square_zero n)
  rw [List.length_range] at h2
  have hto : (fromAdjacencyMatrix M).toAdjacencyMatrix id (some (List.range n)) sum (some "weight") = .ok M' := by
    have hcase : ∀ l : List Nat, l ≠ [] →
        (fromAdjacencyMatrix M).toAdjacencyMatrix id (some l) sum (some "weight") =
          (fromAdjacencyMatrix M).edges.foldlM (adjStep id (some "weight") sum l)
            (List.replicate n (List.replicate n (0 : W))) := by
      intro l hl
      unfold Net.toAdjacencyMatrix
      rw [hsize]
      cases l with
      | nil => exact absurd rfl hl
      | cons _ _ => rfl
    rw [hcase _ (by simp; omega)]
    exact h1
  rw [hto]
  congr 1
  -- entrywise equality
  have hent : ∀ a b, a < n → b < n → entry M' a b = entry M a b := by
    intro a b ha hb
    rw [h3 a b a b (by simp [ha]) (by simp [hb])]
    have hz : entry (List.replicate n (List.replicate n (0 : W))) a b = some 0 := by simp [entry, ha, hb]
    rw [hz]
    have hfil : ((fromAdjacencyMatrix M).edges.filter (fun t => decide (t.1 = a) && decide (t.2.1 = b))).map
        (fun t => edgeWeight (W := W) id (some "weight") t.2.2) =
        (between (adjMG M).edges a b).map (fun at' => edgeWeight (W := W) id (some "weight") at') := by
      rw [h, edges_ofMG, List.filter_flatMap]
      have hb' : b ∈ (adjMG M).labels := (hmem b).2 hb
      have step1 : (adjMG M).labels.flatMap (fun j => ((sources (adjMG M).edges j).flatMap (fun i =>
          (between (adjMG M).edges i j).map (fun a => (i, j, a)))).filter
            (fun t => decide (t.1 = a) && decide (t.2.1 = b))) =
          (adjMG M).labels.flatMap (fun j => if decide (j = b) then
            (between (adjMG M).edges a b).map (fun x => (a, b, x)) else []) := by
        apply flatMap_congr'
        intro j _
        by_cases hj : j = b
        · subst hj
          simp only [decide_true, if_true]
          rw [List.filter_flatMap]
          have : (sources (adjMG M).edges j).flatMap (fun i => ((between (adjMG M).edges i j).map (fun x => (i, j, x))).filter
              (fun t => decide (t.1 = a) && decide (t.2.1 = j))) =
              (sources (adjMG M).edges j).flatMap (fun i => if decide (i = a) then
                (between (adjMG M).edges a j).map (fun x => (a, j, x)) else []) := by
            apply flatMap_congr'
            intro i _
            by_cases hi : i = a
            · subst hi
              simp only [decide_true, if_true]
              rw [List.filter_eq_self]
              intro t ht
              obtain ⟨x, _, rfl⟩ := List.mem_map.1 ht
              simp
            · simp only [hi, decide_false, Bool.false_eq_true, if_false]
              rw [List.filter_eq_nil_iff]
              intro t ht
              obtain ⟨x, _, rfl⟩ := List.mem_map.1 ht
              simp [hi]
          rw [this, ← flatMap_filter' _ (fun _ => (between (adjMG M).edges a j).map (fun x => (a, j, x)))]
          by_cases hs : a ∈ sources (adjMG M).edges j
          · rw [filter_eq_singleton (nodup_sources _ _) hs]; simp
          · have h0 := between_eq_nil_iff.2 hs
            rw [h0]; simp
        · simp only [hj, decide_false, Bool.false_eq_true, if_false]
          rw [List.filter_eq_nil_iff]
          intro t ht
          simp only [List.mem_flatMap, List.mem_map] at ht
          obtain ⟨i, _, x, _, rfl⟩ := ht
          simp [hj]
      rw [step1, ← flatMap_filter' _ (fun _ => (between (adjMG M).edges a b).map (fun x => (a, b, x)))]
      rw [filter_eq_singleton hv.nodup hb']
      simp only [List.flatMap_cons, List.flatMap_nil, List.append_nil, List.map_map]
      rfl
    rw [hfil, between_adjMG]
    have hex : ∃ v, entry M a b = some v := by
      have h1 : a < M.length := by rw [hrows]; exact ha
      have h2 : (M[a]).length = n := hcols _ (List.getElem_mem _)
      exact ⟨(M[a])[b], by simp [entry, h1, h2, hb]⟩
    obtain ⟨v, hve⟩ := hex
    rw [hve]
    by_cases hv0 : v = 0
    · subst hv0; simp [accum]
    · simp only [hv0, if_false, List.map_cons, List.map_nil, accum, List.foldl_cons, List.foldl_nil, Option.map_some]
      cases sum <;> simp [edgeWeight, Dict.get?_cons, hadd]
  apply List.ext_getElem
  · rw [h2.1, hrows]
  · intro a ha1 ha2
    have ha : a < n := by rw [← hrows]; exact ha2
    have l1 : (M'[a]).length = n := h2.2 _ (List.getElem_mem _)
    have l2 : (M[a]).length = n := hcols _ (List.getElem_mem _)
    apply List.ext_getElem
    · rw [l1, l2]
    · intro b hb1 hb2
      have := hent a b ha (by omega)
      simpa [entry, ha1, ha2, hb1, hb2] using this

/-- A 3x3 matrix without isolated index meets the hypotheses. -/
example : ∃ M : List (List Int), M.length = 3 ∧ (∀ r ∈ M, r.length = 3) ∧
    (∀ x : Nat, x < 3 → ∃ (y : Nat) (v : Int), v ≠ 0 ∧
      ((M[x]?).bind (fun r => r[y]?) = some v ∨ (M[y]?).bind (fun r => r[x]?) = some v)) := by
  refine ⟨[[0, 2, 0], [0, 0, 0], [5, 0, 1]], rfl, by decide, ?_⟩
  intro x hx
  have : x = 0 ∨ x = 1 ∨ x = 2 := by omega
  rcases this with rfl | rfl | rfl
  · exact ⟨1, 2, by decide, Or.inl rfl⟩
  · exact ⟨0, 2, by decide, Or.inr rfl⟩
  · exact ⟨0, 5, by decide, Or.inl rfl⟩

/-- C09, negation of the unrestricted round trip: node 0 of this matrix has no entry and is lost; the conversion back
over `0..1` raises. -/
theorem C09_isolated_node_lost :
    ∃ M : List (List Int), M.length = 2 ∧ (∀ r ∈ M, r.length = 2) ∧
      (fromAdjacencyMatrix M).labels = [1] ∧
      (fromAdjacencyMatrix M).toAdjacencyMatrix id (some [0, 1]) true (some "weight") = .error .indexError :=
  ⟨[[0, 0], [0, 7]], by decide⟩

end Verif
