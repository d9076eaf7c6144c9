import Verif.Model.Mlp
import Verif.Spec.Mlp
import Verif.Proofs.JointRun
import Verif.Proofs.Copy
/-! # Lemmas on the multilayer perceptron demo -/

namespace Verif
open MG

/-- All pairs of nodes, by origin. -/
def allPairs (n : Nat) : List (Nat × Nat) := (List.range n).flatMap (fun i => (List.range n).map (fun j => (i, j)))

/-- The network with one edge between any two nodes, with attributes `a`. -/
def fullG (n : Nat) (a : Nat → Nat → Dict String Rat) : MG Nat Rat :=
  ⟨(List.range n).map (fun i => (i, [])), (allPairs n).map (fun p => ⟨p.1, p.2, a p.1 p.2⟩), none⟩

theorem mem_allPairs {n : Nat} {p : Nat × Nat} : p ∈ allPairs n ↔ p.1 < n ∧ p.2 < n := by
  obtain ⟨i, j⟩ := p
  simp [allPairs, List.mem_flatMap]

theorem labels_fullG (n : Nat) (a) : (fullG n a).labels = List.range n := by
  simp [fullG, MG.labels, Function.comp_def]

theorem valid_fullG (n : Nat) (a) : (fullG n a).Valid := by
  refine ⟨by rw [labels_fullG]; exact List.nodup_range, ?_⟩
  intro e he
  simp only [fullG, List.mem_map] at he
  obtain ⟨p, hp, rfl⟩ := he
  rw [labels_fullG, List.mem_range, List.mem_range]
  exact mem_allPairs.1 hp

theorem filter_range_eq {n j : Nat} (hj : j < n) : (List.range n).filter (fun x => decide (x = j)) = [j] := by
  induction n with
  | zero => omega
  | succ n ih =>
    rw [List.range_succ, List.filter_append]
    by_cases h : j = n
    · subst h
      rw [List.filter_eq_nil_iff.2 (by intro x hx; rw [List.mem_range] at hx; simp; omega)]
      simp
    · rw [ih (by omega)]
      simp [Ne.symm h]

theorem filter_pairs_dst {n j : Nat} (hj : j < n) (l : List Nat) :
    (l.flatMap (fun i => (List.range n).map (fun j => (i, j)))).filter (fun p => decide (p.2 = j)) = l.map (fun i => (i, j)) := by
  induction l with
  | nil => rfl
  | cons i l ih =>
    rw [List.flatMap_cons, List.filter_append, ih, List.filter_map]
    have : ((fun p : Nat × Nat => decide (p.2 = j)) ∘ fun j => (i, j)) = fun x => decide (x = j) := rfl
    rw [this, filter_range_eq hj]
    rfl

theorem into_fullG {n j : Nat} (hj : j < n) (a) :
    (fullG n a).edges.filter (fun e => decide (e.dst = j)) = (List.range n).map (fun i => ⟨i, j, a i j⟩) := by
  simp only [fullG, List.filter_map]
  have : ((fun e : Edge Nat Rat => decide (e.dst = j)) ∘ fun p : Nat × Nat => ⟨p.1, p.2, a p.1 p.2⟩) = fun p => decide (p.2 = j) := rfl
  rw [this, allPairs, filter_pairs_dst hj, List.map_map]
  rfl

theorem sources_fullG {n j : Nat} (hj : j < n) (a) : sources (fullG n a).edges j = List.range n := by
  unfold sources
  rw [into_fullG hj, List.map_map]
  have : (Edge.src ∘ fun i => (⟨i, j, a i j⟩ : Edge Nat Rat)) = id := rfl
  rw [this, List.map_id, dedup_of_nodup List.nodup_range]

theorem between_fullG {n i j : Nat} (hi : i < n) (hj : j < n) (a) : between (fullG n a).edges i j = [a i j] := by
  unfold between
  rw [← List.filter_filter, into_fullG hj, List.filter_map]
  have : ((fun e : Edge Nat Rat => decide (e.src = i)) ∘ fun i => (⟨i, j, a i j⟩ : Edge Nat Rat)) = fun x => decide (x = i) := rfl
  rw [this, filter_range_eq hi]
  rfl

theorem updateAll_fullG {n i j : Nat} (a : Nat → Nat → Dict String Rat) (v : Dict String Rat) :
    updateAll (fullG n a) i j v = fullG n (fun x y => if x = i ∧ y = j then (a x y).update v else a x y) := by
  simp only [updateAll, fullG, List.map_map, MG.mk.injEq, and_true, true_and]
  apply List.map_congr_left
  intro p _
  simp only [Function.comp]
  split <;> rfl

theorem updateEdge_fullG {n i j : Nat} (hi : i < n) (hj : j < n) (a : Nat → Nat → Dict String Rat) (v : Dict String Rat) :
    Net.updateEdge i j none v (ofMG (fullG n a)) =
      (.ok (), ofMG (fullG n (fun x y => if x = i ∧ y = j then (a x y).update v else a x y))) := by
  rw [(updateEdge_ofMG (valid_fullG n a) i j none v).1]
  simp only [MG.exec, between_fullG hi hj, List.cons_ne_nil, if_false, updateAll_fullG]

/-- `weights[i][j]`, if there is one. -/
def lookupW (ws : Weights) (i j : Nat) : Option Rat := (ws.get? i).bind (fun r => r.get? j)

/-- Only nodes below `n` occur, and no key is repeated. -/
structure WeightsOk (n : Nat) (ws : Weights) : Prop where
  nodup : ws.keys.Nodup
  rows : ∀ p ∈ ws, p.1 < n ∧ (Dict.keys p.2).Nodup ∧ ∀ q ∈ p.2, q.1 < n

theorem setRow {n i : Nat} (hi : i < n) : ∀ (r : Dict Nat Rat) (a : Nat → Nat → Dict String Rat), r.keys.Nodup → (∀ q ∈ r, q.1 < n) →
    NetM.forEach r (fun q => Net.updateEdge i q.1 none [("weight", q.2)]) (ofMG (fullG n a)) =
      (.ok (), ofMG (fullG n (fun x y => match if x = i then r.get? y else none with
        | some w => (a x y).update [("weight", w)]
        | none => a x y))) := by
  intro r
  induction r with
  | nil =>
    intro a _ _
    simp only [NetM.forEach]
    have : (fun x y => match if x = i then Dict.get? ([] : Dict Nat Rat) y else none with
        | some w => (a x y).update [("weight", w)]
        | none => a x y) = a := by
      funext x y
      by_cases h : x = i <;> simp [h]
    rw [this]
    rfl
  | cons q r ih =>
    intro a hnd hlt
    obtain ⟨j, w⟩ := q
    have hj : j < n := hlt (j, w) (by simp)
    rw [Dict.keys, List.map_cons, List.nodup_cons] at hnd
    refine (NetM.bind_ok (updateEdge_fullG hi hj a _)).trans ((ih _ hnd.2 (fun q hq => hlt q (by simp [hq]))).trans ?_)
    congr 2
    congr 1
    funext x y
    by_cases hx : x = i
    · subst hx
      simp only [if_true, true_and, Dict.get?_cons]
      by_cases hy : j = y
      · subst hy
        have : Dict.get? r j = none := Dict.get?_eq_none_iff.2 hnd.1
        simp [this]
      · simp [hy, Ne.symm hy]
    · simp [hx]

theorem setWeights_fullG {n : Nat} : ∀ (ws : Weights) (a : Nat → Nat → Dict String Rat), WeightsOk n ws →
    setWeights ws (ofMG (fullG n a)) = (.ok (), ofMG (fullG n (fun x y => match lookupW ws x y with
        | some w => (a x y).update [("weight", w)]
        | none => a x y))) := by
  intro ws
  unfold setWeights
  induction ws with
  | nil => intro a _; rfl
  | cons p ws ih =>
    intro a hok
    obtain ⟨i, r⟩ := p
    obtain ⟨hi, hnd, hlt⟩ := hok.rows (i, r) (by simp)
    have hk := hok.nodup
    rw [Dict.keys, List.map_cons, List.nodup_cons] at hk
    refine (NetM.bind_ok (setRow hi r a hnd hlt)).trans ((ih _ ⟨hk.2, fun p hp => hok.rows p (by simp [hp])⟩).trans ?_)
    congr 2
    congr 1
    funext x y
    simp only [lookupW, Dict.get?_cons]
    by_cases hx : i = x
    · subst hx
      have : Dict.get? ws i = none := Dict.get?_eq_none_iff.2 hk.1
      simp [this]
    · simp [hx, Ne.symm hx]

/-! ## The initial network -/

theorem addEdges_full {n : Nat} (es : List (Nat × Nat)) : ∀ (g : MG Nat Rat), g.labels = List.range n → (∀ p ∈ es, p.1 < n ∧ p.2 < n) →
    MG.run g (es.map (fun p => Net.Op.addEdge p.1 p.2 [])) = { g with edges := g.edges ++ es.map (fun p => ⟨p.1, p.2, []⟩) } := by
  induction es with
  | nil => intro g _ _; simp [MG.run]
  | cons p es ih =>
    intro g hl hp
    obtain ⟨h1, h2⟩ := hp p (by simp)
    have e1 : MG.addEdge g p.1 p.2 [] = { g with edges := g.edges ++ [⟨p.1, p.2, []⟩] } := by
      unfold MG.addEdge MG.ensure
      simp [hl, h1, h2]
    have := ih { g with edges := g.edges ++ [⟨p.1, p.2, []⟩] } hl (fun p hp' => hp p (by simp [hp']))
    simp only [MG.run, List.map_cons, List.foldl_cons, MG.exec, e1] at this ⊢
    rw [this]
    simp

theorem firstRow (k : Nat) : MG.run (MG.empty : MG Nat Rat) ((List.range (k + 1)).map (fun j => Net.Op.addEdge 0 j [])) =
    ⟨(List.range (k + 1)).map (fun i => (i, [])), (List.range (k + 1)).map (fun j => ⟨0, j, []⟩), none⟩ := by
  induction k with
  | zero => rfl
  | succ k ih =>
    rw [List.range_succ (n := k + 1), List.map_append]
    unfold MG.run at ih ⊢
    rw [List.foldl_append, ih]
    simp only [List.map_cons, List.map_nil, List.foldl_cons, List.foldl_nil, MG.exec, MG.addEdge, MG.ensure, MG.labels,
      List.map_map, Function.comp_def, List.map_id', List.mem_range, Nat.zero_lt_succ, if_true, Nat.lt_irrefl, if_false, List.map_append]

theorem mlpNetwork_eq {n : Nat} (hn : 1 ≤ n) {ws : Weights} (hok : WeightsOk n ws) :
    mlpNetwork n ws = (.ok (), ofMG (fullG n (fun x y => match lookupW ws x y with
        | some w => [("weight", w)]
        | none => []))) := by
  obtain ⟨k, rfl⟩ : ∃ k, n = k + 1 := ⟨n - 1, by omega⟩
  have hrun : MG.run (MG.empty : MG Nat Rat) ((List.range (k + 1)).flatMap (fun i => (List.range (k + 1)).map (fun j => Net.Op.addEdge i j []))) =
      fullG (k + 1) (fun _ _ => []) := by
    have h1 : (List.range (k + 1)).flatMap (fun i => (List.range (k + 1)).map (fun j => (Net.Op.addEdge i j [] : Net.Op Nat Rat))) =
        (List.range (k + 1)).map (fun j => Net.Op.addEdge 0 j []) ++
        (((List.range k).flatMap (fun i => (List.range (k + 1)).map (fun j => (i + 1, j)))).map (fun p => Net.Op.addEdge p.1 p.2 [])) := by
      rw [List.range_succ_eq_map (n := k), List.flatMap_cons, List.flatMap_map, List.map_flatMap]
      simp [List.map_map, Function.comp_def]
    rw [h1]
    unfold MG.run
    rw [List.foldl_append]
    have h2 := firstRow k
    unfold MG.run at h2
    rw [h2]
    have h3 := addEdges_full (n := k + 1) ((List.range k).flatMap (fun i => (List.range (k + 1)).map (fun j => (i + 1, j))))
      ⟨(List.range (k + 1)).map (fun i => (i, [])), (List.range (k + 1)).map (fun j => ⟨0, j, []⟩), none⟩
      (by simp [MG.labels, Function.comp_def]) (by
        intro p hp
        simp only [List.mem_flatMap, List.mem_range, List.mem_map] at hp
        obtain ⟨i, hi, j, hj, rfl⟩ := hp
        exact ⟨by simp; omega, hj⟩)
    unfold MG.run at h3
    rw [h3]
    simp only [fullG, allPairs, MG.mk.injEq, true_and, and_true]
    rw [List.range_succ_eq_map (n := k), List.flatMap_cons, List.flatMap_map, List.map_append, List.map_map]
    rfl
  unfold mlpNetwork
  have e0 : (Net.empty : Net Nat Rat) = ofMG MG.empty := rfl
  have hv : (MG.empty : MG Nat Rat).Valid := ⟨by simp [MG.empty, MG.labels], by simp [MG.empty]⟩
  rw [e0, (run_ofMG hv _).1, hrun, setWeights_fullG ws _ hok]
  rfl

/-! ## The rules -/

theorem mlpAdd_fold {I : Type} {ctx : NodeCtx Nat Rat Rat I} {w f : Nat → Rat} : ∀ (l : List Nat) (s : Rat),
    (∀ i ∈ l, ctx.connections.get? i = some [[("weight", w i)]] ∧ ctx.activities.get? i = some (f i)) →
    l.foldlM (mlpAdd ctx) s = .ok (s + (l.map (fun i => w i * f i)).sum) := by
  intro l
  induction l with
  | nil => intro s _; simp [pure, Except.pure, Rat.add_zero]
  | cons i l ih =>
    intro s h
    obtain ⟨h1, h2⟩ := h i (by simp)
    have : mlpAdd ctx s i = .ok (s + w i * f i) := by
      simp [mlpAdd, Dict.get, h1, h2, Dict.get?_cons]
    rw [List.foldlM_cons, this]
    show l.foldlM (mlpAdd ctx) (s + w i * f i) = _
    rw [ih _ (fun j hj => h j (by simp [hj])), List.map_cons, List.sum_cons, Rat.add_assoc]

/-! ## Reading the weights -/

theorem mem_dict_set {K W : Type} [DecidableEq K] {d : Dict K W} {k : K} {v : W} {p : K × W} (h : p ∈ d.set k v) : p = (k, v) ∨ p ∈ d := by
  induction d with
  | nil => simpa [Dict.set] using h
  | cons q d ih =>
    obtain ⟨a, b⟩ := q
    simp only [Dict.set] at h
    split at h
    · rcases List.mem_cons.1 h with h | h
      · exact Or.inl h
      · exact Or.inr (by simp [h])
    · rcases List.mem_cons.1 h with h | h
      · exact Or.inr (by simp [h])
      · rcases ih h with h | h
        · exact Or.inl h
        · exact Or.inr (by simp [h])

theorem lookupW_readWeight (i : Nat) (W : Weights) (w : Rat) (j x y : Nat) :
    lookupW (readWeight i W (w, j)) x y = if x = j ∧ y = i then some w else lookupW W x y := by
  unfold readWeight lookupW
  by_cases hk : j ∈ W.keys
  · simp only [if_pos hk]
    rw [Dict.get?_set]
    obtain ⟨r, hr⟩ := Dict.exists_get?_of_mem_keys hk
    by_cases hx : j = x
    · subst hx
      simp only [if_true, Option.bind_some, hr, Option.getD_some, true_and]
      rw [Dict.get?_set]
      by_cases hy : i = y <;> simp [hy, eq_comm]
    · simp [hx, Ne.symm hx]
  · simp only [if_neg hk]
    have hn : Dict.get? W j = none := Dict.get?_eq_none_iff.2 hk
    rw [Dict.get?_set]
    by_cases hx : j = x
    · subst hx
      simp only [if_true, Option.bind_some, Dict.get?_set_self, Option.getD_some, true_and, hn, Option.bind_none]
      rw [Dict.get?_set]
      by_cases hy : i = y
      · simp [hy]
      · simp [hy, Ne.symm hy]
    · rw [if_neg hx, Dict.get?_set, if_neg hx]
      simp [Ne.symm hx]

theorem weightsOk_readWeight {n i j : Nat} {W : Weights} (hi : i < n) (hj : j < n) (h : WeightsOk n W) (w : Rat) :
    WeightsOk n (readWeight i W (w, j)) := by
  have key : ∀ (W : Weights), WeightsOk n W → ∀ r : Dict Nat Rat, r.keys.Nodup → (∀ q ∈ r, q.1 < n) → WeightsOk n (W.set j r) := by
    intro W h r h1 h2
    refine ⟨Dict.nodup_keys_set h.nodup _ _, ?_⟩
    intro p hp
    rcases mem_dict_set hp with rfl | hp
    · exact ⟨hj, h1, h2⟩
    · exact h.rows p hp
  unfold readWeight
  simp only
  have h1 : WeightsOk n (if j ∈ W.keys then W else W.set j []) := by
    split
    · exact h
    · exact key W h [] (by simp [Dict.keys]) (by simp)
  refine key _ h1 _ ?_ ?_
  · cases hr : Dict.get? (if j ∈ W.keys then W else W.set j []) j with
    | none => exact Dict.nodup_keys_set (by simp [Dict.keys]) _ _
    | some r =>
      exact Dict.nodup_keys_set (h1.rows _ ((Dict.get?_eq_some_iff h1.nodup).1 hr)).2.1 _ _
  · intro q hq
    rcases mem_dict_set hq with rfl | hq
    · exact hi
    · cases hr : Dict.get? (if j ∈ W.keys then W else W.set j []) j with
      | none => rw [hr] at hq; cases hq
      | some r =>
        rw [hr] at hq
        exact (h1.rows _ ((Dict.get?_eq_some_iff h1.nodup).1 hr)).2.2 q hq

theorem readRow {n i : Nat} (hi : i < n) : ∀ (l : List Rat) (k : Nat) (W : Weights), WeightsOk n W → k + l.length ≤ n →
    WeightsOk n ((l.zipIdx k).foldl (readWeight i) W) ∧
    ∀ x y, lookupW ((l.zipIdx k).foldl (readWeight i) W) x y =
      if y = i ∧ k ≤ x ∧ x < k + l.length then l[x - k]? else lookupW W x y := by
  intro l
  induction l with
  | nil => intro k W h _; exact ⟨h, fun x y => by simp; omega⟩
  | cons w l ih =>
    intro k W h hl
    rw [List.length_cons] at hl
    obtain ⟨h1, h2⟩ := ih (k + 1) (readWeight i W (w, k)) (weightsOk_readWeight hi (by omega) h w) (by omega)
    rw [List.zipIdx_cons, List.foldl_cons]
    refine ⟨h1, ?_⟩
    intro x y
    rw [h2, lookupW_readWeight, List.length_cons]
    by_cases hy : y = i
    · by_cases hx : x = k
      · subst hx; subst hy
        rw [if_neg (by omega), if_pos ⟨rfl, rfl⟩, if_pos (by omega)]
        simp
      · by_cases hr : k + 1 ≤ x ∧ x < k + 1 + l.length
        · rw [if_pos ⟨hy, hr⟩, if_pos (by omega), show x - k = (x - (k + 1)) + 1 from by omega, List.getElem?_cons_succ]
        · rw [if_neg (by omega), if_neg (by omega), if_neg (by omega)]
    · rw [if_neg (by omega), if_neg (by omega), if_neg (by omega)]

theorem readRows {n c : Nat} (hc : c ≤ n) : ∀ (rows : List (List Rat)) (k : Nat) (W : Weights), WeightsOk n W → k + rows.length ≤ n →
    (∀ l ∈ rows, l.length = c) →
    WeightsOk n ((rows.zipIdx k).foldl (fun W p => p.1.zipIdx.foldl (readWeight p.2) W) W) ∧
    ∀ x y, lookupW ((rows.zipIdx k).foldl (fun W p => p.1.zipIdx.foldl (readWeight p.2) W) W) x y =
      if x < c ∧ k ≤ y ∧ y < k + rows.length then (rows[y - k]?).bind (fun l => l[x]?) else lookupW W x y := by
  intro rows
  induction rows with
  | nil => intro k W h _ _; exact ⟨h, fun x y => by simp; omega⟩
  | cons l rows ih =>
    intro k W h hl hlen
    rw [List.length_cons] at hl
    have hll := hlen l (by simp)
    obtain ⟨r1, r2⟩ := readRow (i := k) (n := n) (by omega) l 0 W h (by omega)
    obtain ⟨h1, h2⟩ := ih (k + 1) _ r1 (by omega) (fun l hl => hlen l (by simp [hl]))
    rw [List.zipIdx_cons, List.foldl_cons]
    refine ⟨h1, ?_⟩
    intro x y
    rw [h2, r2, List.length_cons]
    by_cases hx : x < c
    · by_cases hy : y = k
      · subst hy
        rw [if_neg (by omega), if_pos (by omega), if_pos (by omega)]
        simp
      · by_cases hr : k + 1 ≤ y ∧ y < k + 1 + rows.length
        · rw [if_pos ⟨hx, hr⟩, if_pos (by omega), show y - k = (y - (k + 1)) + 1 from by omega, List.getElem?_cons_succ]
        · rw [if_neg (by omega), if_neg (by omega), if_neg (by omega)]
    · rw [if_neg (by omega), if_neg (by omega), if_neg (by omega)]

/-- The weight from `x` to `y` is the entry in row `y`, column `x`. -/
theorem readWeights_ok {n c : Nat} {rows : List (List Rat)} (hc : c ≤ n) (hr : rows.length ≤ n) (hl : ∀ l ∈ rows, l.length = c) :
    WeightsOk n (readWeights rows) ∧ ∀ x y, lookupW (readWeights rows) x y =
      if x < c ∧ y < rows.length then (rows[y]?).bind (fun l => l[x]?) else none := by
  obtain ⟨h1, h2⟩ := readRows hc rows 0 [] ⟨by simp [Dict.keys], by simp⟩ (by omega) hl
  refine ⟨h1, ?_⟩
  intro x y
  have := h2 x y
  simpa [readWeights, lookupW] using this

/-! ## Weights for edges that do not exist -/

theorem updateEdge_fullG_fail {n i j : Nat} (h : ¬ (i < n ∧ j < n)) (a : Nat → Nat → Dict String Rat) (v : Dict String Rat) :
    Net.updateEdge i j none v (ofMG (fullG n a)) = (.error (.exception "edge does not exist"), ofMG (fullG n a)) := by
  rw [(updateEdge_ofMG (valid_fullG n a) i j none v).1]
  have : between (fullG n a).edges i j = [] := by
    rw [between_eq_nil_iff, mem_sources]
    rintro ⟨e, he, h1, h2⟩
    obtain ⟨h3, h4⟩ := (valid_fullG n a).closed e he
    rw [labels_fullG, List.mem_range] at h3 h4
    exact h ⟨h1 ▸ h3, h2 ▸ h4⟩
  simp only [MG.exec, this, if_true]

theorem setRow_fail {n i : Nat} : ∀ (r : Dict Nat Rat) (a : Nat → Nat → Dict String Rat), (∃ q ∈ r, ¬ (i < n ∧ q.1 < n)) →
    ∃ N, NetM.forEach r (fun q => Net.updateEdge i q.1 none [("weight", q.2)]) (ofMG (fullG n a)) =
      (.error (.exception "edge does not exist"), N) := by
  intro r
  induction r with
  | nil => rintro a ⟨q, hq, _⟩; cases hq
  | cons p r ih =>
    rintro a ⟨q, hq, hb⟩
    by_cases hp : i < n ∧ p.1 < n
    · have hq' : q ∈ r := by
        rcases List.mem_cons.1 hq with rfl | h
        · exact absurd hp hb
        · exact h
      obtain ⟨N, hN⟩ := ih _ ⟨q, hq', hb⟩
      exact ⟨N, (NetM.bind_ok (updateEdge_fullG hp.1 hp.2 a _)).trans hN⟩
    · exact ⟨_, NetM.bind_error (updateEdge_fullG_fail hp a _)⟩

theorem setRow_some {n i : Nat} : ∀ (r : Dict Nat Rat) (a : Nat → Nat → Dict String Rat), (∀ q ∈ r, i < n ∧ q.1 < n) →
    ∃ a', NetM.forEach r (fun q => Net.updateEdge i q.1 none [("weight", q.2)]) (ofMG (fullG n a)) = (.ok (), ofMG (fullG n a')) := by
  intro r
  induction r with
  | nil => intro a _; exact ⟨a, rfl⟩
  | cons p r ih =>
    intro a h
    obtain ⟨h1, h2⟩ := h p (by simp)
    obtain ⟨a', ha⟩ := ih _ (fun q hq => h q (by simp [hq]))
    exact ⟨a', (NetM.bind_ok (updateEdge_fullG h1 h2 a _)).trans ha⟩

/-- A weight between nodes of which one does not exist. -/
theorem setWeights_fail {n : Nat} : ∀ (ws : Weights) (a : Nat → Nat → Dict String Rat), (∃ p ∈ ws, ∃ q ∈ p.2, ¬ (p.1 < n ∧ q.1 < n)) →
    ∃ N, setWeights ws (ofMG (fullG n a)) = (.error (.exception "edge does not exist"), N) := by
  intro ws
  unfold setWeights
  induction ws with
  | nil => rintro a ⟨p, hp, _⟩; cases hp
  | cons p ws ih =>
    rintro a ⟨p', hp', q, hq, hb⟩
    by_cases h : ∀ q ∈ p.2, p.1 < n ∧ q.1 < n
    · have hp : p' ∈ ws := by
        rcases List.mem_cons.1 hp' with rfl | h'
        · exact absurd (h q hq) hb
        · exact h'
      obtain ⟨a', ha⟩ := setRow_some p.2 a h
      obtain ⟨N, hN⟩ := ih a' ⟨p', hp, q, hq, hb⟩
      exact ⟨N, (NetM.bind_ok ha).trans hN⟩
    · simp only [Classical.not_forall] at h
      obtain ⟨q, hq, hb⟩ := h
      obtain ⟨N, hN⟩ := setRow_fail p.2 a ⟨q, hq, hb⟩
      exact ⟨N, NetM.bind_error hN⟩

theorem fullG_congr {n : Nat} {a a' : Nat → Nat → Dict String Rat} (h : ∀ i j, i < n → j < n → a i j = a' i j) : fullG n a = fullG n a' := by
  unfold fullG
  congr 1
  apply List.map_congr_left
  intro p hp
  rw [h _ _ (mem_allPairs.1 hp).1 (mem_allPairs.1 hp).2]

end Verif
