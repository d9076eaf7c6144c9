import Verif.Proofs.PlotData
/-! # C85, C86: the data of `plot_degree_distribution`, `poincare_plot` and `bifurcation_plot` -/

namespace Verif
section
variable {L A : Type} [DecidableEq L]

/-- Number of edges at a node: into it, out of it, or both (a loop counts twice). -/
def edgesAt (inD outD : Bool) (n : Net L A) (x : L) : Nat :=
  let into := (n.edges.filter (fun t => decide (t.2.1 = x))).length
  let out := (n.edges.filter (fun t => decide (t.1 = x))).length
  if inD then into else if outD then out else out + into

theorem degreeOf_run (ops : List (Net.Op L A)) (inD outD : Bool) (x : L) (hx : x ∈ (Net.run Net.empty ops).labels) :
    degreeOf inD outD (Net.run Net.empty ops) x = .ok (edgesAt inD outD (Net.run Net.empty ops) x : Int) := by
  obtain ⟨h1, h2, h3⟩ := C01_degrees_count_edges ops x hx
  unfold degreeOf edgesAt
  cases inD with
  | true => simpa using h1
  | false => cases outD with
    | true => simpa using h2
    | false => simpa using h3

/-- C85: the bars stand at 1, 2, ..., the greatest degree, and the bar at `k` is as high as there are nodes with `k` edges.  Both
flags: the in-degree is used. -/
theorem C85_bars (ops : List (Net.Op L A)) (inD outD : Bool) (hne : (Net.run Net.empty ops).labels ≠ []) :
    let n := Net.run Net.empty ops
    ∃ m : Nat, (∀ x ∈ n.labels, edgesAt inD outD n x ≤ m) ∧ (∃ x ∈ n.labels, edgesAt inD outD n x = m) ∧
      degreeBars inD outD n = .ok ((List.range m).map (fun (i : Nat) => (i : Int) + 1),
        (List.range m).map (fun i => n.labels.countP (fun x => decide (edgesAt inD outD n x = i + 1)))) := by
  intro n
  obtain ⟨d, h1, h2⟩ := foldlM_count (step := countDegree inD outD n) (f := edgesAt inD outD n) n.labels (by
    intro d x hx
    unfold countDegree
    rw [degreeOf_run ops inD outD x hx]) []
  simp only [Dict.get?_nil, Option.getD_none, Nat.zero_add] at h2
  have hmem : ∀ k : Int, k ∈ d.keys ↔ ∃ x ∈ n.labels, (edgesAt inD outD n x : Int) = k := by
    intro k
    rw [← Dict.isSome_get?_iff, h2]
    split
    · rename_i h0
      rw [List.countP_eq_zero] at h0
      simp only [Option.isSome_none, Bool.false_eq_true, false_iff]
      rintro ⟨x, hx, e⟩
      exact h0 x hx (by simp [e])
    · rename_i h0
      simp only [Option.isSome_some, true_iff]
      obtain ⟨x, hx, e⟩ := List.countP_pos_iff.1 (Nat.pos_of_ne_zero h0)
      exact ⟨x, hx, by simpa using e⟩
  unfold degreeBars
  rw [h1]
  cases hk : d.keys with
  | nil =>
    obtain ⟨x, hx⟩ := List.exists_mem_of_ne_nil _ hne
    have := (hmem _).2 ⟨x, hx, rfl⟩
    rw [hk] at this; cases this
  | cons k ks =>
    obtain ⟨g1, g2⟩ := foldl_max_spec ks k
    rw [← hk] at g1 g2
    obtain ⟨x, hx, e⟩ := (hmem _).1 g2
    refine ⟨edgesAt inD outD n x, ?_, ⟨x, hx, rfl⟩, ?_⟩
    · intro y hy
      have := g1 _ ((hmem _).2 ⟨y, hy, rfl⟩)
      omega
    · simp only [hk, ← e, Int.toNat_natCast, List.map_map]
      congr 2
      apply List.map_congr_left
      intro i _
      have hcast : (fun y => decide ((edgesAt inD outD n y : Int) = (i : Int) + 1)) =
          fun y => decide (edgesAt inD outD n y = i + 1) := by
        funext y; congr 1; apply propext; omega
      simp only [Function.comp, Dict.has, h2, hcast]
      split
      · rename_i h; exact h.symm
      · rfl

/-- C85: a network without nodes raises. -/
theorem C85_empty (inD outD : Bool) (n : Net L A) (h : n.labels = []) : degreeBars inD outD n = .error .valueError := by
  unfold degreeBars
  rw [h]; rfl

/-- C85, "the heights add up to the number of nodes" is false (`C85_isolated`): nodes of degree 0 have no bar.  With them, the sum is
right. -/
theorem C85_all_counted_partial (ops : List (Net.Op L A)) (inD outD : Bool) (xs : List Int) (hs : List Nat)
    (h : degreeBars inD outD (Net.run Net.empty ops) = .ok (xs, hs)) :
    hs.sum + (Net.run Net.empty ops).labels.countP (fun x => decide (edgesAt inD outD (Net.run Net.empty ops) x = 0)) =
      (Net.run Net.empty ops).labels.length := by
  by_cases hne : (Net.run Net.empty ops).labels = []
  · rw [C85_empty inD outD _ hne] at h; cases h
  · obtain ⟨m, h1, -, h3⟩ := C85_bars ops inD outD hne
    rw [h3] at h
    cases h
    rw [sum_countP]
    generalize (Net.run Net.empty ops).labels = l at *
    clear h3 hne
    induction l with
    | nil => rfl
    | cons x l ih =>
      have := ih (fun y hy => h1 y (by simp [hy]))
      have hx := h1 x (by simp)
      simp only [List.countP_cons, List.length_cons, decide_eq_true_eq]
      split <;> split <;> omega

end

/-! ## `poincare_plot` -/

section
variable {V X : Type}

/-- The last `k` values. -/
def lastValues (k : Nat) (a : List V) : List V := a.drop (a.length - k)

/-- C86: with `timesteps` from 2 to the length, the points are the pairs of consecutive values among the last `timesteps` ones. -/
theorem C86_poincare (a : List V) (k : Nat) (h2 : 2 ≤ k) (hk : k ≤ a.length) :
    poincarePoints a k = .ok ((lastValues k a).zip (lastValues k a).tail) := by
  have hl : lastSlice a (k : Int) = lastValues k a := by
    unfold lastSlice lastValues
    rw [if_pos (by omega), Int.toNat_natCast]
  have hlen : (lastValues k a).length = k := by unfold lastValues; rw [List.length_drop]; omega
  unfold poincarePoints
  rw [show ((k : Int) - 1).toNat = k - 1 by omega, poincare_loop a k (k - 1) (by rw [hl]; omega), hl]
  rw [List.take_of_length_le]
  rw [List.length_zip, List.length_tail]; omega

/-- C86: at most one timestep gives no points. -/
theorem C86_poincare_small (a : List V) (T : Int) (h : T ≤ 1) : poincarePoints a T = .ok [] := by
  unfold poincarePoints
  rw [show (T - 1).toNat = 0 by omega]; rfl

/-- C86: more timesteps than there are values raises `IndexError`. -/
theorem C86_poincare_raises (a : List V) (k : Nat) (h2 : 2 ≤ k) (hk : a.length < k) :
    poincarePoints a k = .error .indexError := by
  unfold poincarePoints
  refine poincare_fail a k _ (by omega) ?_
  unfold lastSlice
  rw [if_pos (by omega), List.length_drop]; omega

/-! ## `bifurcation_plot` -/

/-- C86, full claim: for every number of timesteps, above each `x` the points are the different values among the last `timesteps` ones.
False for 0 (`C86_zero`); here for at least 1.  The points come series by series, each in increasing order without repetitions. -/
theorem C86_bifurcation_partial [DecidableEq V] (le : V → V → Bool) (htrans : ∀ a b c, le a b → le b c → le a c)
    (htotal : ∀ a b, le a b || le b a) (xs : List X) (trajectories : List (List V)) (k : Nat) (hk : 1 ≤ k) :
    ∃ series : List (List V), series.length = trajectories.length ∧
      bifurcationPoints le xs trajectories k = (xs.zip series).flatMap (fun p => p.2.map (fun y => (p.1, y))) ∧
      ∀ (i : Nat) (t s : List V), trajectories[i]? = some t → series[i]? = some s →
        (∀ v, v ∈ s ↔ v ∈ lastValues k t) ∧ s.Nodup ∧ s.Pairwise (fun a b => le a b) := by
  refine ⟨trajectories.map (fun t => npUnique le (lastSlice t k)), by simp, rfl, ?_⟩
  intro i t s ht hs
  rw [List.getElem?_map, ht] at hs
  cases hs
  have hl : lastSlice t (k : Int) = lastValues k t := by
    unfold lastSlice lastValues
    rw [if_pos (by omega), Int.toNat_natCast]
  simp only [hl]
  refine ⟨?_, ?_, ?_⟩
  · intro v
    unfold npUnique
    rw [List.mem_mergeSort, mem_distinct]
  · exact (List.mergeSort_perm _ _).nodup_iff.2 (nodup_distinct _)
  · exact List.pairwise_mergeSort htrans htotal _

/-- C86: with 0 timesteps all values of the trajectories are drawn, not none. -/
theorem C86_zero [DecidableEq V] (le : V → V → Bool) (x : X) (t : List V) (v : V) (hv : v ∈ t) :
    (x, v) ∈ bifurcationPoints le [x] [t] 0 ∧ v ∉ lastValues 0 t := by
  constructor
  · unfold bifurcationPoints npUnique lastSlice
    simp [mem_distinct, hv]
  · unfold lastValues; simp

end

/-! ## Examples -/

/-- Nodes 1, 2 and 3 and the edges 1→2, 1→2, 2→2; node 3 is isolated. -/
def Ex.plotOps : List (Net.Op Nat Nat) := [.addEdge 1 2 [], .addEdge 1 2 [], .addEdge 2 2 [], .addNode 3 []]

/-- The hypothesis of `C85_bars`. -/
example : (Net.run Net.empty Ex.plotOps).labels = [1, 2, 3] := by decide

example : degreeBars false false (Net.run Net.empty Ex.plotOps) = .ok ([1, 2, 3, 4], [0, 1, 0, 1]) := by decide

example : degreeBars true false (Net.run Net.empty Ex.plotOps) = .ok ([1, 2, 3], [0, 0, 1]) := by decide

/-- C85, negation of "every node is counted": node 3 has no bar. -/
theorem C85_isolated : ∃ (ops : List (Net.Op Nat Nat)) (xs : List Int) (hs : List Nat),
    degreeBars false false (Net.run Net.empty ops) = .ok (xs, hs) ∧ hs.sum < (Net.run Net.empty ops).labels.length :=
  ⟨Ex.plotOps, [1, 2, 3, 4], [0, 1, 0, 1], by decide, by decide⟩

example : poincarePoints [7, 8, 9, 5] 3 = .ok [(8, 9), (9, 5)] := by decide
example : poincarePoints [7, 8] 3 = .error .indexError := by decide
example : lastValues 3 [7, 8, 9, 9] = [8, 9, 9] := by decide

/-- The order of the natural numbers meets the hypotheses of `C86_bifurcation_partial`. -/
example : (∀ a b c : Nat, decide (a ≤ b) → decide (b ≤ c) → decide (a ≤ c)) ∧ ∀ a b : Nat, decide (a ≤ b) || decide (b ≤ a) :=
  ⟨fun a b c h1 h2 => by simp at *; omega, fun a b => by simp; omega⟩

end Verif
