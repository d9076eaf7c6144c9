import Verif.Proofs.Growth
/-! # Lemmas about the restricted network automaton -/

namespace Verif
open Spec MG

theorem mem_between {L A : Type} [DecidableEq L] {es : List (Edge L A)} {e : Edge L A} (h : e ∈ es) : e.attr ∈ between es e.src e.dst := by
  unfold between
  exact List.mem_map.2 ⟨e, List.mem_filter.2 ⟨h, by simp⟩, rfl⟩

theorem edge_of_between {L A : Type} [DecidableEq L] {es : List (Edge L A)} {i j : L} {a : Attr A} (h : a ∈ between es i j) :
    ⟨i, j, a⟩ ∈ es := by
  obtain ⟨e, he, rfl⟩ := List.mem_map.1 h
  rw [List.mem_filter] at he
  simp only [Bool.and_eq_true, decide_eq_true_eq] at he
  obtain ⟨h1, rfl, rfl⟩ := he
  exact h1

theorem between_removeEdge {L A : Type} [DecidableEq L] (g : MG L A) (a b i j : L) :
    between (MG.removeEdge g a b).edges i j = if a = i ∧ b = j then [] else between g.edges i j := by
  simp only [MG.removeEdge, between, List.filter_filter]
  by_cases h : a = i ∧ b = j
  · obtain ⟨rfl, rfl⟩ := h
    rw [if_pos ⟨rfl, rfl⟩]
    simp
  · rw [if_neg h]
    congr 1
    apply List.filter_congr
    intro e _
    by_cases h1 : e.src = i <;> by_cases h2 : e.dst = j
    · simp only [h1, h2, decide_true, Bool.and_self, Bool.true_and, Bool.not_eq_eq_eq_not, Bool.not_true, Bool.and_eq_false_imp,
        decide_eq_true_eq, decide_eq_false_iff_not]
      rintro rfl rfl
      exact h ⟨rfl, rfl⟩
    · simp [h2]
    · simp [h1]
    · simp [h1]

/-- The edges into a node are those from all nodes. -/
theorem inCount_sum {A : Type} {es : List (Edge Nat A)} {ks : List Nat} (hk : ks.Nodup) (h : ∀ e ∈ es, e.src ∈ ks) (x : Nat) :
    (ks.map (fun k => (between es k x).length)).sum = inCount es x := by
  have hp := (perm_flatMap_filter ks hk (es.filter (fun e => decide (e.dst = x))) Edge.src (by
    intro e he; exact h e (List.mem_filter.1 he).1)).length_eq
  rw [List.length_flatMap] at hp
  unfold inCount
  rw [← hp]
  congr 1
  apply List.map_congr_left
  intro k _
  rw [between, List.length_map, List.filter_filter]

section
variable {A : Type}

theorem inDeg_ofMG {g : MG Nat A} (hg : g.Valid) (x : Nat) : inDeg (ofMG g) x = inCount g.edges x := by
  unfold inDeg
  rw [labels_ofMG, ← inCount_sum hg.nodup (fun e he => (hg.closed e he).1)]
  simp only [parallel_ofMG hg]

/-- The edges from `j` to `i` after the timestep. -/
def restrictedEdges (gU g : MG Nat A) (i j : Nat) : List (Attr A) :=
  if inCount g.edges i + inCount g.edges j = 2 ∧ between g.edges j i = [] ∧ between gU.edges j i ≠ [] then [[]]
  else if inCount g.edges i + inCount g.edges j = 3 then between g.edges j i
  else []

/-- The network `new_network` when the pairs `done` have been treated. -/
structure RestrictedMid (gU g : MG Nat A) (done : List (Nat × Nat)) (g' : MG Nat A) : Prop where
  valid : g'.Valid
  nodes : g'.nodes = g.nodes
  rot : g'.rot = none
  edges : ∀ i j, between g'.edges j i = if (i, j) ∈ done ∧ i ≠ j then restrictedEdges gU g i j else between g.edges j i

theorem restricted_step {gU g g' : MG Nat A} (hU : gU.Valid) (hg : g.Valid) {done : List (Nat × Nat)} (h : RestrictedMid gU g done g')
    {i j : Nat} (hi : i ∈ g.labels) (hj : j ∈ g.labels) (hnew : (i, j) ∉ done) :
    ∃ g'', restrictedStep (ofMG gU) (ofMG g) i (inCount g.edges i) (ofMG g') j = .ok (ofMG g'') ∧
      RestrictedMid gU g (done ++ [(i, j)]) g'' := by
  have hlab : g'.labels = g.labels := by unfold MG.labels; rw [h.nodes]
  have hi' : i ∈ g'.labels := by rw [hlab]; exact hi
  have hj' : j ∈ g'.labels := by rw [hlab]; exact hj
  have hhas : ∀ (G : MG Nat A), G.Valid → (ofMG G).hasEdge j i = decide (between G.edges j i ≠ []) := by
    intro G hG
    rw [hasEdge_ofMG hG]
    congr 1
    rw [ne_eq, between_eq_nil_iff, Classical.not_not]
  have hcur : between g'.edges j i = between g.edges j i := by
    rw [h.edges, if_neg (fun k => hnew k.1)]
  unfold restrictedStep
  by_cases hij : i = j
  · rw [if_pos hij]
    refine ⟨g', rfl, h.valid, h.nodes, h.rot, ?_⟩
    intro a b
    rw [h.edges]
    have : ((a, b) ∈ done ++ [(i, j)] ∧ a ≠ b) ↔ ((a, b) ∈ done ∧ a ≠ b) := by
      simp only [List.mem_append, List.mem_singleton, Prod.mk.injEq]
      constructor
      · rintro ⟨h1 | h1, h2⟩
        · exact ⟨h1, h2⟩
        · omega
      · exact fun k => ⟨Or.inl k.1, k.2⟩
    simp only [this]
  · rw [if_neg hij, inDegree_ofMG hj]
    simp only [hhas g hg, hhas gU hU]
    have key : ∀ G : MG Nat A, G.Valid → G.nodes = g.nodes → G.rot = none →
        (∀ a b, between G.edges b a = if a = i ∧ b = j then restrictedEdges gU g i j else between g'.edges b a) →
        RestrictedMid gU g (done ++ [(i, j)]) G := by
      intro G h1 h2 h3 h4
      refine ⟨h1, h2, h3, ?_⟩
      intro a b
      rw [h4, h.edges]
      by_cases hab : a = i ∧ b = j
      · obtain ⟨rfl, rfl⟩ := hab
        simp [hij]
      · have : (a, b) ∈ done ++ [(i, j)] ↔ (a, b) ∈ done := by simp [hab]
        simp only [this, if_neg hab]
    unfold restrictedEdges at key
    by_cases c1 : inCount g.edges i + inCount g.edges j = 2 ∧ between g.edges j i = [] ∧ between gU.edges j i ≠ []
    · simp only [if_pos c1] at key
      have c2 : (inCount g.edges i : Int) + inCount g.edges j = 2 := by omega
      simp only [c2, c1.2.1, c1.2.2, ne_eq, not_true, not_false_iff, decide_true, decide_false, and_self, if_true, addEdge_ofMG h.valid]
      refine ⟨_, rfl, key _ (valid_addEdge h.valid _ _ _) ?_ ?_ ?_⟩
      · simp only [MG.addEdge, ensure_of_mem hj', ensure_of_mem hi', h.nodes]
      · simp only [MG.addEdge, ensure_of_mem hj', ensure_of_mem hi', h.rot]
      · intro a b
        rw [between_addEdge]
        by_cases hab : a = i ∧ b = j
        · obtain ⟨rfl, rfl⟩ := hab
          simp [hcur, c1.2.1]
        · rw [if_neg hab, if_neg (by omega), List.append_nil]
    · simp only [if_neg c1] at key
      have c2 : ¬ ((inCount g.edges i : Int) + inCount g.edges j = 2 ∧ decide (between g.edges j i ≠ []) = false ∧
          decide (between gU.edges j i ≠ []) = true) := by
        rintro ⟨k1, k2, k3⟩
        exact c1 ⟨by omega, by simpa using k2, by simpa using k3⟩
      rw [if_neg c2]
      by_cases c3 : between g.edges j i = []
      · have c4 : decide (between g.edges j i ≠ []) = false := by simp [c3]
        simp only [c4, Bool.false_eq_true, and_false, if_false]
        refine ⟨g', rfl, key g' h.valid h.nodes h.rot ?_⟩
        intro a b
        split
        · rename_i hab
          obtain ⟨rfl, rfl⟩ := hab
          rw [hcur, c3]
          split <;> rfl
        · rfl
      · have c4 : decide (between g.edges j i ≠ []) = true := by simp [c3]
        simp only [c4, and_true]
        by_cases c5 : inCount g.edges i + inCount g.edges j = 3
        · have c6 : (inCount g.edges i : Int) + inCount g.edges j = 3 := by omega
          rw [if_pos c6]
          refine ⟨g', rfl, key g' h.valid h.nodes h.rot ?_⟩
          intro a b
          rw [if_pos c5]
          split
          · rename_i hab
            obtain ⟨rfl, rfl⟩ := hab
            rw [hcur]
          · rfl
        · have c6 : ¬ (inCount g.edges i : Int) + inCount g.edges j = 3 := by omega
          rw [if_neg c6]
          simp only [if_true, removeEdge_ofMG h.valid, hcur, if_neg c3]
          refine ⟨_, rfl, key _ (valid_removeEdge h.valid _ _) h.nodes h.rot ?_⟩
          intro a b
          rw [between_removeEdge, if_neg c5]
          by_cases hab : a = i ∧ b = j
          · rw [if_pos hab, if_pos ⟨hab.2.symm, hab.1.symm⟩]
          · rw [if_neg hab, if_neg (by omega)]

theorem restricted_row {gU g : MG Nat A} (hU : gU.Valid) (hg : g.Valid) {i : Nat} (hi : i ∈ g.labels) (js : List Nat) :
    ∀ (done : List (Nat × Nat)) (g' : MG Nat A), RestrictedMid gU g done g' → js.Nodup → (∀ j ∈ js, j ∈ g.labels ∧ (i, j) ∉ done) →
    ∃ g'', js.foldlM (restrictedStep (ofMG gU) (ofMG g) i (inCount g.edges i)) (ofMG g') = .ok (ofMG g'') ∧
      RestrictedMid gU g (done ++ js.map (fun j => (i, j))) g'' := by
  induction js with
  | nil => intro done g' h _ _; exact ⟨g', rfl, by simpa using h⟩
  | cons j js ih =>
    intro done g' h hnd hjs
    rw [List.nodup_cons] at hnd
    obtain ⟨g1, h1, h2⟩ := restricted_step hU hg h hi (hjs j (by simp)).1 (hjs j (by simp)).2
    obtain ⟨g2, h3, h4⟩ := ih _ _ h2 hnd.2 (by
      intro k hk
      refine ⟨(hjs k (by simp [hk])).1, ?_⟩
      simp only [List.mem_append, List.mem_singleton, Prod.mk.injEq, true_and, not_or]
      exact ⟨(hjs k (by simp [hk])).2, fun e => hnd.1 (e ▸ hk)⟩)
    refine ⟨g2, ?_, by simpa using h4⟩
    rw [List.foldlM_cons, h1]
    exact h3

theorem restricted_rows {gU g : MG Nat A} (hU : gU.Valid) (hg : g.Valid) (hsub : ∀ x ∈ gU.labels, x ∈ g.labels) (is : List Nat) :
    ∀ (done : List (Nat × Nat)) (g' : MG Nat A), RestrictedMid gU g done g' → is.Nodup →
    (∀ i ∈ is, i ∈ gU.labels ∧ ∀ j, (i, j) ∉ done) →
    ∃ g'', is.foldlM (restrictedRow (ofMG gU) (ofMG g)) (ofMG g') = .ok (ofMG g'') ∧
      RestrictedMid gU g (done ++ is.flatMap (fun i => gU.labels.map (fun j => (i, j)))) g'' := by
  induction is with
  | nil => intro done g' h _ _; exact ⟨g', rfl, by simpa using h⟩
  | cons i is ih =>
    intro done g' h hnd his
    rw [List.nodup_cons] at hnd
    have hi := hsub i (his i (by simp)).1
    obtain ⟨g1, h1, h2⟩ := restricted_row hU hg hi gU.labels done g' h hU.nodup (fun j hj => ⟨hsub j hj, (his i (by simp)).2 j⟩)
    obtain ⟨g2, h3, h4⟩ := ih _ _ h2 hnd.2 (by
      intro k hk
      refine ⟨(his k (by simp [hk])).1, ?_⟩
      intro j
      simp only [List.mem_append, List.mem_map, Prod.mk.injEq, not_or, not_exists, not_and]
      exact ⟨(his k (by simp [hk])).2 j, fun x _ e => absurd (e ▸ hk) hnd.1⟩)
    refine ⟨g2, ?_, by simpa using h4⟩
    rw [List.foldlM_cons]
    have : restrictedRow (ofMG gU) (ofMG g) (ofMG g') i = .ok (ofMG g1) := by
      unfold restrictedRow
      rw [inDegree_ofMG hi, labels_ofMG]
      exact h1
    rw [this]
    exact h3

/-- The topology rule. -/
theorem restricted_ok {gU g : MG Nat A} (hU : gU.Valid) (hg : g.Valid) (hsub : ∀ x ∈ gU.labels, x ∈ g.labels) (hrot : g.rot = none)
    {V σ : Type} {cl : Codec Nat} {ca : Codec A} (hcopy : (ofMG g).copy cl ca = .ok (ofMG g)) (acts : Dict Nat V) (t : Nat) (u : σ) :
    ∃ g', restrictedRule cl ca (ofMG gU) ⟨ofMG g, acts, t⟩ u = .ok (⟨ofMG g, .fresh (ofMG g')⟩, u) ∧ g'.Valid ∧ g'.nodes = g.nodes ∧
      g'.rot = none ∧ RestrictedNext (ofMG gU) (ofMG g) (ofMG g') ∧
      ∀ i j, between g'.edges j i = [[]] ∨ between g'.edges j i = between g.edges j i ∨ between g'.edges j i = [] := by
  obtain ⟨g', h1, h2⟩ := restricted_rows hU hg hsub gU.labels [] g ⟨hg, rfl, hrot, by simp⟩ hU.nodup (fun i hi => ⟨hi, by simp⟩)
  refine ⟨g', ?_, h2.valid, h2.nodes, h2.rot, ⟨?_, ?_, ?_⟩, ?_⟩
  · unfold restrictedRule
    simp only [hcopy, labels_ofMG, h1]
  · rw [labels_ofMG, labels_ofMG]
    unfold MG.labels
    rw [h2.nodes]
  · intro x
    rw [attrsOf_ofMG, attrsOf_ofMG, h2.nodes]
  · intro i j
    rw [parallel_ofMG h2.valid, parallel_ofMG hg, parallel_ofMG hU, h2.edges, inDeg_ofMG hg, inDeg_ofMG hg, labels_ofMG]
    have hm : (i, j) ∈ [] ++ gU.labels.flatMap (fun i => gU.labels.map (fun j => (i, j))) ↔ i ∈ gU.labels ∧ j ∈ gU.labels := by
      simp only [List.nil_append, List.mem_flatMap, List.mem_map, Prod.mk.injEq]
      constructor
      · rintro ⟨a, ha, b, hb, rfl, rfl⟩
        exact ⟨ha, hb⟩
      · rintro ⟨ha, hb⟩
        exact ⟨i, ha, j, hb, rfl, rfl⟩
    simp only [hm]
    unfold restrictedEdges
    by_cases c : (i ∈ gU.labels ∧ j ∈ gU.labels) ∧ i ≠ j
    · have hc : ¬ (i = j ∨ ¬ i ∈ gU.labels ∨ ¬ j ∈ gU.labels) := by
        rintro (k | k | k)
        · exact c.2 k
        · exact k c.1.1
        · exact k c.1.2
      rw [if_pos c, if_neg hc]
    · rw [if_neg c, if_pos]
      refine Classical.byContradiction fun k => c ?_
      simp only [not_or, Classical.not_not] at k
      exact ⟨⟨k.2.1, k.2.2⟩, k.1⟩
  · intro i j
    rw [h2.edges]
    split
    · unfold restrictedEdges
      split
      · exact Or.inl rfl
      · split
        · exact Or.inr (Or.inl rfl)
        · exact Or.inr (Or.inr rfl)
    · exact Or.inr (Or.inl rfl)

end
end Verif
