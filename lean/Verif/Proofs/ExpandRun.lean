import Verif.Proofs.ExpandStep
import Verif.Proofs.TopologyRun
import Verif.Proofs.Requests
/-! # The network that replaces nodes by triangles: one timestep -/

namespace Verif
open Spec MG

section
variable {L A : Type} [DecidableEq L] {f : L → Fin 3 → L} {G : MG L A}

theorem expand_start (hG : CubicMG G) : ExpandMid f G [] G.labels (fun _ _ => 0) G := by
  refine ⟨hG.valid, hG.rot, hG.plain, by simp, hG.once, by simp, by simp, ?_⟩
  intro i j
  constructor
  · intro h
    exact Or.inr ⟨i, j, h, by simp [rep], by simp [rep]⟩
  · rintro (⟨x, hx, _⟩ | ⟨x, y, h, rfl, rfl⟩)
    · cases hx
    · simpa [rep] using h

theorem gAdj_mem {g : MG L A} (hg : g.Valid) {y z : L} (h : gAdj g y z) : y ∈ g.labels ∧ z ∈ g.labels := by
  unfold gAdj at h
  rw [ne_eq, between_eq_nil_iff, Classical.not_not] at h
  exact mem_labels_of_mem_sources hg h

theorem corner_mem {c : L → L → Fin 3} {g : MG L A} (h : ExpandMid f G G.labels [] c g) {i : L} :
    i ∈ g.labels ↔ ∃ x ∈ G.labels, ∃ s, i = f x s := by
  rw [h.labels, List.nil_append, List.mem_flatMap]
  constructor
  · rintro ⟨x, hx, hi⟩
    simp only [List.mem_cons, List.not_mem_nil, or_false] at hi
    rcases hi with e | e | e
    · exact ⟨x, hx, 0, e⟩
    · exact ⟨x, hx, 1, e⟩
    · exact ⟨x, hx, 2, e⟩
  · rintro ⟨x, hx, s, rfl⟩
    refine ⟨x, hx, ?_⟩
    rcases fin3 s with rfl | rfl | rfl <;> simp

/-- The edges of the next network. -/
theorem expanded_edges (hG : CubicMG G) {c : L → L → Fin 3} {g : MG L A} (h : ExpandMid f G G.labels [] c g) (i j : L) :
    gAdj g i j ↔ (∃ x ∈ G.labels, ∃ s s', s ≠ s' ∧ i = f x s ∧ j = f x s') ∨
      (∃ x y, gAdj G x y ∧ i = f x (c x y) ∧ j = f y (c y x)) := by
  have hr : ∀ x y, gAdj G x y → rep f G.labels c x y = f x (c x y) ∧ rep f G.labels c y x = f y (c y x) := by
    intro x y hxy
    obtain ⟨h1, h2⟩ := gAdj_mem hG.valid hxy
    unfold rep
    rw [if_pos h1, if_pos h2]
    exact ⟨rfl, rfl⟩
  rw [h.edges]
  constructor
  · rintro (k | ⟨x, y, k, e1, e2⟩)
    · exact Or.inl k
    · rw [(hr x y k).1] at e1
      rw [(hr x y k).2] at e2
      exact Or.inr ⟨x, y, k, e1, e2⟩
  · rintro (k | ⟨x, y, k, e1, e2⟩)
    · exact Or.inl k
    · rw [← (hr x y k).1] at e1
      rw [← (hr x y k).2] at e2
      exact Or.inr ⟨x, y, k, e1, e2⟩

/-- The next network is cubic. -/
theorem expanded_cubic (hf : ∀ x y s s', f x s = f y s' → x = y ∧ s = s') (hG : CubicMG G) {c : L → L → Fin 3} {g : MG L A}
    (h : ExpandMid f G G.labels [] c g) : CubicMG g := by
  have he := expanded_edges hG h
  refine ⟨h.valid, h.rot, h.plain, h.once, ?_, ?_, ?_⟩
  · intro i hi
    rcases (he i i).1 hi with ⟨x, _, s, s', hne, e1, e2⟩ | ⟨x, y, hxy, e1, e2⟩
    · exact hne (hf _ _ _ _ (e1.symm.trans e2)).2
    · have := (hf _ _ _ _ (e1.symm.trans e2)).1
      subst this
      exact hG.loopless _ hxy
  · intro i j hij
    rcases (he i j).1 hij with ⟨x, hx, s, s', hne, e1, e2⟩ | ⟨x, y, hxy, e1, e2⟩
    · exact (he j i).2 (Or.inl ⟨x, hx, s', s, hne.symm, e2, e1⟩)
    · exact (he j i).2 (Or.inr ⟨y, x, hG.symm _ _ hxy, e2, e1⟩)
  · intro i hi
    obtain ⟨x, hx, s, rfl⟩ := (corner_mem h).1 hi
    obtain ⟨y, hy, hcy⟩ := h.onto x hx s
    have hyx : y ≠ x := by rintro rfl; exact hG.loopless _ hy
    have others : ∀ s : Fin 3, ∃ s1 s2 : Fin 3, s ≠ s1 ∧ s ≠ s2 ∧ s1 ≠ s2 ∧ ∀ s', s' ≠ s → s' = s1 ∨ s' = s2 := by decide
    obtain ⟨s1, s2, n1, n2, n3, hs⟩ := others s
    refine ⟨f x s1, f x s2, f y (c y x), ?_, ?_⟩
    · have k1 : f x s1 ≠ f x s2 := fun e => n3 (hf _ _ _ _ e).2
      have k2 : f x s1 ≠ f y (c y x) := fun e => hyx (hf _ _ _ _ e).1.symm
      have k3 : f x s2 ≠ f y (c y x) := fun e => hyx (hf _ _ _ _ e).1.symm
      simp [k1, k2, k3]
    · intro j
      rw [he]
      constructor
      · rintro (⟨u, hu, t, t', hne, e1, e2⟩ | ⟨u, v, huv, e1, e2⟩)
        · obtain ⟨rfl, rfl⟩ := hf _ _ _ _ e2
          rcases hs t hne with rfl | rfl
          · exact Or.inl e1
          · exact Or.inr (Or.inl e1)
        · obtain ⟨rfl, e⟩ := hf _ _ _ _ e2
          have : u = y := h.single x hx u y (hG.symm _ _ huv) hy (by rw [hcy, e])
          subst this
          exact Or.inr (Or.inr e1)
      · rintro (rfl | rfl | rfl)
        · exact Or.inl ⟨x, hx, s1, s, n1.symm, rfl, rfl⟩
        · exact Or.inl ⟨x, hx, s2, s, n2.symm, rfl, rfl⟩
        · exact Or.inr ⟨y, x, hG.symm _ _ hy, rfl, by rw [hcy]⟩

/-- The labels of the next network are fresh again. -/
theorem expanded_fresh (hf : ∀ x y s s', f x s = f y s' → x = y ∧ s = s') (hfl : ∀ x ∈ G.labels, ∀ s, f x s ∉ G.labels)
    {c : L → L → Fin 3} {g : MG L A} (h : ExpandMid f G G.labels [] c g) : ∀ x ∈ g.labels, ∀ s, f x s ∉ g.labels := by
  intro i hi s hm
  obtain ⟨x, hx, s', rfl⟩ := (corner_mem h).1 hi
  obtain ⟨y, hy, s'', e⟩ := (corner_mem h).1 hm
  have := (hf _ _ _ _ e).1
  exact hfl x hx s' (this ▸ hy)

end

section
variable {A : Type} {G : MG String A}

/-- The letter of a corner. -/
def letter (s : Fin 3) : String := if s = 0 then "a" else if s = 1 then "b" else "c"

theorem letter_length (s : Fin 3) : (letter s).length = 1 := by revert s; decide
theorem letter_inj {s s' : Fin 3} (h : letter s = letter s') : s = s' := by revert s s'; decide
theorem letter_mem (s : Fin 3) : letter s ∈ ["a", "b", "c"] := by revert s; decide
theorem letter_of_mem {t : String} (h : t ∈ ["a", "b", "c"]) : ∃ s, t = letter s := by
  simp only [List.mem_cons, List.not_mem_nil, or_false] at h
  rcases h with rfl | rfl | rfl
  · exact ⟨0, rfl⟩
  · exact ⟨1, rfl⟩
  · exact ⟨2, rfl⟩

/-- The corner of a node. -/
def cornerOf (x : String) (s : Fin 3) : String := x ++ letter s

theorem corner_inj (x y : String) (s s' : Fin 3) (h : cornerOf x s = cornerOf y s') : x = y ∧ s = s' := by
  obtain ⟨h1, h2⟩ := append_inj1 (by rw [letter_length, letter_length]) h
  exact ⟨h1, letter_inj h2⟩

theorem expand_all (hG : CubicMG G) (hfl : ∀ x ∈ G.labels, ∀ s, cornerOf x s ∉ G.labels) :
    ∀ (rest done : List String) (c : String → String → Fin 3) (g : MG String A), G.labels = done ++ rest → ExpandMid cornerOf G done rest c g →
      ∃ g' c', rest.foldlM expandNode (ofMG g) = .ok (ofMG g') ∧ ExpandMid cornerOf G G.labels [] c' g' := by
  intro rest
  induction rest with
  | nil =>
    intro done c g hl h
    rw [List.append_nil] at hl
    exact ⟨g, c, rfl, hl ▸ h⟩
  | cons x rest ih =>
    intro done c g hl h
    obtain ⟨k, c1, hs, hk, h1⟩ := expand_mid corner_inj hfl hG hl h
    have hxg : x ∈ g.labels := by rw [h.labels]; simp
    have hx : x ∈ G.labels := by rw [hl]; simp
    have hfx : ∀ s, cornerOf x s ∉ g.labels := by
      intro s hm
      rw [h.labels, List.mem_append] at hm
      rcases hm with hm | hm
      · refine hfl x hx s ?_
        rw [hl]
        exact List.mem_append.2 (Or.inr hm)
      · obtain ⟨y, hy, hm⟩ := List.mem_flatMap.1 hm
        simp only [List.mem_cons, List.not_mem_nil, or_false] at hm
        have : x = y := by rcases hm with e | e | e <;> exact (corner_inj _ _ _ _ e).1
        have hnd := hG.valid.nodup
        rw [hl, List.nodup_append] at hnd
        exact hnd.2.2 x (this ▸ hy) x (by simp) rfl
    have hn : [cornerOf x 0, cornerOf x 1, cornerOf x 2].Nodup := by
      have n01 : cornerOf x 0 ≠ cornerOf x 1 := fun e => absurd (corner_inj _ _ _ _ e).2 (by decide)
      have n02 : cornerOf x 0 ≠ cornerOf x 2 := fun e => absurd (corner_inj _ _ _ _ e).2 (by decide)
      have n12 : cornerOf x 1 ≠ cornerOf x 2 := fun e => absurd (corner_inj _ _ _ _ e).2 (by decide)
      simp [n01, n02, n12]
    have he := expand_node h.valid (a := cornerOf x 0) (b := cornerOf x 1) (c := cornerOf x 2) rfl rfl rfl hxg hn (hfx 0) (hfx 1) (hfx 2) hs
      ⟨hk 2, hk 1, hk 0⟩
    obtain ⟨g', c', e2, h2⟩ := ih (done ++ [x]) c1 _ (by rw [hl]; simp) h1
    refine ⟨g', c', ?_, h2⟩
    rw [List.foldlM_cons, he]
    exact e2

/-- Reading off a network what is required. -/
theorem cubicMG_of (hg : G.Valid) (h : Cubic (ofMG G)) : CubicMG { G with rot := none } := by
  have hp : ∀ x y, parallel (ofMG G) x y = between G.edges x y := fun x y => parallel_ofMG hg x y
  have ha : ∀ x y, Adj (ofMG G) x y ↔ gAdj ({ G with rot := none } : MG String A) x y := by
    intro x y
    unfold Adj gAdj
    rw [hp]
  refine ⟨⟨hg.nodup, hg.closed⟩, rfl, ?_, ?_, ?_, ?_, ?_⟩
  · intro p hp
    have h1 := h.plain p.1 (by rw [labels_ofMG]; exact List.mem_map_of_mem hp)
    rw [attrsOf_ofMG, Dict.get?_of_mem hg.nodup hp] at h1
    exact Option.some.inj h1
  · intro i j
    have := h.simple i j
    rw [hp] at this
    exact this
  · intro x hx
    exact h.loopless x ((ha x x).2 hx)
  · intro x y hxy
    exact (ha y x).1 (h.symm x y ((ha x y).2 hxy))
  · intro x hx
    obtain ⟨a, b, c, h1, h2⟩ := h.degree x (by rw [labels_ofMG]; exact hx)
    exact ⟨a, b, c, h1, fun y => by rw [← ha]; exact h2 y⟩

theorem cubic_of (h : CubicMG G) : Cubic (ofMG G) := by
  have hp : ∀ x y, parallel (ofMG G) x y = between G.edges x y := fun x y => parallel_ofMG h.valid x y
  have ha : ∀ x y, Adj (ofMG G) x y ↔ gAdj G x y := by
    intro x y
    unfold Adj gAdj
    rw [hp]
  refine ⟨by rw [labels_ofMG]; exact h.valid.nodup, ?_, ?_, ?_, ?_, ?_, ?_⟩
  · intro x hx
    rw [labels_ofMG] at hx
    obtain ⟨p, hp, rfl⟩ := List.mem_map.1 hx
    rw [attrsOf_ofMG, Dict.get?_of_mem h.valid.nodup hp, h.plain p hp]
  · intro x y hxy
    rw [labels_ofMG]
    exact gAdj_mem h.valid ((ha x y).1 hxy)
  · intro x hx
    exact h.loopless x ((ha x x).1 hx)
  · intro x y
    rw [hp]
    exact h.once x y
  · intro x y hxy
    exact (ha y x).2 (h.symm x y ((ha x y).1 hxy))
  · intro x hx
    obtain ⟨a, b, c, h1, h2⟩ := h.degree x (by rw [labels_ofMG] at hx; exact hx)
    exact ⟨a, b, c, h1, fun y => by rw [ha]; exact h2 y⟩

theorem fresh_of (h : FreshLabels G.labels) : ∀ x ∈ G.labels, ∀ s, cornerOf x s ∉ G.labels := fun x hx s => h x hx _ (letter_mem s)

/-- One timestep. -/
theorem expand_rule {V σ : Type} {cl : Codec String} {ca : Codec A} (hG : CubicMG G) (hfl : ∀ x ∈ G.labels, ∀ s, cornerOf x s ∉ G.labels)
    (hcopy : (ofMG G).copy cl ca = .ok (ofMG G)) (acts : Dict String V) (t : Nat) (u : σ) :
    ∃ g' c, expandRule cl ca ⟨ofMG G, acts, t⟩ u = .ok (⟨ofMG G, .fresh (ofMG g')⟩, u) ∧ ExpandMid cornerOf G G.labels [] c g' := by
  obtain ⟨g', c, e, h⟩ := expand_all hG hfl G.labels [] (fun _ _ => 0) G (by simp) (expand_start hG)
  refine ⟨g', c, ?_, h⟩
  unfold expandRule
  simp only [hcopy, labels_ofMG, e]

theorem truncated_of {g : MG String A} (hG : CubicMG G) {c : String → String → Fin 3} (h : ExpandMid cornerOf G G.labels [] c g) :
    Truncated (ofMG G) (ofMG g) (fun x y => letter (c x y)) := by
  have ha : ∀ x y, Adj (ofMG G) x y ↔ gAdj G x y := by
    intro x y
    unfold Adj gAdj
    rw [parallel_ofMG hG.valid]
  have ha' : ∀ x y, Adj (ofMG g) x y ↔ gAdj g x y := by
    intro x y
    unfold Adj gAdj
    rw [parallel_ofMG h.valid]
  refine ⟨?_, ?_, ?_, ?_⟩
  · rw [labels_ofMG, labels_ofMG, h.labels]
    rfl
  · intro x y _
    have := letter_mem (c x y)
    simpa using this
  · intro x y z hy hz e
    have hy' := (ha _ _).1 hy
    exact h.single x (gAdj_mem hG.valid hy').1 y z hy' ((ha _ _).1 hz) (letter_inj e)
  · intro i j
    rw [ha', expanded_edges hG h]
    constructor
    · rintro (⟨x, hx, s, s', hne, e1, e2⟩ | ⟨x, y, hxy, e1, e2⟩)
      · refine Or.inl ⟨x, by rw [labels_ofMG]; exact hx, letter s, letter_mem s, letter s', letter_mem s', ?_, e1, e2⟩
        exact fun e => hne (letter_inj e)
      · exact Or.inr ⟨x, y, (ha x y).2 hxy, e1, e2⟩
    · rintro (⟨x, hx, s, hs, s', hs', hne, e1, e2⟩ | ⟨x, y, hxy, e1, e2⟩)
      · obtain ⟨s, rfl⟩ := letter_of_mem hs
        obtain ⟨s', rfl⟩ := letter_of_mem hs'
        exact Or.inl ⟨x, by rw [labels_ofMG] at hx; exact hx, s, s', fun e => hne (congrArg letter e), e1, e2⟩
      · exact Or.inr ⟨x, y, (ha x y).1 hxy, e1, e2⟩

/-- A node with four or more neighbours. -/
theorem expand_node_four {g : MG String A} (hg : g.Valid) {x k1 k2 k3 k4 : String} {ks : List String}
    (hs : sources g.edges x = k1 :: k2 :: k3 :: k4 :: ks) (hk : k1 ≠ x ∧ k2 ≠ x ∧ k3 ≠ x) :
    expandNode (ofMG g) x = .error .indexError := by
  have hxa : x ++ "a" ≠ x := self_ne_append rfl
  have hxb : x ++ "b" ≠ x := self_ne_append rfl
  have hxc : x ++ "c" ≠ x := self_ne_append rfl
  unfold expandNode
  generalize x ++ "a" = a at *
  generalize x ++ "b" = b at *
  generalize x ++ "c" = c at *
  have hv1 := addPairs_valid (triPairs a b c) hg
  have h1 : (do Net.addEdgeBidir a b []; Net.addEdgeBidir a c []; Net.addEdgeBidir b c [] : NetM String A Unit) (ofMG g) =
      (.ok (), ofMG (addPairs g (triPairs a b c))) := by
    rw [NetM.bind_ok (bidir_ofMG hg _ _), NetM.bind_ok (bidir_ofMG (addPairs_valid _ hg) _ _),
      bidir_ofMG (addPairs_valid _ (addPairs_valid _ hg)), ← addPairs_append, ← addPairs_append]
    have e4 : triPairs a b c = [(a, b), (b, a)] ++ ([(a, c), (c, a)] ++ [(b, c), (c, b)]) := rfl
    rw [e4]
  have h2 : sources (addPairs g (triPairs a b c)).edges x = k1 :: k2 :: k3 :: k4 :: ks := by
    rw [sources_addPairs_ne, hs]
    intro p hp
    simp only [triPairs, List.mem_cons, List.not_mem_nil, or_false] at hp
    rcases hp with rfl | rfl | rfl | rfl | rfl | rfl <;> assumption
  have hm : x ∈ (addPairs g (triPairs a b c)).labels := by
    have hsrc : k1 ∈ sources (addPairs g (triPairs a b c)).edges x := by rw [h2]; simp
    exact (mem_labels_of_mem_sources hv1 hsrc).2
  rw [h1]
  simp only
  rw [inEdges_ofMG hm]
  simp only [keys_incomingOf, h2, List.foldlM_cons]
  have c1 := connect_ok hv1 (y := c) (ins := [a, b]) hk.1
  have c2 := connect_ok (addPairs_valid [(c, k1), (k1, c)] hv1) (y := b) (ins := [a]) hk.2.1
  have c3 := connect_ok (addPairs_valid [(b, k2), (k2, b)] (addPairs_valid [(c, k1), (k1, c)] hv1)) (y := a) (ins := []) hk.2.2
  simp only [List.cons_append, List.nil_append] at c1 c2 c3
  rw [c1]
  simp only [bind, Except.bind]
  rw [c2]
  simp only [c3]
  rfl

/-- A test of the requirements for one network. -/
theorem cubicMG_check (hv : G.Valid) (hr : G.rot = none) (hp : ∀ p ∈ G.nodes, p.2 = [])
    (h1 : ∀ i ∈ G.labels, ∀ j ∈ G.labels, between G.edges i j = [] ∨ (between G.edges i j).map List.length = [0])
    (h2 : ∀ i ∈ G.labels, between G.edges i i = [])
    (h3 : ∀ i ∈ G.labels, ∀ j ∈ G.labels, (between G.edges i j).length = (between G.edges j i).length)
    (h4 : ∀ i ∈ G.labels, (G.labels.filter (fun y => (between G.edges y i).length ≠ 0)).length = 3) : CubicMG G := by
  have hm : ∀ {y z}, gAdj G y z → y ∈ G.labels ∧ z ∈ G.labels := gAdj_mem hv
  refine ⟨hv, hr, hp, ?_, ?_, ?_, ?_⟩
  · intro i j
    by_cases hij : gAdj G i j
    · obtain ⟨mi, mj⟩ := hm hij
      rcases h1 i mi j mj with k | k
      · exact Or.inl k
      · right
        cases hb : between G.edges i j with
        | nil => exact absurd hb hij
        | cons a l =>
          rw [hb] at k
          simp only [List.map_cons, List.cons.injEq, List.length_eq_zero_iff, List.map_eq_nil_iff] at k
          rw [k.1, k.2]
    · left
      unfold gAdj at hij
      exact Classical.not_not.1 hij
  · intro x hx
    exact hx (h2 x (hm hx).1)
  · intro x y hxy hyx
    have := h3 x (hm hxy).1 y (hm hxy).2
    rw [hyx] at this
    exact hxy (List.length_eq_zero_iff.1 this)
  · intro x hx
    have hl := h4 x hx
    have hnd : (G.labels.filter (fun y => (between G.edges y x).length ≠ 0)).Nodup := List.Pairwise.filter _ hv.nodup
    have hmem : ∀ y, gAdj G y x ↔ y ∈ G.labels.filter (fun y => (between G.edges y x).length ≠ 0) := by
      intro y
      rw [List.mem_filter]
      constructor
      · intro k
        refine ⟨(hm k).1, ?_⟩
        simpa [gAdj] using k
      · rintro ⟨_, k⟩
        simpa [gAdj] using k
    generalize G.labels.filter (fun y => (between G.edges y x).length ≠ 0) = l at *
    match l, hl with
    | [a, b, c], _ => exact ⟨a, b, c, hnd, fun y => by rw [hmem]; simp⟩

end
end Verif
