import Verif.Proofs.Expand
/-! # The network that replaces nodes by triangles: invariant of the loop over the nodes -/

namespace Verif
open Spec MG

section
variable {L A : Type} [DecidableEq L]

/-- An edge. -/
def gAdj (g : MG L A) (x y : L) : Prop := between g.edges x y ≠ []

/-- The end at `x` of the edge between `x` and `y`, when the nodes `done` have been replaced. -/
def rep (f : L → Fin 3 → L) (done : List L) (c : L → L → Fin 3) (x y : L) : L := if x ∈ done then f x (c x y) else x

/-- The network when the nodes `done` have been replaced. -/
structure ExpandMid (f : L → Fin 3 → L) (G : MG L A) (done rest : List L) (c : L → L → Fin 3) (g : MG L A) : Prop where
  valid : g.Valid
  rot : g.rot = none
  plain : ∀ p ∈ g.nodes, p.2 = []
  labels : g.labels = rest ++ done.flatMap (fun x => [f x 0, f x 1, f x 2])
  once : ∀ i j, between g.edges i j = [] ∨ between g.edges i j = [[]]
  single : ∀ x ∈ done, ∀ y z, gAdj G x y → gAdj G x z → c x y = c x z → y = z
  onto : ∀ x ∈ done, ∀ s, ∃ y, gAdj G x y ∧ c x y = s
  edges : ∀ i j, gAdj g i j ↔ (∃ x ∈ done, ∃ s s', s ≠ s' ∧ i = f x s ∧ j = f x s') ∨
    (∃ x y, gAdj G x y ∧ i = rep f done c x y ∧ j = rep f done c y x)

/-- What is required of the network at the start. -/
structure CubicMG (G : MG L A) : Prop where
  valid : G.Valid
  rot : G.rot = none
  plain : ∀ p ∈ G.nodes, p.2 = []
  once : ∀ i j, between G.edges i j = [] ∨ between G.edges i j = [[]]
  loopless : ∀ x, ¬ gAdj G x x
  symm : ∀ x y, gAdj G x y → gAdj G y x
  degree : ∀ x ∈ G.labels, ∃ a b c, [a, b, c].Nodup ∧ ∀ y, gAdj G y x ↔ y = a ∨ y = b ∨ y = c

theorem filter_nodup {E : List (L × L)} (h : E.Nodup) (p : L × L) :
    E.filter (fun q => decide (q = p)) = if p ∈ E then [p] else [] := by
  induction E with
  | nil => rfl
  | cons q E ih =>
    rw [List.nodup_cons] at h
    rw [List.filter_cons, ih h.2]
    by_cases e : q = p
    · subst e
      simp [h.1]
    · have e' : ¬ p = q := fun k => e k.symm
      simp [e, e']

/-- The new edges of one node. -/
def starPairs (f : L → Fin 3 → L) (k : Fin 3 → L) (x : L) : List (L × L) :=
  triPairs (f x 0) (f x 1) (f x 2) ++ linkPairs (f x 0) (f x 1) (f x 2) (k 2) (k 1) (k 0)

theorem fin3 (s : Fin 3) : s = 0 ∨ s = 1 ∨ s = 2 := by
  rcases s with ⟨s, hs⟩
  rcases s with _ | _ | _ | s
  · exact Or.inl rfl
  · exact Or.inr (Or.inl rfl)
  · exact Or.inr (Or.inr rfl)
  · omega

omit [DecidableEq L] in
theorem mem_starPairs {f : L → Fin 3 → L} {k : Fin 3 → L} {x i j : L} :
    (i, j) ∈ starPairs f k x ↔ (∃ s s', s ≠ s' ∧ i = f x s ∧ j = f x s') ∨ ∃ s, (i = f x s ∧ j = k s) ∨ (i = k s ∧ j = f x s) := by
  constructor
  · intro h
    simp only [starPairs, triPairs, linkPairs, List.mem_append, List.mem_cons, List.not_mem_nil, or_false, Prod.mk.injEq] at h
    rcases h with (⟨rfl, rfl⟩ | ⟨rfl, rfl⟩ | ⟨rfl, rfl⟩ | ⟨rfl, rfl⟩ | ⟨rfl, rfl⟩ | ⟨rfl, rfl⟩) |
      (⟨rfl, rfl⟩ | ⟨rfl, rfl⟩ | ⟨rfl, rfl⟩ | ⟨rfl, rfl⟩ | ⟨rfl, rfl⟩ | ⟨rfl, rfl⟩)
    · exact Or.inl ⟨0, 1, by decide, rfl, rfl⟩
    · exact Or.inl ⟨1, 0, by decide, rfl, rfl⟩
    · exact Or.inl ⟨0, 2, by decide, rfl, rfl⟩
    · exact Or.inl ⟨2, 0, by decide, rfl, rfl⟩
    · exact Or.inl ⟨1, 2, by decide, rfl, rfl⟩
    · exact Or.inl ⟨2, 1, by decide, rfl, rfl⟩
    · exact Or.inr ⟨2, Or.inl ⟨rfl, rfl⟩⟩
    · exact Or.inr ⟨2, Or.inr ⟨rfl, rfl⟩⟩
    · exact Or.inr ⟨1, Or.inl ⟨rfl, rfl⟩⟩
    · exact Or.inr ⟨1, Or.inr ⟨rfl, rfl⟩⟩
    · exact Or.inr ⟨0, Or.inl ⟨rfl, rfl⟩⟩
    · exact Or.inr ⟨0, Or.inr ⟨rfl, rfl⟩⟩
  · rintro (⟨s, s', hne, rfl, rfl⟩ | ⟨s, ⟨rfl, rfl⟩ | ⟨rfl, rfl⟩⟩)
    · rcases fin3 s with rfl | rfl | rfl <;> rcases fin3 s' with rfl | rfl | rfl <;> first
        | exact absurd rfl hne
        | simp [starPairs, triPairs]
    · rcases fin3 s with rfl | rfl | rfl <;> simp [starPairs, linkPairs]
    · rcases fin3 s with rfl | rfl | rfl <;> simp [starPairs, linkPairs]

omit [DecidableEq L] in
theorem starPairs_nodup {f : L → Fin 3 → L} {k : Fin 3 → L} {x : L} (hf : ∀ s s', f x s = f x s' → s = s') (hk : ∀ s s', f x s ≠ k s') :
    (starPairs f k x).Nodup := by
  have n01 : f x 0 ≠ f x 1 := fun e => absurd (hf _ _ e) (by decide)
  have n02 : f x 0 ≠ f x 2 := fun e => absurd (hf _ _ e) (by decide)
  have n12 : f x 1 ≠ f x 2 := fun e => absurd (hf _ _ e) (by decide)
  have hk' : ∀ s s', k s' ≠ f x s := fun s s' e => hk s s' e.symm
  simp [starPairs, triPairs, linkPairs, n01, n02, n12, n01.symm, n02.symm, n12.symm, hk, hk']

variable {f : L → Fin 3 → L} {G : MG L A}

theorem rep_ne {done : List L} {c : L → L → Fin 3} (hfl : ∀ x ∈ G.labels, ∀ s, f x s ∉ G.labels)
    (hdone : ∀ y ∈ done, y ∈ G.labels) {x : L} (hx : x ∈ G.labels) {y z : L} (h : y ≠ x) : rep f done c y z ≠ x := by
  unfold rep
  split
  · rename_i hd
    intro e
    exact hfl y (hdone y hd) _ (e ▸ hx)
  · exact h

/-- The neighbours of the next node. -/
theorem expand_sources (hf : ∀ x y s s', f x s = f y s' → x = y ∧ s = s') (hfl : ∀ x ∈ G.labels, ∀ s, f x s ∉ G.labels)
    (hG : CubicMG G) {done rest : List L} {c : L → L → Fin 3} {g : MG L A} {x : L} (hl : G.labels = done ++ x :: rest)
    (h : ExpandMid f G done (x :: rest) c g) :
    ∃ k : Fin 3 → L, sources g.edges x = [k 2, k 1, k 0] ∧ (∀ s s', k s = k s' → s = s') ∧
      (∀ s, ∃ y, gAdj G y x ∧ rep f done c y x = k s) ∧ (∀ y, gAdj G y x → ∃ s, rep f done c y x = k s) ∧
      ∀ y z, gAdj G y x → gAdj G z x → rep f done c y x = rep f done c z x → y = z := by
  have hx : x ∈ G.labels := by rw [hl]; simp
  have hxd : x ∉ done := by
    have := hG.valid.nodup
    rw [hl, List.nodup_append] at this
    intro hd
    exact this.2.2 x hd x (by simp) rfl
  have hdone : ∀ y ∈ done, y ∈ G.labels := by intro y hy; rw [hl]; simp [hy]
  have hadjl : ∀ y z, gAdj G y z → y ∈ G.labels ∧ z ∈ G.labels := by
    intro y z hyz
    unfold gAdj at hyz
    rw [ne_eq, between_eq_nil_iff, Classical.not_not] at hyz
    exact mem_labels_of_mem_sources hG.valid hyz
  have hmem : ∀ k, k ∈ sources g.edges x ↔ ∃ y, gAdj G y x ∧ k = rep f done c y x := by
    intro k
    have h1 : k ∈ sources g.edges x ↔ gAdj g k x := by
      unfold gAdj
      rw [ne_eq, between_eq_nil_iff, Classical.not_not]
    rw [h1, h.edges]
    constructor
    · rintro (⟨u, hu, s, s', _, _, e⟩ | ⟨u, v, huv, e1, e2⟩)
      · exact absurd (e ▸ hx) (hfl u (hdone u hu) s')
      · have : v = x := Classical.byContradiction fun hne => rep_ne hfl hdone hx hne e2.symm
        subst this
        exact ⟨u, huv, e1⟩
    · rintro ⟨y, hy, e⟩
      refine Or.inr ⟨y, x, hy, e, ?_⟩
      unfold rep
      rw [if_neg hxd]
  have hinj : ∀ y z, gAdj G y x → gAdj G z x → rep f done c y x = rep f done c z x → y = z := by
    intro y z hy hz e
    unfold rep at e
    split at e <;> split at e
    · exact (hf _ _ _ _ e).1
    · rename_i h1 _
      exact absurd (e ▸ (hadjl z x hz).1) (hfl y (hdone y h1) _)
    · rename_i _ h1
      exact absurd (e ▸ (hadjl y x hy).1) (hfl z (hdone z h1) _)
    · exact e
  obtain ⟨a, b, d, hnd, hdeg⟩ := hG.degree x hx
  have hmap : ([a, b, d].map (fun y => rep f done c y x)).Nodup := by
    rw [List.Nodup, List.pairwise_map]
    refine List.Pairwise.imp_of_mem ?_ hnd
    intro y z hy hz hne e
    refine hne (hinj y z ?_ ?_ e)
    · rw [hdeg]; simpa using hy
    · rw [hdeg]; simpa using hz
  have hsub1 : sources g.edges x ⊆ [a, b, d].map (fun y => rep f done c y x) := by
    intro k hk
    obtain ⟨y, hy, rfl⟩ := (hmem k).1 hk
    rw [hdeg] at hy
    exact List.mem_map.2 ⟨y, by simpa using hy, rfl⟩
  have hsub2 : [a, b, d].map (fun y => rep f done c y x) ⊆ sources g.edges x := by
    intro k hk
    obtain ⟨y, hy, rfl⟩ := List.mem_map.1 hk
    exact (hmem _).2 ⟨y, by rw [hdeg]; simpa using hy, rfl⟩
  have hns := nodup_sources g.edges x
  have l1 := List.Nodup.length_le_of_subset hns hsub1
  have l2 := List.Nodup.length_le_of_subset hmap hsub2
  simp only [List.length_map, List.length_cons, List.length_nil] at l1 l2
  rcases hs : sources g.edges x with _ | ⟨k1, _ | ⟨k2, _ | ⟨k3, _ | ⟨k4, ks⟩⟩⟩⟩
  · rw [hs] at l2; simp at l2
  · rw [hs] at l2; simp at l2
  · rw [hs] at l2; simp at l2
  · refine ⟨fun s => if s = 2 then k1 else if s = 1 then k2 else k3, ?_, ?_, ?_, ?_, hinj⟩
    · simp
    · rw [hs] at hns
      simp only [List.nodup_cons, List.mem_cons, List.not_mem_nil, or_false, not_or] at hns
      obtain ⟨⟨n1, n2⟩, n3, _⟩ := hns
      intro s s' e
      rcases fin3 s with rfl | rfl | rfl <;> rcases fin3 s' with rfl | rfl | rfl <;> first
        | rfl
        | (exfalso; simp at e; first | exact n1 e | exact n2 e | exact n3 e | exact n1 e.symm | exact n2 e.symm | exact n3 e.symm)
    · intro s
      have : (if s = 2 then k1 else if s = 1 then k2 else k3) ∈ sources g.edges x := by
        rw [hs]
        split
        · simp
        · split <;> simp
      obtain ⟨y, hy, e⟩ := (hmem _).1 this
      exact ⟨y, hy, e.symm⟩
    · intro y hy
      have : rep f done c y x ∈ sources g.edges x := (hmem _).2 ⟨y, hy, rfl⟩
      rw [hs] at this
      simp only [List.mem_cons, List.not_mem_nil, or_false] at this
      rcases this with e | e | e
      · exact ⟨2, by simp [e]⟩
      · exact ⟨1, by simp [e]⟩
      · exact ⟨0, by simp [e]⟩
  · rw [hs] at l1; simp at l1

theorem expand_mid (hf : ∀ x y s s', f x s = f y s' → x = y ∧ s = s') (hfl : ∀ x ∈ G.labels, ∀ s, f x s ∉ G.labels)
    (hG : CubicMG G) {done rest : List L} {c : L → L → Fin 3} {g : MG L A} {x : L} (hl : G.labels = done ++ x :: rest)
    (h : ExpandMid f G done (x :: rest) c g) :
    ∃ (k : Fin 3 → L) (c' : L → L → Fin 3), sources g.edges x = [k 2, k 1, k 0] ∧ (∀ s, k s ≠ x) ∧
      ExpandMid f G (done ++ [x]) rest c' (MG.removeNode (addPairs g (starPairs f k x)) x) := by
  obtain ⟨k, hs, kinj, ksur, kmem, hinj⟩ := expand_sources hf hfl hG hl h
  have hx : x ∈ G.labels := by rw [hl]; simp
  have hnd := hG.valid.nodup
  rw [hl, List.nodup_append] at hnd
  have hxd : x ∉ done := fun hd => hnd.2.2 x hd x (by simp) rfl
  have hxr : x ∉ rest := (List.nodup_cons.1 hnd.2.1).1
  have hdone : ∀ y ∈ done, y ∈ G.labels := by intro y hy; rw [hl]; simp [hy]
  have hadjl : ∀ y z, gAdj G y z → y ∈ G.labels ∧ z ∈ G.labels := by
    intro y z hyz
    unfold gAdj at hyz
    rw [ne_eq, between_eq_nil_iff, Classical.not_not] at hyz
    exact mem_labels_of_mem_sources hG.valid hyz
  have hkx : ∀ s, k s ≠ x := by
    intro s e
    obtain ⟨y, hy, e'⟩ := ksur s
    rw [e] at e'
    refine rep_ne hfl hdone hx ?_ e'
    rintro rfl
    exact hG.loopless _ hy
  have hkl : ∀ s, k s ∈ g.labels := by
    intro s
    have : k s ∈ sources g.edges x := by
      rw [hs]
      rcases fin3 s with rfl | rfl | rfl <;> simp
    exact (mem_labels_of_mem_sources h.valid this).1
  have hfx : ∀ s, f x s ∉ g.labels := by
    intro s hm
    rw [h.labels, List.mem_append] at hm
    rcases hm with hm | hm
    · refine hfl x hx s ?_
      rw [hl]
      exact List.mem_append.2 (Or.inr hm)
    · obtain ⟨y, hy, hm⟩ := List.mem_flatMap.1 hm
      simp only [List.mem_cons, List.not_mem_nil, or_false] at hm
      have : x = y := by rcases hm with e | e | e <;> exact (hf _ _ _ _ e).1
      exact hxd (this ▸ hy)
  have hfk : ∀ s s', f x s ≠ k s' := fun s s' e => hfx s (e ▸ hkl s')
  -- the corner of each edge at `x`
  have hcor : ∃ d : L → Fin 3, ∀ y, gAdj G y x → rep f done c y x = k (d y) := by
    refine ⟨fun y => if rep f done c y x = k 2 then 2 else if rep f done c y x = k 1 then 1 else 0, ?_⟩
    intro y hy
    obtain ⟨s, e⟩ := kmem y hy
    dsimp only
    rw [e]
    rcases fin3 s with rfl | rfl | rfl
    · rw [if_neg (fun k => absurd (kinj _ _ k) (by decide)), if_neg (fun k => absurd (kinj _ _ k) (by decide))]
    · rw [if_neg (fun k => absurd (kinj _ _ k) (by decide)), if_pos rfl]
    · rw [if_pos rfl]
  obtain ⟨d, hd⟩ := hcor
  let c' : L → L → Fin 3 := fun u v => if u = x then d v else c u v
  have hcx : ∀ v, c' x v = d v := fun v => if_pos rfl
  have hcu : ∀ u v, u ≠ x → c' u v = c u v := fun u v hu => if_neg hu
  have hrep : ∀ u v, u ≠ x → rep f (done ++ [x]) c' u v = rep f done c u v := by
    intro u v hu
    unfold rep
    rw [hcu u v hu]
    simp [hu]
  have hrepx : ∀ v, rep f (done ++ [x]) c' x v = f x (d v) := by
    intro v
    unfold rep
    rw [hcx]
    simp
  have hnodup : (starPairs f k x).Nodup := starPairs_nodup (fun s s' e => (hf _ _ _ _ e).2) hfk
  have hbet : ∀ i j, between (MG.removeNode (addPairs g (starPairs f k x)) x).edges i j =
      if i = x ∨ j = x then [] else if (i, j) ∈ starPairs f k x then [[]] else between g.edges i j := by
    intro i j
    rw [between_removeNode, addPairs_between, filter_nodup hnodup]
    by_cases c1 : i = x ∨ j = x
    · rw [if_pos c1, if_pos c1]
    · rw [if_neg c1, if_neg c1]
      by_cases c2 : (i, j) ∈ starPairs f k x
      · rw [if_pos c2, if_pos c2]
        have : between g.edges i j = [] := by
          apply between_eq_nil_of_not_mem h.valid
          rcases mem_starPairs.1 c2 with ⟨s, s', _, rfl, rfl⟩ | ⟨s, ⟨rfl, rfl⟩ | ⟨rfl, rfl⟩⟩
          · exact Or.inl (hfx s)
          · exact Or.inl (hfx s)
          · exact Or.inr (hfx s)
        rw [this]
        rfl
      · rw [if_neg c2, if_neg c2]
        simp
  have hadj : ∀ i j, gAdj (MG.removeNode (addPairs g (starPairs f k x)) x) i j ↔ i ≠ x ∧ j ≠ x ∧ ((i, j) ∈ starPairs f k x ∨ gAdj g i j) := by
    intro i j
    unfold gAdj
    rw [hbet]
    by_cases c1 : i = x ∨ j = x
    · rw [if_pos c1]
      constructor
      · intro k; exact absurd rfl k
      · rintro ⟨h1, h2, _⟩; rcases c1 with c1 | c1
        · exact absurd c1 h1
        · exact absurd c1 h2
    · rw [if_neg c1]
      rw [not_or] at c1
      by_cases c2 : (i, j) ∈ starPairs f k x
      · simp [c1, c2]
      · simp [c1, c2]
  have hlabs : (addPairs g (starPairs f k x)).labels = g.labels ++ [f x 0, f x 1, f x 2] := by
    have ht : (addPairs g (triPairs (f x 0) (f x 1) (f x 2))).labels = g.labels ++ [f x 0, f x 1, f x 2] := by
      apply tri_labels _ (hfx 0) (hfx 1) (hfx 2)
      have n01 : f x 0 ≠ f x 1 := fun e => absurd (hf _ _ _ _ e).2 (by decide)
      have n02 : f x 0 ≠ f x 2 := fun e => absurd (hf _ _ _ _ e).2 (by decide)
      have n12 : f x 1 ≠ f x 2 := fun e => absurd (hf _ _ _ _ e).2 (by decide)
      simp [n01, n02, n12]
    unfold starPairs
    rw [addPairs_append, addPairs_labels_mem, ht]
    rw [ht]
    intro p hp
    simp only [linkPairs, List.mem_cons, List.not_mem_nil, or_false] at hp
    rcases hp with rfl | rfl | rfl | rfl | rfl | rfl <;> simp [hkl]
  have hval := addPairs_valid (starPairs f k x) h.valid
  have hrot := (addPairs_rot (starPairs f k x) g).trans h.rot
  have hpl := addPairs_plain (starPairs f k x) h.plain
  clear hnodup
  refine ⟨k, c', hs, hkx, ?_⟩
  generalize addPairs g (starPairs f k x) = g1 at *
  refine ⟨valid_removeNode hval x, hrot, ?_, ?_, ?_, ?_, ?_, ?_⟩
  · intro p hp
    exact hpl p (List.mem_filter.1 hp).1
  · rw [labels_removeNode, hlabs, h.labels, List.filter_append, List.filter_append, List.filter_cons]
    have e1 : rest.filter (fun y => decide (y ≠ x)) = rest := by
      rw [List.filter_eq_self]
      intro y hy
      exact decide_eq_true (fun e => hxr (e ▸ hy))
    have e2 : (done.flatMap (fun x => [f x 0, f x 1, f x 2])).filter (fun y => decide (y ≠ x)) = done.flatMap (fun x => [f x 0, f x 1, f x 2]) := by
      rw [List.filter_eq_self]
      intro y hy
      obtain ⟨z, hz, hy⟩ := List.mem_flatMap.1 hy
      refine decide_eq_true (fun e => ?_)
      simp only [List.mem_cons, List.not_mem_nil, or_false] at hy
      rcases hy with e' | e' | e' <;> exact hfl z (hdone z hz) _ (e' ▸ e ▸ hx)
    have e3 : [f x 0, f x 1, f x 2].filter (fun y => decide (y ≠ x)) = [f x 0, f x 1, f x 2] := by
      rw [List.filter_eq_self]
      intro y hy
      refine decide_eq_true (fun e => ?_)
      simp only [List.mem_cons, List.not_mem_nil, or_false] at hy
      rcases hy with e' | e' | e' <;> exact hfl x hx _ (e' ▸ e ▸ hx)
    rw [e1, e2, e3]
    simp
  · intro i j
    rw [hbet]
    split
    · exact Or.inl rfl
    · split
      · exact Or.inr rfl
      · exact h.once i j
  · intro u hu y z hy hz e
    by_cases hux : u = x
    · subst hux
      rw [hcx, hcx] at e
      refine hinj y z (hG.symm _ _ hy) (hG.symm _ _ hz) ?_
      rw [hd y (hG.symm _ _ hy), hd z (hG.symm _ _ hz), e]
    · rw [hcu u y hux, hcu u z hux] at e
      exact h.single u (by simpa [hux] using hu) y z hy hz e
  · intro u hu s
    by_cases hux : u = x
    · subst hux
      obtain ⟨y, hy, e⟩ := ksur s
      refine ⟨y, hG.symm _ _ hy, ?_⟩
      rw [hcx]
      exact kinj _ _ ((hd y hy).symm.trans e)
    · obtain ⟨y, hy, e⟩ := h.onto u (by simpa [hux] using hu) s
      exact ⟨y, hy, by rw [hcu u y hux]; exact e⟩
  · intro i j
    rw [hadj]
    constructor
    · rintro ⟨hi, hj, hE | hg⟩
      · rcases mem_starPairs.1 hE with ⟨s, s', hne, rfl, rfl⟩ | ⟨s, hs⟩
        · exact Or.inl ⟨x, by simp, s, s', hne, rfl, rfl⟩
        · obtain ⟨y, hy, e⟩ := ksur s
          have hyx : y ≠ x := by rintro rfl; exact hG.loopless _ hy
          have hds : d y = s := by
            rw [hd y hy] at e
            exact kinj _ _ e
          rcases hs with ⟨rfl, rfl⟩ | ⟨rfl, rfl⟩
          · refine Or.inr ⟨x, y, hG.symm _ _ hy, ?_, ?_⟩
            · rw [hrepx, hds]
            · rw [hrep y x hyx, e]
          · refine Or.inr ⟨y, x, hy, ?_, ?_⟩
            · rw [hrep y x hyx, e]
            · rw [hrepx, hds]
      · rcases (h.edges i j).1 hg with ⟨u, hu, s, s', hne, e1, e2⟩ | ⟨u, v, huv, e1, e2⟩
        · exact Or.inl ⟨u, by simp [hu], s, s', hne, e1, e2⟩
        · have hux : u ≠ x := by
            rintro rfl
            apply hi
            rw [e1]
            unfold rep
            rw [if_neg hxd]
          have hvx : v ≠ x := by
            rintro rfl
            apply hj
            rw [e2]
            unfold rep
            rw [if_neg hxd]
          exact Or.inr ⟨u, v, huv, by rw [hrep u v hux]; exact e1, by rw [hrep v u hvx]; exact e2⟩
    · have hfne : ∀ u ∈ G.labels, ∀ s, f u s ≠ x := fun u hu s e => hfl u hu s (e ▸ hx)
      rintro (⟨u, hu, s, s', hne, rfl, rfl⟩ | ⟨u, v, huv, rfl, rfl⟩)
      · have hul : u ∈ G.labels := by
          rcases List.mem_append.1 hu with hu | hu
          · exact hdone u hu
          · rw [List.mem_singleton] at hu; rw [hu]; exact hx
        refine ⟨hfne u hul s, hfne u hul s', ?_⟩
        by_cases hux : u = x
        · subst hux
          exact Or.inl (mem_starPairs.2 (Or.inl ⟨s, s', hne, rfl, rfl⟩))
        · exact Or.inr ((h.edges _ _).2 (Or.inl ⟨u, by simpa [hux] using hu, s, s', hne, rfl, rfl⟩))
      · have huv' : u ≠ v := by rintro rfl; exact hG.loopless _ huv
        by_cases hux : u = x
        · subst hux
          have hvx : v ≠ u := fun e => huv' e.symm
          rw [hrepx, hrep v u hvx]
          refine ⟨hfne u hx _, rep_ne hfl hdone hx hvx, Or.inl (mem_starPairs.2 (Or.inr ⟨d v, Or.inl ⟨rfl, hd v (hG.symm _ _ huv)⟩⟩))⟩
        · by_cases hvx : v = x
          · subst hvx
            rw [hrepx, hrep u v hux]
            refine ⟨rep_ne hfl hdone hx hux, hfne v hx _, Or.inl (mem_starPairs.2 (Or.inr ⟨d u, Or.inr ⟨hd u huv, rfl⟩⟩))⟩
          · rw [hrep u v hux, hrep v u hvx]
            exact ⟨rep_ne hfl hdone hx hux, rep_ne hfl hdone hx hvx, Or.inr ((h.edges _ _).2 (Or.inr ⟨u, v, huv, rfl, rfl⟩))⟩

end
end Verif
