import Verif.Proofs.Ring
/-! # Lemmas on `bipartite`, `complete` and `disconnected` -/

namespace Verif

open Spec MG

section
variable {L A : Type} [DecidableEq L]

/-- The edges of a sequence of `add_edge_bidir` calls. -/
def bidirEdges (f : L → L → Attr A) (ps : List (L × L)) : List (Edge L A) :=
  ps.flatMap (fun p => [⟨p.1, p.2, f p.1 p.2⟩, ⟨p.2, p.1, f p.1 p.2⟩])

theorem mem_labels_addEdge' {g : MG L A} {i j x : L} {at' : Attr A} :
    x ∈ (addEdge g i j at').labels ↔ x = j ∨ x = i ∨ x ∈ g.labels := by
  have : (addEdge g i j at').labels = (ensure (ensure g i) j).labels := rfl
  rw [this, mem_labels_ensure, mem_labels_ensure]

theorem bipartite_fold {ea : Option (EdgeAttrs L A)} {f : L → L → Attr A} (ps : List (L × L))
    (hf : ∀ p ∈ ps, pairAttrs ea p.1 p.2 = .ok (f p.1 p.2)) {g : MG L A} (hg : g.Valid) :
    ∃ g' : MG L A, ps.foldlM (bipartiteStep ea) (ofMG g) = .ok (ofMG g') ∧ g'.Valid ∧
      g'.edges = g.edges ++ bidirEdges f ps ∧ g'.rot = g.rot ∧
      (∀ x, x ∈ g'.labels ↔ x ∈ g.labels ∨ ∃ p ∈ ps, x = p.1 ∨ x = p.2) := by
  induction ps generalizing g with
  | nil => exact ⟨g, rfl, hg, by simp [bidirEdges], rfl, by simp⟩
  | cons p ps ih =>
    obtain ⟨h1, h2⟩ := exec_ofMG hg (Net.Op.addEdgeBidir p.1 p.2 (f p.1 p.2))
    simp only [Net.exec, MG.exec] at h1 h2
    obtain ⟨g', h3, h4, h5, h6, h7⟩ := ih (fun q hq => hf q (by simp [hq])) h2
    refine ⟨g', ?_, h4, ?_, ?_, ?_⟩
    · rw [List.foldlM_cons]
      have : bipartiteStep ea (ofMG g) p =
          .ok (ofMG (addEdge (addEdge g p.1 p.2 (f p.1 p.2)) p.2 p.1 (f p.1 p.2))) := by
        unfold bipartiteStep
        rw [hf p (by simp)]
        simp only [h1]
      rw [this]; exact h3
    · rw [h5]; simp [addEdge, bidirEdges]
    · rw [h6]; simp [addEdge, ensure_rot]
    · intro x
      rw [h7]
      have hl : x ∈ (addEdge (addEdge g p.1 p.2 (f p.1 p.2)) p.2 p.1 (f p.1 p.2)).labels ↔
          x ∈ g.labels ∨ x = p.1 ∨ x = p.2 := by
        rw [mem_labels_addEdge', mem_labels_addEdge']
        constructor
        · rintro (h | h | h | h | h) <;> simp [h]
        · rintro (h | h | h) <;> simp [h]
      rw [hl]
      constructor
      · rintro ((h | h) | ⟨q, hq, h⟩)
        · exact Or.inl h
        · exact Or.inr ⟨p, by simp, h⟩
        · exact Or.inr ⟨q, by simp [hq], h⟩
      · rintro (h | ⟨q, hq, h⟩)
        · exact Or.inl (Or.inl h)
        · rcases List.mem_cons.1 hq with rfl | hq
          · exact Or.inl (Or.inr h)
          · exact Or.inr ⟨q, hq, h⟩

theorem between_bidir {f : L → L → Attr A} {ps : List (L × L)} (hnd : ps.Nodup) {i j : L} (hij : (i, j) ∈ ps)
    (hji : (j, i) ∉ ps) :
    between (bidirEdges f ps) i j = [f i j] ∧ between (bidirEdges f ps) j i = [f i j] := by
  have hcons : ∀ (p : L × L) qs a b, between (bidirEdges f (p :: qs)) a b =
      (if p = (a, b) then [f p.1 p.2] else []) ++ (if p = (b, a) then [f p.1 p.2] else []) ++
        between (bidirEdges f qs) a b := by
    rintro ⟨u, v⟩ qs a b
    have : bidirEdges f ((u, v) :: qs) = [⟨u, v, f u v⟩] ++ [⟨v, u, f u v⟩] ++ bidirEdges f qs := by
      simp [bidirEdges]
    rw [this, between_append, between_append, between_singleton, between_singleton]
    simp only [Prod.mk.injEq]
    congr 1
    congr 1
    by_cases h1 : v = a <;> by_cases h2 : u = b <;> simp [h1, h2]
  have hnone : ∀ (qs : List (L × L)) a b, (a, b) ∉ qs → (b, a) ∉ qs → between (bidirEdges f qs) a b = [] := by
    intro qs a b h1 h2
    induction qs with
    | nil => rfl
    | cons p qs ih =>
      simp only [List.mem_cons, not_or] at h1 h2
      rw [hcons, if_neg (fun h => h1.1 h.symm), if_neg (fun h => h2.1 h.symm), ih h1.2 h2.2]; rfl
  have hne : (i, j) ≠ (j, i) := fun h => hji (h ▸ hij)
  induction ps with
  | nil => simp at hij
  | cons p ps ih =>
    simp only [List.nodup_cons] at hnd
    simp only [List.mem_cons, not_or] at hji
    by_cases hp : p = (i, j)
    · subst hp
      constructor
      · rw [hcons, if_pos rfl, if_neg hne, hnone ps i j hnd.1 hji.2]; rfl
      · rw [hcons, if_neg hne, if_pos rfl, hnone ps j i hji.2 hnd.1]; rfl
    · have hij' : (i, j) ∈ ps := by
        rcases List.mem_cons.1 hij with h | h
        · exact absurd h.symm hp
        · exact h
      obtain ⟨h1, h2⟩ := ih hnd.2 hij' hji.2
      constructor
      · rw [hcons, if_neg hp, if_neg (fun h => hji.1 h.symm), h1]; rfl
      · rw [hcons, if_neg (fun h => hji.1 h.symm), if_neg hp, h2]; rfl

theorem sources_bidir {f : L → L → Attr A} {ps : List (L × L)} {i j : L} :
    i ∈ sources (bidirEdges f ps) j ↔ (i, j) ∈ ps ∨ (j, i) ∈ ps := by
  rw [mem_sources]
  simp only [bidirEdges, List.mem_flatMap, List.mem_cons, List.not_mem_nil, or_false]
  constructor
  · rintro ⟨e, ⟨⟨u, v⟩, hp, rfl | rfl⟩, h1, h2⟩
    · simp only at h1 h2; subst h1; subst h2; exact Or.inl hp
    · simp only at h1 h2; subst h1; subst h2; exact Or.inr hp
  · rintro (h | h)
    · exact ⟨_, ⟨(i, j), h, Or.inl rfl⟩, rfl, rfl⟩
    · exact ⟨_, ⟨(j, i), h, Or.inr rfl⟩, rfl, rfl⟩

theorem mem_pairs {us vs : List L} {u v : L} :
    (u, v) ∈ us.flatMap (fun u => vs.map (fun v => (u, v))) ↔ u ∈ us ∧ v ∈ vs := by
  simp only [List.mem_flatMap, List.mem_map, Prod.mk.injEq]
  constructor
  · rintro ⟨a, ha, b, hb, rfl, rfl⟩; exact ⟨ha, hb⟩
  · rintro ⟨ha, hb⟩; exact ⟨u, ha, v, hb, rfl, rfl⟩

theorem nodup_pairs {us vs : List L} (hu : us.Nodup) (hv : vs.Nodup) :
    (us.flatMap (fun u => vs.map (fun v => (u, v)))).Nodup := by
  apply nodup_flatMap_key us _ id Prod.fst
  · simpa using hu
  · intro u _
    refine List.pairwise_map.2 (hv.imp ?_)
    intro a b hab h; exact hab (Prod.mk.inj h).2
  · intro u _ b hb
    simp only [List.mem_map] at hb
    obtain ⟨v, _, rfl⟩ := hb; rfl

end

/-! ## Complete -/

theorem completeMatrix_entry {n i j : Nat} (hi : i < n) (hj : j < n) :
    entry ((List.range n).map (fun i => (List.range n).map (fun j => if i = j then (0 : Int) else 1))) i j =
      some (if i = j then 0 else 1) := by
  simp [entry, hi, hj]

theorem completeMatrix_square (n : Nat) :
    Square ((List.range n).map (fun i => (List.range n).map (fun j => if i = j then (0 : Int) else 1))) n := by
  refine ⟨by simp, ?_⟩
  intro r hr
  simp only [List.mem_map] at hr
  obtain ⟨i, _, rfl⟩ := hr; simp

theorem perm_range_of_mem {l : List Nat} {n : Nat} (hnd : l.Nodup) (h : ∀ x, x ∈ l ↔ x < n) : l.Perm (List.range n) :=
  (List.perm_ext_iff_of_nodup hnd List.nodup_range).2 (fun x => by rw [h, List.mem_range])

end Verif
