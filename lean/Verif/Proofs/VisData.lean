import Verif.Proofs.PlotData
/-! # Lemmas about `configuration_to_nx` and positions -/

namespace Verif

theorem get?_zipIdx_swap {V : Type} (l : List V) (s k : Nat) :
    Dict.get? ((l.zipIdx s).map (fun p => (p.2, p.1))) k = if s ≤ k then l[k - s]? else none := by
  induction l generalizing s with
  | nil => simp
  | cons a l ih =>
    rw [List.zipIdx_cons, List.map_cons, Dict.get?_cons, ih]
    by_cases h : s = k
    · subst h; simp
    · simp only [h, if_false]
      by_cases h' : s + 1 ≤ k
      · rw [if_pos h', if_pos (by omega), show k - s = (k - (s + 1)) + 1 by omega, List.getElem?_cons_succ]
      · rw [if_neg h', if_neg (by omega)]

section
variable {L A : Type} [DecidableEq L]

/-- Appends a label unless it is there. -/
def addNew (ks : List L) (u : L) : List L := if u ∈ ks then ks else ks ++ [u]

theorem addNew_addNew (ks : List L) (u : L) : addNew (addNew ks u) u = addNew ks u := by
  unfold addNew
  by_cases h : u ∈ ks
  · simp [h]
  · rw [if_neg h, if_pos (by simp)]

theorem mem_addNew (ks : List L) (u x : L) : x ∈ addNew ks u ↔ x ∈ ks ∨ x = u := by
  unfold addNew
  split
  · rename_i h
    exact ⟨Or.inl, fun h' => h'.elim id (fun e => e ▸ h)⟩
  · simp

theorem mem_foldl_addNew (l ks : List L) (x : L) : x ∈ l.foldl addNew ks ↔ x ∈ ks ∨ x ∈ l := by
  induction l generalizing ks with
  | nil => simp
  | cons a l ih => rw [List.foldl_cons, ih, mem_addNew, List.mem_cons, or_assoc]

/-- The labels by first occurrence. -/
theorem pairwise_foldl_addNew (l : List L) :
    (l.foldl addNew []).Pairwise (fun a b => l.idxOf a < l.idxOf b) := by
  suffices h : ∀ r : List L, (r.reverse.foldl addNew []).Pairwise (fun a b => r.reverse.idxOf a < r.reverse.idxOf b) by
    have := h l.reverse
    rwa [List.reverse_reverse] at this
  intro r
  induction r with
  | nil => exact List.Pairwise.nil
  | cons x r ih =>
    rw [List.reverse_cons, List.foldl_append]
    generalize hl : r.reverse = l at *
    have hm : ∀ a, a ∈ l.foldl addNew [] ↔ a ∈ l := fun a => by rw [mem_foldl_addNew]; simp
    have hidx : ∀ a, a ∈ l → (l ++ [x]).idxOf a = l.idxOf a := fun a ha => by rw [List.idxOf_append, if_pos ha]
    have hold : (l.foldl addNew []).Pairwise (fun a b => (l ++ [x]).idxOf a < (l ++ [x]).idxOf b) := by
      refine List.Pairwise.imp_of_mem ?_ ih
      intro a b ha hb h
      rw [hidx a ((hm a).1 ha), hidx b ((hm b).1 hb)]; exact h
    show (addNew (l.foldl addNew []) x).Pairwise _
    unfold addNew
    split
    · exact hold
    · rename_i hx
      rw [List.pairwise_append]
      refine ⟨hold, by simp, ?_⟩
      intro a ha b hb
      obtain rfl : b = x := by simpa using hb
      rw [hidx a ((hm a).1 ha), List.idxOf_append, if_neg (fun h => hx ((hm b).2 h))]
      have := List.idxOf_lt_length_iff.2 ((hm a).1 ha)
      omega

theorem NX.ensure_spec {G : NX L A} (h : G.Ok) (u : L) :
    (G.ensure u).Ok ∧ (G.ensure u).nodes.keys = addNew G.nodes.keys u ∧ ∀ i j, (G.ensure u).parallel i j = G.parallel i j := by
  unfold NX.ensure addNew
  by_cases hu : u ∈ G.nodes.keys
  · rw [if_pos (Dict.has_iff.2 hu), if_pos hu]
    exact ⟨h, rfl, fun _ _ => rfl⟩
  · rw [if_neg (by rw [Dict.has_iff]; exact hu), if_neg hu]
    have hu' : u ∉ G.adj.keys := by rw [h.keys]; exact hu
    refine ⟨⟨?_, ?_, ?_⟩, ?_, ?_⟩
    · simp only [Dict.set_of_not_mem hu, Dict.set_of_not_mem hu', Dict.keys_append, h.keys]; rfl
    · exact Dict.nodup_keys_set h.nodup _ _
    · intro x d hd
      simp only [Dict.get?_set] at hd
      split at hd
      · cases hd; exact List.nodup_nil
      · exact h.inner x d hd
    · simp only [Dict.set_of_not_mem hu, Dict.keys_append]; rfl
    · intro i j
      unfold NX.parallel
      simp only [Dict.get?_set]
      by_cases hi : u = i
      · subst hi
        rw [if_pos rfl, Dict.get?_eq_none_iff.2 hu']; rfl
      · rw [if_neg hi]

theorem NX.addNode_spec {G : NX L A} (h : G.Ok) (u : L) :
    (G.addNode u []).Ok ∧ (G.addNode u []).nodes.keys = addNew G.nodes.keys u ∧
      ∀ i j, (G.addNode u []).parallel i j = G.parallel i j := by
  obtain ⟨h1, h2, h3⟩ := NX.ensure_spec h u
  unfold NX.addNode
  refine ⟨⟨?_, ?_, h1.inner⟩, ?_, h3⟩
  · simp only [Dict.keys_modify]; exact h1.keys
  · simp only [Dict.keys_modify]; exact h1.nodup
  · simp only [Dict.keys_modify]; exact h2

theorem NX.addEdge_spec {G : NX L A} (h : G.Ok) (u v : L) (a : Attr A) :
    (G.addEdge u v a).Ok ∧ (G.addEdge u v a).nodes.keys = addNew (addNew G.nodes.keys u) v ∧
      ∀ i j, (G.addEdge u v a).parallel i j = G.parallel i j ++ (if u = i ∧ v = j then [a] else []) := by
  obtain ⟨a1, a2, a3⟩ := NX.ensure_spec h u
  obtain ⟨b1, b2, b3⟩ := NX.ensure_spec a1 v
  have hu : u ∈ ((G.ensure u).ensure v).nodes.keys := by rw [b2, a2, mem_addNew, mem_addNew]; exact Or.inl (Or.inr rfl)
  have hv : v ∈ ((G.ensure u).ensure v).nodes.keys := by rw [b2, mem_addNew]; exact Or.inr rfl
  have e : G.addEdge u v a = ((G.ensure u).ensure v).addEdge u v a := by
    have hself : ∀ (H : NX L A) (x : L), x ∈ H.nodes.keys → H.ensure x = H := fun H x hx => by
      unfold NX.ensure; rw [if_pos (Dict.has_iff.2 hx)]
    have e1 := hself _ u hu
    have e2 := hself _ v hv
    unfold NX.addEdge
    rw [e1, e2]
  obtain ⟨c1, c2, c3⟩ := NX.addEdge_ok b1 hu hv a
  rw [e]
  refine ⟨c2, ?_, ?_⟩
  · rw [c1, b2, a2]
  · intro i j; rw [c3, b3, a3]

/-- The consecutive pairs of a relation. -/
def steps (r : List L) : List (L × L) := r.zip r.tail

theorem relationToNx_spec (r : List L) (G : NX L A) (h : G.Ok) :
    (relationToNx G r).Ok ∧ (relationToNx G r).nodes.keys = r.foldl addNew G.nodes.keys ∧
      ∀ i j, (relationToNx G r).parallel i j =
        G.parallel i j ++ List.replicate ((steps r).countP (fun p => decide (p.1 = i ∧ p.2 = j))) [] := by
  induction r generalizing G with
  | nil => exact ⟨h, rfl, fun i j => by simp [relationToNx, steps]⟩
  | cons u r ih =>
    cases r with
    | nil =>
      obtain ⟨h1, h2, h3⟩ := NX.addNode_spec h u
      exact ⟨h1, h2, fun i j => by simp [relationToNx, steps, h3]⟩
    | cons v r =>
      obtain ⟨a1, a2, a3⟩ := NX.addNode_spec h u
      obtain ⟨b1, b2, b3⟩ := NX.addEdge_spec a1 u v []
      obtain ⟨c1, c2, c3⟩ := ih _ b1
      rw [relationToNx]
      refine ⟨c1, ?_, ?_⟩
      · rw [c2, b2, a2, addNew_addNew, List.foldl_cons, addNew_addNew]; rfl
      · intro i j
        rw [c3, b3, a3, List.append_assoc]
        congr 1
        have : steps (u :: v :: r) = (u, v) :: steps (v :: r) := rfl
        rw [this, List.countP_cons]
        by_cases hc : u = i ∧ v = j
        · rw [if_pos hc, if_pos (by simpa using hc), List.replicate_succ]; rfl
        · rw [if_neg hc, if_neg (by simpa using hc)]; simp

theorem configurationToNx_spec (config : List (List L)) (G : NX L A) (h : G.Ok) :
    (config.foldl relationToNx G).Ok ∧ (config.foldl relationToNx G).nodes.keys = config.flatten.foldl addNew G.nodes.keys ∧
      ∀ i j, (config.foldl relationToNx G).parallel i j =
        G.parallel i j ++ List.replicate ((config.flatMap steps).countP (fun p => decide (p.1 = i ∧ p.2 = j))) [] := by
  induction config generalizing G with
  | nil => exact ⟨h, rfl, fun i j => by simp⟩
  | cons r config ih =>
    obtain ⟨a1, a2, a3⟩ := relationToNx_spec r G h
    obtain ⟨b1, b2, b3⟩ := ih _ a1
    refine ⟨b1, ?_, ?_⟩
    · rw [List.foldl_cons, b2, a2, List.flatten_cons, List.foldl_append]
    · intro i j
      rw [List.foldl_cons, b3, a3, List.append_assoc, List.replicate_append_replicate, List.flatMap_cons, List.countP_append]

end
end Verif
