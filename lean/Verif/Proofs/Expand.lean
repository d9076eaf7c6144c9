import Verif.Proofs.Restricted
/-! # Lemmas about the network that replaces nodes by triangles -/

namespace Verif
open Spec MG

section
variable {L A : Type} [DecidableEq L]

/-- Edges without attributes added in order. -/
def addPairs (g : MG L A) (ps : List (L × L)) : MG L A := ps.foldl (fun g p => MG.addEdge g p.1 p.2 []) g

theorem addPairs_cons (g : MG L A) (p : L × L) (ps : List (L × L)) :
    addPairs g (p :: ps) = addPairs (MG.addEdge g p.1 p.2 []) ps := rfl

theorem addPairs_append (g : MG L A) (ps qs : List (L × L)) : addPairs g (ps ++ qs) = addPairs (addPairs g ps) qs := by
  unfold addPairs
  rw [List.foldl_append]

theorem addPairs_valid (ps : List (L × L)) : ∀ {g : MG L A}, g.Valid → (addPairs g ps).Valid := by
  induction ps with
  | nil => intro g h; exact h
  | cons p ps ih => intro g h; exact ih (valid_addEdge h _ _ _)

theorem addPairs_between (ps : List (L × L)) : ∀ (g : MG L A) (i j : L),
    between (addPairs g ps).edges i j = between g.edges i j ++ (ps.filter (fun p => decide (p = (i, j)))).map (fun _ => []) := by
  induction ps with
  | nil => intro g i j; simp [addPairs]
  | cons p ps ih =>
    obtain ⟨a, b⟩ := p
    intro g i j
    rw [addPairs_cons, ih, between_addEdge, List.filter_cons]
    simp only [Prod.mk.injEq, decide_eq_true_eq, List.append_assoc]
    by_cases h : a = i ∧ b = j
    · simp [h]
    · rw [if_neg h, if_neg h]; rfl

theorem addPairs_rot (ps : List (L × L)) : ∀ (g : MG L A), (addPairs g ps).rot = g.rot := by
  induction ps with
  | nil => intro g; rfl
  | cons p ps ih => intro g; rw [addPairs_cons, ih]; simp [MG.addEdge, ensure_rot]

theorem ensure_plain {g : MG L A} (h : ∀ p ∈ g.nodes, p.2 = []) (x : L) : ∀ p ∈ (ensure g x).nodes, p.2 = [] := by
  unfold ensure
  split
  · exact h
  · intro p hp
    rcases List.mem_append.1 hp with hp | hp
    · exact h p hp
    · rw [List.mem_singleton] at hp; rw [hp]

theorem addPairs_plain (ps : List (L × L)) : ∀ {g : MG L A}, (∀ p ∈ g.nodes, p.2 = []) → ∀ p ∈ (addPairs g ps).nodes, p.2 = [] := by
  induction ps with
  | nil => intro g h; exact h
  | cons p ps ih =>
    intro g h
    exact ih (g := MG.addEdge g p.1 p.2 []) (ensure_plain (ensure_plain h _) _)

theorem bidir_ofMG {g : MG L A} (hg : g.Valid) (a b : L) :
    Net.addEdgeBidir a b [] (ofMG g) = (.ok (), ofMG (addPairs g [(a, b), (b, a)])) := by
  unfold Net.addEdgeBidir
  rw [NetM.bind_ok (addEdge_ofMG hg a b []), addEdge_ofMG (valid_addEdge hg a b [])]
  rfl

theorem addEdge_labels (g : MG L A) (a b : L) (attr : Attr A) :
    (MG.addEdge g a b attr).labels = (ensure (ensure g a) b).labels := rfl

theorem addPairs_labels_mem (ps : List (L × L)) : ∀ (g : MG L A), (∀ p ∈ ps, p.1 ∈ g.labels ∧ p.2 ∈ g.labels) →
    (addPairs g ps).labels = g.labels := by
  induction ps with
  | nil => intro g _; rfl
  | cons p ps ih =>
    intro g h
    have h1 := h p (by simp)
    have h2 : (MG.addEdge g p.1 p.2 []).labels = g.labels := by
      rw [addEdge_labels, ensure_of_mem h1.1, ensure_of_mem h1.2]
    rw [addPairs_cons, ih _ (by rw [h2]; exact fun q hq => h q (by simp [hq])), h2]

/-- The edges of the triangle. -/
def triPairs (a b c : L) : List (L × L) := [(a, b), (b, a), (a, c), (c, a), (b, c), (c, b)]

/-- The edges between the triangle and the three neighbours. -/
def linkPairs (a b c k1 k2 k3 : L) : List (L × L) := [(c, k1), (k1, c), (b, k2), (k2, b), (a, k3), (k3, a)]

theorem labels_ensure_if (g : MG L A) (x : L) : (ensure g x).labels = if x ∈ g.labels then g.labels else g.labels ++ [x] := by
  unfold ensure; split <;> simp [MG.labels]

theorem tri_labels {g : MG L A} {a b c : L} (hn : [a, b, c].Nodup) (ha : a ∉ g.labels) (hb : b ∉ g.labels) (hc : c ∉ g.labels) :
    (addPairs g (triPairs a b c)).labels = g.labels ++ [a, b, c] := by
  obtain ⟨n1, n2, n3⟩ : a ≠ b ∧ a ≠ c ∧ b ≠ c := by
    simp only [List.nodup_cons, List.mem_cons, List.not_mem_nil, or_false, not_or] at hn
    exact ⟨hn.1.1, hn.1.2, hn.2.1⟩
  have e1 : (addPairs g [(a, b)]).labels = g.labels ++ [a, b] := by
    show (ensure (ensure g a) b).labels = _
    rw [labels_ensure_if, labels_ensure_if, if_neg ha, if_neg (by simp [hb, n1.symm])]
    simp
  have e2 : (addPairs g [(a, b), (b, a)]).labels = g.labels ++ [a, b] := by
    have e0 : [(a, b), (b, a)] = [(a, b)] ++ [(b, a)] := rfl
    rw [e0, addPairs_append, addPairs_labels_mem _ _ (by rw [e1]; simp), e1]
  have e3 : (addPairs g [(a, b), (b, a), (a, c)]).labels = g.labels ++ [a, b, c] := by
    have e0 : [(a, b), (b, a), (a, c)] = [(a, b), (b, a)] ++ [(a, c)] := rfl
    rw [e0, addPairs_append, addPairs_cons]
    show (MG.addEdge (addPairs g [(a, b), (b, a)]) a c []).labels = _
    rw [addEdge_labels, ensure_of_mem (x := a) (by rw [e2]; simp), labels_ensure_if, e2, if_neg (by simp [hc, n2.symm, n3.symm])]
    simp
  have e4 : triPairs a b c = [(a, b), (b, a), (a, c)] ++ [(c, a), (b, c), (c, b)] := rfl
  rw [e4, addPairs_append, addPairs_labels_mem _ _ (by rw [e3]; simp), e3]

theorem sources_addEdge_ne {g : MG L A} {a b x : L} (h : b ≠ x) (attr : Attr A) :
    sources (MG.addEdge g a b attr).edges x = sources g.edges x := by
  unfold sources MG.addEdge
  simp [List.filter_append, h]

theorem sources_addPairs_ne (ps : List (L × L)) : ∀ {g : MG L A} {x : L}, (∀ p ∈ ps, p.2 ≠ x) →
    sources (addPairs g ps).edges x = sources g.edges x := by
  induction ps with
  | nil => intro g x _; rfl
  | cons p ps ih =>
    intro g x h
    rw [addPairs_cons, ih (fun q hq => h q (by simp [hq])), sources_addEdge_ne (h p (by simp))]

end

section
variable {A : Type}

theorem append_inj1 {x y s s' : String} (h : s.length = s'.length) (e : x ++ s = y ++ s') : x = y ∧ s = s' := by
  have e' : x.toList ++ s.toList = y.toList ++ s'.toList := by rw [← String.toList_append, e, String.toList_append]
  have hl : s.toList.length = s'.toList.length := by rw [String.length_toList, String.length_toList]; exact h
  obtain ⟨h1, h2⟩ := List.append_inj' e' hl
  exact ⟨String.toList_inj.1 h1, String.toList_inj.1 h2⟩

theorem self_ne_append {x s : String} (h : s.length = 1) : x ++ s ≠ x := by
  intro e
  have := congrArg String.length e
  rw [String.length_append] at this
  omega

theorem connect_ok {g : MG String A} (hg : g.Valid) {x k y : String} {ins : List String} (hk : k ≠ x) :
    connectInserted x (ins ++ [y], ofMG g) k = .ok (ins, ofMG (addPairs g [(y, k), (k, y)])) := by
  unfold connectInserted
  simp only [List.getLast?_append, List.getLast?_singleton, Option.some_or, bidir_ofMG hg, if_neg hk, List.dropLast_concat]

/-- One node with three neighbours. -/
theorem expand_node {g : MG String A} (hg : g.Valid) {x a b c k1 k2 k3 : String} (ea : x ++ "a" = a) (eb : x ++ "b" = b) (ec : x ++ "c" = c)
    (hx : x ∈ g.labels) (hn : [a, b, c].Nodup) (ha : a ∉ g.labels) (hb : b ∉ g.labels) (hc : c ∉ g.labels)
    (hs : sources g.edges x = [k1, k2, k3]) (hk : k1 ≠ x ∧ k2 ≠ x ∧ k3 ≠ x) :
    expandNode (ofMG g) x = .ok (ofMG (MG.removeNode (addPairs g (triPairs a b c ++ linkPairs a b c k1 k2 k3)) x)) := by
  have hv1 := addPairs_valid (triPairs a b c) hg
  have hl := tri_labels hn ha hb hc
  unfold expandNode
  rw [ea, eb, ec]
  clear ea eb ec
  have h1 : (do Net.addEdgeBidir a b []; Net.addEdgeBidir a c []; Net.addEdgeBidir b c [] : NetM String A Unit) (ofMG g) =
      (.ok (), ofMG (addPairs g (triPairs a b c))) := by
    rw [NetM.bind_ok (bidir_ofMG hg _ _), NetM.bind_ok (bidir_ofMG (addPairs_valid _ hg) _ _),
      bidir_ofMG (addPairs_valid _ (addPairs_valid _ hg)), ← addPairs_append, ← addPairs_append]
    have e4 : triPairs a b c = [(a, b), (b, a)] ++ ([(a, c), (c, a)] ++ [(b, c), (c, b)]) := rfl
    rw [e4]
  have hxa : a ≠ x := fun e => ha (e ▸ hx)
  have hxb : b ≠ x := fun e => hb (e ▸ hx)
  have hxc : c ≠ x := fun e => hc (e ▸ hx)
  have h2 : sources (addPairs g (triPairs a b c)).edges x = [k1, k2, k3] := by
    rw [sources_addPairs_ne, hs]
    intro p hp
    simp only [triPairs, List.mem_cons, List.not_mem_nil, or_false] at hp
    rcases hp with rfl | rfl | rfl | rfl | rfl | rfl <;> assumption
  rw [h1]
  simp only
  rw [inEdges_ofMG (by rw [hl]; simp [hx])]
  simp only [keys_incomingOf, h2, List.foldlM_cons, List.foldlM_nil]
  have c1 := connect_ok hv1 (y := c) (ins := [a, b]) hk.1
  have c2 := connect_ok (addPairs_valid [(c, k1), (k1, c)] hv1) (y := b) (ins := [a]) hk.2.1
  have c3 := connect_ok (addPairs_valid [(b, k2), (k2, b)] (addPairs_valid [(c, k1), (k1, c)] hv1)) (y := a) (ins := []) hk.2.2
  simp only [List.cons_append, List.nil_append] at c1 c2 c3
  rw [c1]
  simp only [bind, Except.bind]
  rw [c2]
  simp only [c3, pure, Except.pure]
  have e : addPairs (addPairs (addPairs (addPairs g (triPairs a b c)) [(c, k1), (k1, c)]) [(b, k2), (k2, b)]) [(a, k3), (k3, a)] =
      addPairs g (triPairs a b c ++ linkPairs a b c k1 k2 k3) := by
    rw [← addPairs_append, ← addPairs_append, ← addPairs_append]
    have e4 : linkPairs a b c k1 k2 k3 = [(c, k1), (k1, c)] ++ ([(b, k2), (k2, b)] ++ [(a, k3), (k3, a)]) := rfl
    rw [e4]
  rw [e, removeNode_ofMG (addPairs_valid _ hg), if_pos]
  have hks : ∀ k ∈ [k1, k2, k3], k ∈ g.labels := by
    intro k hk'
    rw [← hs] at hk'
    exact (mem_labels_of_mem_sources hg hk').1
  rw [addPairs_append, addPairs_labels_mem, hl]
  · simp [hx]
  · rw [hl]
    have m1 := hks k1 (by simp)
    have m2 := hks k2 (by simp)
    have m3 := hks k3 (by simp)
    intro p hp
    simp only [linkPairs, List.mem_cons, List.not_mem_nil, or_false] at hp
    rcases hp with rfl | rfl | rfl | rfl | rfl | rfl <;> simp [m1, m2, m3]

end
end Verif
