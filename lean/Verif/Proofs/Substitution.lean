import Verif.Model.Substitution
import Verif.Spec.Substitution
import Verif.Proofs.Requests
import Verif.Proofs.NetworkX
import Verif.Proofs.CARun
/-! # Lemmas on substitution systems -/

namespace Verif
open MG Spec

/-! ### Networks of a word -/

/-- The network has the labels `a .. a+n-1`, and every label has itself and the `m - 1` following labels as neighbours, as
far as they exist, in this order. -/
def WordNet {A : Type} (m a n : Nat) (g : MG Nat A) : Prop :=
  g.Valid ∧ g.rot = none ∧ g.labels = List.range' a n ∧
    ∀ i, i < n → sources g.edges (a + i) = List.range' (a + i) (min m (n - i))

section
variable {A V I κ : Type}

/-- The insertion of a requested node on multigraphs. -/
def insertMG (act : V → A) (g : MG Nat A) (r : AddReq Nat A V) : MG Nat A :=
  r.links.foldl (fun g p => MG.addEdge g r.label p.1 p.2) (MG.addNode g r.label [("activity", act r.state)])

theorem insertReq_ofMG {σ : Type} (cfg : Config Nat A V I σ κ) (g : MG Nat A) (r : AddReq Nat A V) (hg : g.Valid) :
    insertReq cfg r (ofMG g) = (.ok (), ofMG (insertMG cfg.actAttr g r)) ∧ (insertMG cfg.actAttr g r).Valid := by
  unfold insertReq insertMG
  rw [NetM.bind_ok (addNode_ofMG hg _ _)]
  exact forEach_ofMG (fun g p hg => ⟨addEdge_ofMG hg _ _ _, valid_addEdge hg _ _ _⟩) _ _ (valid_addNode hg _ _)

/-- Edges into labels that are present. -/
theorem foldl_links (x : Nat) (links : List (Nat × Attr A)) (g : MG Nat A) (hx : x ∈ g.labels)
    (hl : ∀ p ∈ links, p.1 ∈ g.labels) :
    links.foldl (fun g p => MG.addEdge g x p.1 p.2) g =
      { g with edges := g.edges ++ links.map (fun p => ⟨x, p.1, p.2⟩) } := by
  induction links generalizing g with
  | nil => simp
  | cons p links ih =>
    have h1 : MG.addEdge g x p.1 p.2 = { g with edges := g.edges ++ [⟨x, p.1, p.2⟩] } := by
      unfold MG.addEdge
      rw [ensure_of_mem hx, ensure_of_mem (hl p (by simp))]
    rw [List.foldl_cons, h1, ih]
    · simp
    · exact hx
    · exact fun q hq => hl q (by simp [hq])

/-- The request for the symbol `v` at position `k` of a word that starts with the label `b`. -/
def wordReq (m b : Nat) (p : V × Nat) : AddReq Nat A V :=
  ⟨p.1, (List.range (min (p.2 + 1) m)).map (fun j => (b + p.2 - j, [])), b + p.2⟩

/-- The edges of the node at position `k`. -/
def wordEdges (m b k : Nat) : List (Edge Nat A) :=
  (List.range (min (k + 1) m)).map (fun j => ⟨b + k, b + k - j, []⟩)

theorem labels_addNode_new {g : MG Nat A} {x : Nat} (hx : x ∉ g.labels) (attr : Attr A) :
    (MG.addNode g x attr).labels = g.labels ++ [x] ∧ (MG.addNode g x attr).edges = g.edges ∧
      (MG.addNode g x attr).rot = g.rot := by
  refine ⟨?_, by simp [MG.addNode, ensure_edges], by simp [MG.addNode, ensure_rot]⟩
  unfold MG.addNode ensure
  rw [if_neg hx]
  simp only [MG.labels, List.map_map, List.map_append]
  congr 1
  · apply List.map_congr_left
    intro p _
    simp only [Function.comp]
    split <;> rfl
  · simp

theorem insertMG_word (act : V → A) (m b k : Nat) (v : V) (g : MG Nat A) (hl : g.labels = List.range' b k) :
    (insertMG act g (wordReq m b (v, k))).labels = List.range' b (k + 1) ∧
    (insertMG act g (wordReq m b (v, k))).edges = g.edges ++ wordEdges m b k ∧
    (insertMG act g (wordReq m b (v, k))).rot = g.rot := by
  have hx : b + k ∉ g.labels := by rw [hl, List.mem_range'_1]; omega
  obtain ⟨h1, h2, h3⟩ := labels_addNode_new hx [("activity", act v)]
  have hl' : (MG.addNode g (b + k) [("activity", act v)]).labels = List.range' b (k + 1) := by
    rw [h1, hl, List.range'_concat, Nat.one_mul]
  have key := foldl_links (b + k) ((List.range (min (k + 1) m)).map (fun j => ((b + k - j, []) : Nat × Attr A)))
    (MG.addNode g (b + k) [("activity", act v)]) (by rw [hl', List.mem_range'_1]; omega) (by
      intro p hp
      obtain ⟨j, hj, rfl⟩ := List.mem_map.1 hp
      rw [List.mem_range] at hj
      rw [hl', List.mem_range'_1]
      simp only
      omega)
  unfold insertMG wordReq
  simp only [key]
  refine ⟨hl', ?_, h3⟩
  rw [h2, List.map_map]
  rfl

theorem insert_word (act : V → A) (m b : Nat) (vs : List V) (k : Nat) (g : MG Nat A) (hl : g.labels = List.range' b k) :
    (((vs.zipIdx k).map (wordReq m b)).foldl (insertMG act) g).labels = List.range' b (k + vs.length) ∧
    (((vs.zipIdx k).map (wordReq m b)).foldl (insertMG act) g).edges =
      g.edges ++ (List.range' k vs.length).flatMap (wordEdges m b) ∧
    (((vs.zipIdx k).map (wordReq m b)).foldl (insertMG act) g).rot = g.rot := by
  induction vs generalizing k g with
  | nil => simp [hl]
  | cons v vs ih =>
    obtain ⟨h1, h2, h3⟩ := insertMG_word act m b k v g hl
    obtain ⟨e1, e2, e3⟩ := ih (k + 1) _ h1
    rw [List.zipIdx_cons, List.map_cons, List.foldl_cons]
    refine ⟨?_, ?_, ?_⟩
    · rw [e1, List.length_cons]; congr 1; omega
    · rw [e2, h2, List.length_cons, List.range'_succ, List.flatMap_cons, List.append_assoc]
    · rw [e3, h3]

theorem wordEdges_src (m b k i : Nat) : ((wordEdges m b k : List (Edge Nat A)).filter (fun e => decide (e.dst = b + i))).map Edge.src =
    if i ≤ k ∧ k < i + m then [b + k] else [] := by
  unfold wordEdges
  rw [List.filter_map, List.map_map]
  have : ((fun e : Edge Nat A => decide (e.dst = b + i)) ∘ fun j => (⟨b + k, b + k - j, []⟩ : Edge Nat A)) =
      fun j => decide (b + k - j = b + i) := rfl
  rw [this]
  have hm : ∀ n, n ≤ k + 1 → ((List.range n).filter (fun j => decide (b + k - j = b + i))).map (fun _ => b + k) =
      if i ≤ k ∧ k < i + n then [b + k] else [] := by
    intro n
    induction n with
    | zero => intro _; rw [if_neg (by omega)]; rfl
    | succ n ih =>
      intro hn
      rw [List.range_succ, List.filter_append, List.map_append, ih (by omega)]
      by_cases h1 : b + k - n = b + i
      · rw [if_neg (by omega), if_pos (by omega)]
        simp [h1]
      · by_cases h2 : i ≤ k ∧ k < i + n
        · rw [if_pos h2, if_pos (by omega)]
          simp [h1]
        · rw [if_neg h2, if_neg (by omega)]
          simp [h1]
  rw [show (Edge.src ∘ fun j => (⟨b + k, b + k - j, []⟩ : Edge Nat A)) = fun _ => b + k from rfl, hm _ (by omega)]
  by_cases h : i ≤ k ∧ k < i + m
  · rw [if_pos h, if_pos (by omega)]
  · rw [if_neg h, if_neg (by omega)]

theorem nodup_range'_one (a n : Nat) : (List.range' a n).Nodup := List.nodup_range'

theorem sources_word (m b n i : Nat) :
    sources ((List.range' 0 n).flatMap (wordEdges m b) : List (Edge Nat A)) (b + i) = List.range' (b + i) (min m (n - i)) := by
  have key : ∀ n, (((List.range' 0 n).flatMap (wordEdges m b) : List (Edge Nat A)).filter (fun e => decide (e.dst = b + i))).map
      Edge.src = List.range' (b + i) (min m (n - i)) := by
    intro n
    induction n with
    | zero => simp
    | succ n ih =>
      rw [List.range'_concat, List.flatMap_append, List.filter_append, List.map_append, ih]
      simp only [Nat.one_mul, Nat.zero_add, List.flatMap_cons, List.flatMap_nil, List.append_nil, wordEdges_src]
      by_cases h : i ≤ n ∧ n < i + m
      · rw [if_pos h, show min m (n + 1 - i) = min m (n - i) + 1 by omega, List.range'_concat, Nat.one_mul]
        congr 1
        rw [show min m (n - i) = n - i by omega, show b + i + (n - i) = b + n by omega]
      · rw [if_neg h, List.append_nil]
        congr 1
        omega
  unfold sources
  rw [key, dedup_of_nodup (nodup_range'_one _ _)]

/-- The network after the insertion of a word. -/
theorem wordNet_insert {σ : Type} (cfg : Config Nat A V I σ κ) (m b : Nat) (vs : List V) :
    ∃ g : MG Nat A, NetM.forEach ((vs.zipIdx).map (wordReq m b)) (insertReq cfg) (ofMG MG.empty) = (.ok (), ofMG g) ∧
      WordNet m b vs.length g := by
  obtain ⟨h1, h2⟩ := forEach_ofMG (fun g r hg => insertReq_ofMG cfg g r hg) ((vs.zipIdx).map (wordReq m b)) MG.empty valid_empty
  obtain ⟨e1, e2, e3⟩ := insert_word cfg.actAttr m b vs 0 MG.empty rfl
  refine ⟨_, h1, h2, e3, by rw [e1, Nat.zero_add], ?_⟩
  intro i _
  rw [e2]
  exact sources_word m b _ i

/-- All nodes are removed. -/
theorem removals_all (removed : List Nat) {g : MG Nat A} (hg : g.Valid) (hnd : removed.Nodup) (hsub : ∀ x ∈ removed, x ∈ g.labels) :
    ∃ g', NetM.forEach removed Net.removeNode (ofMG g) = (.ok (), ofMG g') ∧ g'.Valid ∧ g'.rot = g.rot ∧
      g'.labels = g.labels.filter (fun x => decide (x ∉ removed)) := by
  induction removed generalizing g with
  | nil => exact ⟨g, rfl, hg, rfl, (List.filter_eq_self.2 (by simp)).symm⟩
  | cons x xs ih =>
    rw [List.nodup_cons] at hnd
    obtain ⟨g', e1, e2, e3, e4⟩ := ih (valid_removeNode hg x) hnd.2 (fun y hy => by
      rw [labels_removeNode, List.mem_filter]
      refine ⟨hsub y (by simp [hy]), ?_⟩
      simp only [ne_eq, decide_eq_true_eq]
      rintro rfl
      exact hnd.1 hy)
    refine ⟨g', ?_, e2, e3, ?_⟩
    · simp only [NetM.forEach, NetM.bind, removeNode_ofMG hg, if_pos (hsub x (by simp))]
      exact e1
    · rw [e4, labels_removeNode, List.filter_filter]
      apply List.filter_congr
      intro y _
      simp [List.mem_cons, not_or, Bool.and_comm]

theorem eq_empty_of_labels {g : MG Nat A} (hg : g.Valid) (hr : g.rot = none) (hl : g.labels = []) : g = MG.empty := by
  obtain ⟨nodes, edges, rot⟩ := g
  have h1 : nodes = [] := by simpa [MG.labels] using hl
  subst h1
  have h2 : edges = [] := by
    cases edges with
    | nil => rfl
    | cons e es => exact absurd (hg.closed e (by simp)).1 (by rw [hl]; simp)
  simp only at hr
  subst h2 hr
  rfl

/-! ### The network of the axiom -/

/-- The edges made for label `i`. -/
def axiomEdges (m n i : Nat) : List (Edge Nat A) :=
  ⟨i, i, []⟩ :: ((List.range' 1 (m - 1)).filter (fun j => decide (i + j < n))).map (fun j => ⟨i + j, i, []⟩)

theorem labels_ensure_range {g : MG Nat A} {P x : Nat} (hl : g.labels = List.range P) (hx : x ≤ P) :
    (ensure g x).labels = List.range (max P (x + 1)) := by
  unfold ensure
  split
  · rename_i h
    rw [hl, List.mem_range] at h
    rw [hl]; congr 1; omega
  · rename_i h
    rw [hl, List.mem_range] at h
    have : x = P := by omega
    subst this
    simp only [MG.labels, List.map_append, List.map_cons, List.map_nil] at hl ⊢
    rw [hl, show max x (x + 1) = x + 1 by omega, List.range_succ]

/-- One edge of the initial network. -/
theorem addEdge_range {g : MG Nat A} {P x i : Nat} (hl : g.labels = List.range P) (hi : i ≤ x) (hx : x ≤ P) :
    (MG.addEdge g x i []).labels = List.range (max P (x + 1)) ∧ (MG.addEdge g x i []).edges = g.edges ++ [⟨x, i, []⟩] ∧
      (MG.addEdge g x i []).rot = g.rot := by
  refine ⟨?_, rfl, by simp [MG.addEdge, ensure_rot]⟩
  show (ensure (ensure g x) i).labels = _
  have := labels_ensure_range hl hx
  rw [labels_ensure_range this (by omega)]
  congr 1
  omega

theorem substLinks_ofMG (n i : Nat) (js : Nat) : ∀ (j0 : Nat) (g : MG Nat A) (P : Nat), g.Valid → g.labels = List.range P →
    i + j0 ≤ P → P ≤ n →
    ∃ g' P', NetM.forEach (List.range' j0 js) (substLink n i) (ofMG g) = (.ok (), ofMG g') ∧ g'.Valid ∧
      g'.labels = List.range P' ∧ P ≤ P' ∧ P' ≤ n ∧ g'.rot = g.rot ∧
      g'.edges = g.edges ++ ((List.range' j0 js).filter (fun j => decide (i + j < n))).map (fun j => ⟨i + j, i, []⟩) := by
  induction js with
  | zero => intro j0 g P hg hl _ hn; exact ⟨g, P, rfl, hg, hl, Nat.le_refl _, hn, rfl, by simp⟩
  | succ js ih =>
    intro j0 g P hg hl hj hn
    rw [List.range'_succ]
    by_cases h : i + j0 < n
    · obtain ⟨h1, h2, h3⟩ := addEdge_range (i := i) hl (show i ≤ i + j0 by omega) hj
      obtain ⟨g', P', e1, e2, e3, e4, e5, e6, e7⟩ := ih (j0 + 1) (MG.addEdge g (i + j0) i []) _ (valid_addEdge hg _ _ _) h1
        (by omega) (by omega)
      refine ⟨g', P', ?_, e2, e3, by omega, e5, by rw [e6, h3], ?_⟩
      · simp only [NetM.forEach, NetM.bind]
        rw [show substLink n i j0 (ofMG g) = (.ok (), ofMG (MG.addEdge g (i + j0) i [])) by
          unfold substLink; rw [if_pos h]; exact addEdge_ofMG hg _ _ _]
        exact e1
      · rw [e7, h2, List.filter_cons_of_pos (by simpa using h)]
        simp
    · have : ∀ (l : List Nat), (∀ j ∈ l, j0 ≤ j) → NetM.forEach l (substLink n i) (ofMG g) = (.ok (), ofMG g) := by
        intro l
        induction l with
        | nil => intro _; rfl
        | cons j l ihl =>
          intro hjl
          simp only [NetM.forEach, NetM.bind]
          rw [show substLink n i j (ofMG g) = (.ok (), ofMG g) by
            unfold substLink; rw [if_neg (by have := hjl j (by simp); omega)]; rfl]
          exact ihl (fun j' h' => hjl j' (by simp [h']))
      refine ⟨g, P, this _ ?_, hg, hl, Nat.le_refl _, hn, rfl, ?_⟩
      · intro j hj
        rcases List.mem_cons.1 hj with rfl | hj
        · exact Nat.le_refl _
        · rw [List.mem_range'_1] at hj; omega
      · rw [List.filter_eq_nil_iff.2]
        · simp
        · intro j hj
          have : j0 ≤ j := by
            rcases List.mem_cons.1 hj with rfl | hj
            · exact Nat.le_refl _
            · rw [List.mem_range'_1] at hj; omega
          simp; omega

theorem substNodes_ofMG (m n : Nat) (k : Nat) (hk : k ≤ n) :
    ∃ (g : MG Nat A) (P : Nat), NetM.forEach (List.range k) (substNode m n) (ofMG MG.empty) = (.ok (), ofMG g) ∧ g.Valid ∧
      g.labels = List.range P ∧ k ≤ P ∧ P ≤ n ∧ g.rot = none ∧ g.edges = (List.range k).flatMap (axiomEdges m n) := by
  have app : ∀ {β : Type} (l l' : List β) (f : β → NetM Nat A Unit) (x y : Net Nat A),
      NetM.forEach l f x = (.ok (), y) → NetM.forEach (l ++ l') f x = NetM.forEach l' f y := by
    intro β l l' f
    induction l with
    | nil => intro x y h; simp only [NetM.forEach, NetM.pure, Prod.mk.injEq, true_and] at h; subst h; rfl
    | cons b l ih =>
      intro x y h
      simp only [List.cons_append, NetM.forEach, NetM.bind] at h ⊢
      cases hb : f b x with
      | mk o z =>
        cases o with
        | error e => rw [hb] at h; cases h
        | ok u => rw [hb] at h; exact ih z y h
  induction k with
  | zero => exact ⟨MG.empty, 0, rfl, valid_empty, rfl, Nat.le_refl _, Nat.zero_le _, rfl, rfl⟩
  | succ k ih =>
    obtain ⟨g, P, e1, e2, e3, e4, e5, e6, e7⟩ := ih (by omega)
    obtain ⟨h1, h2, h3⟩ := addEdge_range (i := k) e3 (Nat.le_refl k) e4
    obtain ⟨g', P', a1, a2, a3, a4, a5, a6, a7⟩ := substLinks_ofMG n k (m - 1) 1 _ _ (valid_addEdge e2 k k []) h1 (by omega) (by omega)
    refine ⟨g', P', ?_, a2, a3, by omega, a5, by rw [a6, h3, e6], ?_⟩
    · rw [List.range_succ, app _ _ _ _ _ e1]
      have : substNode m n k (ofMG g) = (.ok (), ofMG g') := by
        unfold substNode
        rw [NetM.bind_ok (addEdge_ofMG e2 k k [])]
        exact a1
      simp [NetM.forEach, NetM.bind, this, NetM.pure]
    · rw [a7, h2, e7, List.range_succ, List.flatMap_append]
      simp [axiomEdges]

theorem axiomEdges_src (m n k i : Nat) : ((axiomEdges m n k : List (Edge Nat A)).filter (fun e => decide (e.dst = i))).map Edge.src =
    if k = i then i :: ((List.range' 1 (m - 1)).filter (fun j => decide (i + j < n))).map (fun j => i + j) else [] := by
  unfold axiomEdges
  by_cases h : k = i
  · subst h
    rw [if_pos rfl, List.filter_eq_self.2]
    · simp
    · intro e he
      rcases List.mem_cons.1 he with rfl | he
      · simp
      · obtain ⟨j, _, rfl⟩ := List.mem_map.1 he; simp
  · rw [if_neg h, List.filter_eq_nil_iff.2]
    · rfl
    · intro e he
      rcases List.mem_cons.1 he with rfl | he
      · simpa using h
      · obtain ⟨j, _, rfl⟩ := List.mem_map.1 he; simpa using h

theorem filter_range' (i n : Nat) (hi : i < n) (k : Nat) : i :: ((List.range' 1 k).filter (fun j => decide (i + j < n))).map (fun j => i + j) =
    List.range' i (min (k + 1) (n - i)) := by
  induction k with
  | zero => rw [show min (0 + 1) (n - i) = 1 by omega]; rfl
  | succ k ih =>
    rw [List.range'_concat, List.filter_append, List.map_append, ← List.cons_append, ih]
    by_cases h : i + (1 + 1 * k) < n
    · rw [show min (k + 1 + 1) (n - i) = min (k + 1) (n - i) + 1 by omega, List.range'_concat]
      congr 1
      rw [List.filter_cons_of_pos (by simpa using h)]
      simp only [List.filter_nil, List.map_cons, List.map_nil, Nat.one_mul]
      congr 1
      omega
    · rw [List.filter_cons_of_neg (by simpa using h)]
      simp only [List.filter_nil, List.map_nil, List.append_nil]
      congr 1
      omega

/-- The initial network. -/
theorem wordNet_axiom (m n : Nat) (hm : 1 ≤ m) : ∃ g : MG Nat A, substNetwork m n = ofMG g ∧ WordNet m 0 n g := by
  obtain ⟨g, P, e1, e2, e3, e4, e5, e6, e7⟩ := substNodes_ofMG (A := A) m n n (Nat.le_refl _)
  refine ⟨g, ?_, e2, e6, ?_, ?_⟩
  · unfold substNetwork
    rw [← ofMG_empty, e1]
  · rw [e3, show P = n by omega, List.range_eq_range']
  · intro i hi
    rw [Nat.zero_add]
    have key : ∀ k, (((List.range k).flatMap (axiomEdges m n) : List (Edge Nat A)).filter (fun e => decide (e.dst = i))).map Edge.src =
        if i < k then List.range' i (min m (n - i)) else [] := by
      intro k
      induction k with
      | zero => rfl
      | succ k ih =>
        rw [List.range_succ, List.flatMap_append, List.filter_append, List.map_append, ih]
        simp only [List.flatMap_cons, List.flatMap_nil, List.append_nil, axiomEdges_src]
        by_cases h : k = i
        · subst h
          rw [if_pos rfl, if_neg (by omega), if_pos (by omega), filter_range' k n hi, List.nil_append]
          congr 1
          omega
        · rw [if_neg h, List.append_nil]
          by_cases h' : i < k
          · rw [if_pos h', if_pos (by omega)]
          · rw [if_neg h', if_neg (by omega)]
    unfold sources
    rw [e7, key, if_pos hi, dedup_of_nodup (nodup_range'_one _ _)]

end
end Verif
