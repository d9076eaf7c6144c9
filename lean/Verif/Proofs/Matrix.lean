import Verif.Model.Matrix
import Verif.Proofs.NetworkQueries
/-! # Lemmas: adjacency matrices -/

namespace Verif
open MG

/-- Entry `(a, b)` of a matrix. -/
def entry {W : Type} (M : List (List W)) (a b : Nat) : Option W := (M[a]?).bind (fun r => r[b]?)

section toAdj
variable {L A W : Type} [DecidableEq L] [Add W] [One W] [Zero W]

/-- `M` is an `n` by `n` matrix. -/
def Square (M : List (List W)) (n : Nat) : Prop := M.length = n ∧ ∀ r ∈ M, r.length = n

omit [Add W] [One W] in
theorem square_zero (n : Nat) : Square (List.replicate n (List.replicate n (0 : W))) n := by
  refine ⟨by simp, ?_⟩
  intro r hr
  rw [List.mem_replicate] at hr
  simp [hr.2]

omit [One W] [Zero W] in
theorem putEntry_spec {sum : Bool} {M : List (List W)} {n i j : Nat} {w : W} (hM : Square M n) (hi : i < n) (hj : j < n) :
    ∃ M', putEntry sum M i j w = .ok M' ∧ Square M' n ∧
      ∀ a b, entry M' a b = if a = i ∧ b = j then (entry M i j).map (fun old => if sum then old + w else w)
        else entry M a b := by
  have h1 : i < M.length := by rw [hM.1]; exact hi
  have h2 : (M[i]).length = n := hM.2 _ (List.getElem_mem _)
  have h3 : j < (M[i]).length := by rw [h2]; exact hj
  refine ⟨M.set i (M[i].set j (if sum then M[i][j] + w else w)), ?_, ⟨?_, ?_⟩, ?_⟩
  · simp [putEntry, h1, h3]
  · simp [hM.1]
  · intro r hr
    rcases List.mem_or_eq_of_mem_set hr with h | h
    · exact hM.2 r h
    · rw [h, List.length_set]; exact h2
  · intro a b
    simp only [entry]
    by_cases ha : a = i
    · subst ha
      simp only [List.getElem?_set, h1, if_true, List.getElem?_eq_getElem h1, Option.bind_some, true_and]
      by_cases hb : b = j
      · subst hb; simp [h3]
      · have : ¬ j = b := fun e => hb e.symm
        simp [hb, this]
    · have : ¬ i = a := fun e => ha e.symm
      simp [List.getElem?_set, ha, this]

theorem idxOf?_of_mem {l : List L} {x : L} (h : x ∈ l) : ∃ i, l.idxOf? x = some i ∧ i < l.length ∧ l[i]? = some x := by
  induction l with
  | nil => simp at h
  | cons a l ih =>
    by_cases hx : a = x
    · subst hx; exact ⟨0, by simp [List.idxOf?_cons], by simp, by simp⟩
    · have : x ∈ l := by
        rcases List.mem_cons.1 h with h | h
        · exact absurd h.symm hx
        · exact h
      obtain ⟨i, h1, h2, h3⟩ := ih this
      refine ⟨i + 1, ?_, by simp [h2], by simp [h3]⟩
      simp [List.idxOf?_cons, hx, h1]

theorem getElem?_inj_of_nodup {l : List L} (h : l.Nodup) {i j : Nat} {x : L} (hi : l[i]? = some x)
    (hj : l[j]? = some x) : i = j := by
  induction l generalizing i j with
  | nil => simp at hi
  | cons a l ih =>
    simp only [List.nodup_cons] at h
    cases i with
    | zero =>
      cases j with
      | zero => rfl
      | succ j =>
        simp at hi hj; subst hi
        exact absurd (List.mem_of_getElem? hj) h.1
    | succ i =>
      cases j with
      | zero =>
        simp at hi hj; subst hj
        exact absurd (List.mem_of_getElem? hi) h.1
      | succ j =>
        simp at hi hj
        rw [ih h.2 hi hj]

/-- Value of an entry after the edges with weights `ws` were entered on top of `init`. -/
def accum (sum : Bool) (init : W) (ws : List W) : W :=
  ws.foldl (fun old w => if sum then old + w else w) init

theorem adjLoop (toW : A → W) (weight : Option String) (sum : Bool) (nl : List L) (hnl : nl.Nodup)
    (es : List (L × L × Attr A)) (hes : ∀ t ∈ es, t.1 ∈ nl ∧ t.2.1 ∈ nl) (M : List (List W))
    (hM : Square M nl.length) :
    ∃ M', es.foldlM (adjStep toW weight sum nl) M = .ok M' ∧ Square M' nl.length ∧
      ∀ a b x y, nl[a]? = some x → nl[b]? = some y →
        entry M' a b = (entry M a b).map (fun v => accum sum v
          ((es.filter (fun t => decide (t.1 = x) && decide (t.2.1 = y))).map (fun t => edgeWeight toW weight t.2.2))) := by
  induction es generalizing M with
  | nil =>
    refine ⟨M, rfl, hM, ?_⟩
    intro a b x y _ _
    simp [accum]
  | cons t es ih =>
    obtain ⟨ht1, ht2⟩ := hes t (by simp)
    obtain ⟨i, hi1, hi2, hi3⟩ := idxOf?_of_mem ht1
    obtain ⟨j, hj1, hj2, hj3⟩ := idxOf?_of_mem ht2
    obtain ⟨M1, h1, h2, h3⟩ := putEntry_spec (sum := sum) (w := edgeWeight toW weight t.2.2) hM hi2 hj2
    obtain ⟨M', h4, h5, h6⟩ := ih (fun t ht => hes t (by simp [ht])) M1 h2
    refine ⟨M', ?_, h5, ?_⟩
    · rw [List.foldlM_cons]
      have : adjStep toW weight sum nl M t = .ok M1 := by simp [adjStep, hi1, hj1, h1]
      rw [this]; exact h4
    · intro a b x y hx hy
      rw [h6 a b x y hx hy, h3 a b]
      by_cases hxt : t.1 = x
      · by_cases hyt : t.2.1 = y
        · have ea : a = i := getElem?_inj_of_nodup hnl hx (by rw [← hxt]; exact hi3)
          have eb : b = j := getElem?_inj_of_nodup hnl hy (by rw [← hyt]; exact hj3)
          subst ea; subst eb
          rw [if_pos ⟨rfl, rfl⟩, List.filter_cons]
          simp only [hxt, hyt, decide_true, Bool.and_self, if_true, List.map_cons, Option.map_map]
          rfl
        · have : ¬ (a = i ∧ b = j) := by
            rintro ⟨_, rfl⟩
            rw [hj3] at hy; exact hyt (by simpa using hy)
          rw [if_neg this, List.filter_cons]
          simp [hyt]
      · have : ¬ (a = i ∧ b = j) := by
          rintro ⟨rfl, _⟩
          rw [hi3] at hx; exact hxt (by simpa using hx)
        rw [if_neg this, List.filter_cons]
        simp [hxt]

end toAdj

/-! ## from_adjacency_matrix -/

section fromAdj
variable {W : Type} [Zero W] [DecidableEq W]

theorem mem_matrixEntries {M : List (List W)} {i j : Nat} {v : W} :
    (i, j, v) ∈ matrixEntries M ↔ entry M i j = some v ∧ v ≠ 0 := by
  simp only [matrixEntries, List.mem_flatMap, List.mem_map, List.mem_filter, decide_eq_true_eq, entry]
  constructor
  · rintro ⟨⟨row, i'⟩, hr, ⟨v', j'⟩, ⟨hc, hv⟩, he⟩
    simp only [Prod.mk.injEq] at he
    obtain ⟨rfl, rfl, rfl⟩ := he
    rw [List.mem_zipIdx_iff_getElem?] at hr hc
    exact ⟨by simp [hr, hc], hv⟩
  · rintro ⟨he, hv⟩
    cases hr : M[i]? with
    | none => simp [hr] at he
    | some row =>
      simp only [hr, Option.bind_some] at he
      refine ⟨(row, i), by rw [List.mem_zipIdx_iff_getElem?]; exact hr, (v, j), ⟨?_, hv⟩, rfl⟩
      rw [List.mem_zipIdx_iff_getElem?]; exact he

theorem nodup_of_map {α β : Type} (f : α → β) {l : List α} (h : (l.map f).Nodup) : l.Nodup := by
  induction l with
  | nil => simp
  | cons a l ih =>
    simp only [List.map_cons, List.nodup_cons] at h ⊢
    exact ⟨fun hm => h.1 (List.mem_map.2 ⟨a, hm, rfl⟩), ih h.2⟩

theorem zipIdx_snd_nodup {α : Type} (l : List α) (k : Nat) : ((l.zipIdx k).map Prod.snd).Nodup := by
  rw [List.zipIdx_map_snd]
  exact List.nodup_range'

theorem nodup_flatMap_key {α β γ : Type} (l : List α) (f : α → List β) (ka : α → γ) (kb : β → γ)
    (hl : (l.map ka).Nodup) (hf : ∀ a ∈ l, (f a).Nodup) (hk : ∀ a ∈ l, ∀ b ∈ f a, kb b = ka a) :
    (l.flatMap f).Nodup := by
  induction l with
  | nil => simp
  | cons a l ih =>
    simp only [List.map_cons, List.nodup_cons] at hl
    simp only [List.flatMap_cons]
    rw [List.nodup_append]
    refine ⟨hf a (by simp), ih hl.2 (fun a h => hf a (by simp [h])) (fun a h => hk a (by simp [h])), ?_⟩
    intro b hb c hc hbc
    subst hbc
    obtain ⟨a', ha', hc'⟩ := List.mem_flatMap.1 hc
    apply hl.1
    rw [← hk a (by simp) b hb, hk a' (by simp [ha']) b hc']
    exact List.mem_map.2 ⟨a', ha', rfl⟩

theorem nodup_matrixEntries (M : List (List W)) : ((matrixEntries M).map (fun t => (t.1, t.2.1))).Nodup := by
  unfold matrixEntries
  rw [List.map_flatMap]
  apply nodup_flatMap_key _ _ (fun r => r.2) (fun b => b.1)
  · exact zipIdx_snd_nodup M 0
  · intro r _
    rw [List.map_map]
    have := (zipIdx_snd_nodup r.1 0)
    have h2 : ((r.1.zipIdx.filter (fun c => decide (c.1 ≠ 0))).map Prod.snd).Nodup :=
      this.sublist (List.Sublist.map _ List.filter_sublist)
    apply nodup_of_map (fun b : Nat × Nat => b.2)
    rw [List.map_map]
    exact h2
  · intro r _ b hb
    simp only [List.map_map, List.mem_map] at hb
    obtain ⟨c, _, rfl⟩ := hb
    rfl

/-- Edges of a sequence of `add_edge` calls. -/
theorem run_addEdge_edges {L A : Type} [DecidableEq L] (ts : List (L × L × Attr A)) (g : MG L A) :
    (MG.run g (ts.map (fun t => Net.Op.addEdge t.1 t.2.1 t.2.2))).edges =
      g.edges ++ ts.map (fun t => ⟨t.1, t.2.1, t.2.2⟩) := by
  induction ts generalizing g with
  | nil => simp [MG.run]
  | cons t ts ih =>
    have := ih (MG.addEdge g t.1 t.2.1 t.2.2)
    simp only [MG.run, List.map_cons, List.foldl_cons, MG.exec] at this ⊢
    rw [this]; simp [MG.addEdge]

theorem ensure_labels {L A : Type} [DecidableEq L] (g : MG L A) (x : L) :
    (ensure g x).labels = if x ∈ g.labels then g.labels else g.labels ++ [x] := by
  unfold ensure; split <;> simp [MG.labels]

theorem run_addEdge_labels {L A : Type} [DecidableEq L] (ts : List (L × L × Attr A)) (g : MG L A) (x : L) :
    x ∈ (MG.run g (ts.map (fun t => Net.Op.addEdge t.1 t.2.1 t.2.2))).labels ↔
      x ∈ g.labels ∨ ∃ t ∈ ts, x = t.1 ∨ x = t.2.1 := by
  induction ts generalizing g with
  | nil => simp [MG.run]
  | cons t ts ih =>
    have := ih (MG.addEdge g t.1 t.2.1 t.2.2)
    simp only [MG.run, List.map_cons, List.foldl_cons, MG.exec] at this ⊢
    rw [this]
    have hl : x ∈ (MG.addEdge g t.1 t.2.1 t.2.2).labels ↔ x = t.2.1 ∨ x = t.1 ∨ x ∈ g.labels := by
      have : (MG.addEdge g t.1 t.2.1 t.2.2).labels = (ensure (ensure g t.1) t.2.1).labels := rfl
      rw [this, mem_labels_ensure, mem_labels_ensure]
    rw [hl]
    simp only [List.mem_cons, exists_eq_or_imp]
    constructor
    · rintro ((h | h | h) | h)
      · exact Or.inr (Or.inl (Or.inr h))
      · exact Or.inr (Or.inl (Or.inl h))
      · exact Or.inl h
      · exact Or.inr (Or.inr h)
    · rintro (h | (h | h) | h)
      · exact Or.inl (Or.inr (Or.inr h))
      · exact Or.inl (Or.inr (Or.inl h))
      · exact Or.inl (Or.inl h)
      · exact Or.inr h

/-- The multigraph behind `from_adjacency_matrix`. -/
def adjMG (M : List (List W)) : MG Nat W :=
  MG.run MG.empty ((matrixEntries M).map (fun t => Net.Op.addEdge t.1 t.2.1 [("weight", t.2.2)]))

theorem adjMG_ops (M : List (List W)) :
    (matrixEntries M).map (fun t => Net.Op.addEdge (L := Nat) t.1 t.2.1 [("weight", t.2.2)]) =
      ((matrixEntries M).map (fun t => (t.1, t.2.1, ([("weight", t.2.2)] : Attr W)))).map
        (fun t => Net.Op.addEdge t.1 t.2.1 t.2.2) := by
  rw [List.map_map]; rfl

theorem fromAdjacencyMatrix_eq (M : List (List W)) :
    fromAdjacencyMatrix M = ofMG (adjMG M) ∧ (adjMG M).Valid := run_empty _

theorem adjMG_edges (M : List (List W)) :
    (adjMG M).edges = (matrixEntries M).map (fun t => ⟨t.1, t.2.1, [("weight", t.2.2)]⟩) := by
  unfold adjMG
  rw [adjMG_ops, run_addEdge_edges]
  simp [MG.empty]

theorem mem_adjMG_labels (M : List (List W)) (x : Nat) :
    x ∈ (adjMG M).labels ↔ ∃ y v, v ≠ 0 ∧ (entry M x y = some v ∨ entry M y x = some v) := by
  unfold adjMG
  rw [adjMG_ops, run_addEdge_labels]
  simp only [MG.empty, MG.labels, List.map_nil, List.not_mem_nil, false_or, List.mem_map]
  constructor
  · rintro ⟨_, ⟨⟨i, j, v⟩, ht, rfl⟩, h⟩
    have := mem_matrixEntries.1 ht
    simp only at h
    rcases h with rfl | rfl
    · exact ⟨j, v, this.2, Or.inl this.1⟩
    · exact ⟨i, v, this.2, Or.inr this.1⟩
  · rintro ⟨y, v, hv, h | h⟩
    · exact ⟨_, ⟨(x, y, v), mem_matrixEntries.2 ⟨h, hv⟩, rfl⟩, Or.inl rfl⟩
    · exact ⟨_, ⟨(y, x, v), mem_matrixEntries.2 ⟨h, hv⟩, rfl⟩, Or.inr rfl⟩

theorem filter_eq_singleton {α : Type} [DecidableEq α] {l : List α} (h : l.Nodup) {x : α} (hx : x ∈ l) :
    l.filter (fun y => decide (y = x)) = [x] := by
  induction l with
  | nil => simp at hx
  | cons a l ih =>
    simp only [List.nodup_cons] at h
    by_cases ha : a = x
    · subst ha
      simp only [List.filter_cons, decide_true, if_true, List.cons.injEq, true_and, List.filter_eq_nil_iff,
        decide_eq_true_eq]
      rintro b hb rfl; exact h.1 hb
    · simp only [List.filter_cons, ha, decide_false, Bool.false_eq_true, if_false]
      rcases List.mem_cons.1 hx with h' | h'
      · exact absurd h'.symm ha
      · exact ih h.2 h'

theorem between_adjMG (M : List (List W)) (i j : Nat) :
    between (adjMG M).edges i j =
      match entry M i j with
      | none => []
      | some v => if v = 0 then [] else [[("weight", v)]] := by
  rw [adjMG_edges]
  unfold between
  rw [List.filter_map, List.map_map]
  cases he : entry M i j with
  | none =>
    simp only [List.map_eq_nil_iff, List.filter_eq_nil_iff]
    rintro ⟨a, b, v⟩ ht
    simp only [Function.comp, Bool.and_eq_true, decide_eq_true_eq]
    rintro ⟨rfl, rfl⟩
    rw [mem_matrixEntries, he] at ht; simp at ht
  | some v =>
    simp only
    split
    · rename_i hv
      simp only [List.map_eq_nil_iff, List.filter_eq_nil_iff]
      rintro ⟨a, b, v'⟩ ht
      simp only [Function.comp, Bool.and_eq_true, decide_eq_true_eq]
      rintro ⟨rfl, rfl⟩
      rw [mem_matrixEntries, he] at ht
      simp at ht; exact ht.2 (by rw [← ht.1]; exact hv)
    · rename_i hv
      have hmem : (i, j, v) ∈ matrixEntries M := mem_matrixEntries.2 ⟨he, hv⟩
      have hnd := nodup_of_map _ (nodup_matrixEntries M)
      have : (matrixEntries M).filter ((fun e : Edge Nat W => decide (e.src = i) && decide (e.dst = j)) ∘
          fun t => ⟨t.1, t.2.1, [("weight", t.2.2)]⟩) = (matrixEntries M).filter (fun y => decide (y = (i, j, v))) := by
        apply List.filter_congr
        rintro ⟨a, b, v'⟩ ht
        rw [mem_matrixEntries] at ht
        simp only [Function.comp]
        by_cases ha : a = i <;> by_cases hb : b = j
        · subst ha; subst hb
          rw [he] at ht; simp at ht; simp [ht.1]
        · simp [hb]
        · simp [ha]
        · simp [ha]
      rw [this, filter_eq_singleton hnd hmem]
      rfl

/-- Adding edges leaves the rotation system alone. -/
theorem run_addEdge_rot {L A : Type} [DecidableEq L] (ts : List (L × L × Attr A)) (g : MG L A) :
    (MG.run g (ts.map (fun t => Net.Op.addEdge t.1 t.2.1 t.2.2))).rot = g.rot := by
  induction ts generalizing g with
  | nil => rfl
  | cons t ts ih =>
    have := ih (MG.addEdge g t.1 t.2.1 t.2.2)
    simp only [MG.run, List.map_cons, List.foldl_cons, MG.exec] at this ⊢
    rw [this]
    show (ensure (ensure g t.1) t.2.1).rot = g.rot
    rw [ensure_rot, ensure_rot]

theorem adjMG_rot (M : List (List W)) : (adjMG M).rot = none := by
  unfold adjMG
  rw [adjMG_ops, run_addEdge_rot]
  rfl

end fromAdj
end Verif
