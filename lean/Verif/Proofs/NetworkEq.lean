import Verif.Model.NetworkEq
import Verif.Spec.SameGraph
import Verif.Proofs.NetworkQueries
/-! # Lemmas: `==` on networks -/

namespace Verif
open MG Spec
variable {K V L A : Type} [DecidableEq K] [DecidableEq L]

/-! ## Equality of dicts -/

theorem Dict.pyEq_iff {eqv : V → V → Bool} {d e : Dict K V} (hd : d.keys.Nodup) (he : e.keys.Nodup) :
    Dict.pyEq eqv d e = true ↔ (∀ k, k ∈ d.keys ↔ k ∈ e.keys) ∧
      ∀ k v w, d.get? k = some v → e.get? k = some w → eqv v w = true := by
  have hl : ∀ f : Dict K V, f.keys.length = f.length := fun f => by simp [Dict.keys]
  unfold Dict.pyEq
  rw [Bool.and_eq_true, beq_iff_eq, List.all_eq_true]
  constructor
  · rintro ⟨hlen, hall⟩
    have hsub : ∀ k ∈ d.keys, k ∈ e.keys := by
      intro k hk
      obtain ⟨v, hv⟩ := Dict.exists_get?_of_mem_keys hk
      have := hall _ (Dict.mem_of_get? hv)
      simp only at this
      split at this
      · rename_i w hw; exact Dict.mem_keys_of_get? hw
      · cases this
    refine ⟨fun k => ⟨hsub k, fun hk => ?_⟩, ?_⟩
    · apply Decidable.byContradiction
      intro hn
      have : (k :: d.keys).Nodup := List.nodup_cons.2 ⟨hn, hd⟩
      have := this.length_le_of_subset (l₂ := e.keys) (fun x hx => by
        rcases List.mem_cons.1 hx with rfl | hx
        · exact hk
        · exact hsub x hx)
      rw [List.length_cons, hl, hl, hlen] at this
      omega
    · intro k v w hv hw
      have := hall _ (Dict.mem_of_get? hv)
      simp only [hw] at this
      exact this
  · rintro ⟨hk, hv⟩
    constructor
    · rw [← hl, ← hl]
      exact Nat.le_antisymm (hd.length_le_of_subset (fun x hx => (hk x).1 hx))
        (he.length_le_of_subset (fun x hx => (hk x).2 hx))
    · rintro ⟨k, v⟩ hp
      have h1 := Dict.get?_of_mem hd hp
      obtain ⟨w, hw⟩ := Dict.exists_get?_of_mem_keys ((hk k).1 (Dict.mem_keys_of_get? h1))
      simp only [hw]
      exact hv k v w h1 hw

theorem attrEq_iff [DecidableEq A] {a b : Attr A} (ha : a.keys.Nodup) (hb : b.keys.Nodup) :
    Net.attrEq a b = true ↔ SameAttrs a b := by
  unfold Net.attrEq
  rw [Dict.pyEq_iff ha hb]
  simp only [decide_eq_true_eq]
  constructor
  · rintro ⟨hk, hv⟩ name
    cases h1 : a.get? name with
    | none =>
      have := mt (hk name).2 (Dict.get?_eq_none_iff.1 h1)
      exact (Dict.get?_eq_none_iff.2 this).symm
    | some v =>
      obtain ⟨w, hw⟩ := Dict.exists_get?_of_mem_keys ((hk name).1 (Dict.mem_keys_of_get? h1))
      rw [hw, hv name v w h1 hw]
  · intro h
    refine ⟨fun k => ?_, fun k v w hv hw => ?_⟩
    · rw [← Dict.isSome_get?_iff, ← Dict.isSome_get?_iff, h k]
    · rw [h k, hw] at hv; exact (Option.some.inj hv).symm

theorem isEqv_iff [DecidableEq A] {as bs : List (Attr A)} (ha : ∀ a ∈ as, a.keys.Nodup)
    (hb : ∀ b ∈ bs, b.keys.Nodup) : List.isEqv as bs Net.attrEq = true ↔ SameParallel as bs := by
  induction as generalizing bs with
  | nil => cases bs <;> simp [List.isEqv, SameParallel]
  | cons a as ih =>
    cases bs with
    | nil => simp [List.isEqv, SameParallel]
    | cons b bs =>
      simp only [List.isEqv, Bool.and_eq_true]
      rw [attrEq_iff (ha a (by simp)) (hb b (by simp)),
        ih (fun x hx => ha x (by simp [hx])) (fun x hx => hb x (by simp [hx]))]
      constructor
      · rintro ⟨h1, h2, h3⟩
        refine ⟨by simp [h2], ?_⟩
        intro p x y hx hy
        cases p with
        | zero => simp at hx hy; subst hx; subst hy; exact h1
        | succ p => simp at hx hy; exact h3 p x y hx hy
      · rintro ⟨h1, h2⟩
        refine ⟨h2 0 a b rfl rfl, by simpa using h1, fun p x y hx hy => h2 (p + 1) x y ?_ ?_⟩
        · simpa using hx
        · simpa using hy

/-! ## The relation of the specification -/

theorem Spec.SameAttrs.rfl' (a : Attr A) : SameAttrs a a := fun _ => rfl
theorem Spec.SameAttrs.symm {a b : Attr A} (h : SameAttrs a b) : SameAttrs b a := fun k => (h k).symm
theorem Spec.SameAttrs.trans {a b c : Attr A} (h : SameAttrs a b) (h' : SameAttrs b c) : SameAttrs a c :=
  fun k => (h k).trans (h' k)

theorem Spec.SameAttrs.update {a b : Attr A} (h : SameAttrs a b) {e : Attr A} (he : e.keys.Nodup) :
    SameAttrs (a.update e) (b.update e) := by
  intro k; rw [Dict.get?_update _ _ _ he, Dict.get?_update _ _ _ he, h k]

theorem Spec.SameParallel.rfl' (as : List (Attr A)) : SameParallel as as :=
  ⟨rfl, fun p a b h h' => by rw [h] at h'; cases h'; exact SameAttrs.rfl' a⟩

theorem Spec.SameParallel.symm {as bs : List (Attr A)} (h : SameParallel as bs) : SameParallel bs as :=
  ⟨h.1.symm, fun p a b ha hb => (h.2 p b a hb ha).symm⟩

theorem Spec.SameParallel.trans {as bs cs : List (Attr A)} (h : SameParallel as bs) (h' : SameParallel bs cs) :
    SameParallel as cs := by
  refine ⟨h.1.trans h'.1, fun p a c ha hc => ?_⟩
  have hp : p < bs.length := by rw [← h.1]; exact (List.getElem?_eq_some_iff.1 ha).1
  exact (h.2 p a _ ha (List.getElem?_eq_getElem hp)).trans (h'.2 p _ c (List.getElem?_eq_getElem hp) hc)

theorem Spec.SameParallel.nil_iff {as bs : List (Attr A)} (h : SameParallel as bs) : as = [] ↔ bs = [] := by
  rw [← List.length_eq_zero_iff, ← List.length_eq_zero_iff, h.1]

theorem Spec.SameParallel.append {as bs cs ds : List (Attr A)} (h : SameParallel as bs) (h' : SameParallel cs ds) :
    SameParallel (as ++ cs) (bs ++ ds) := by
  refine ⟨by simp [h.1, h'.1], fun p a b ha hb => ?_⟩
  rw [List.getElem?_append] at ha hb
  rw [h.1] at ha
  split at ha
  · rename_i hp; rw [if_pos hp] at hb; exact h.2 p a b ha hb
  · rename_i hp; rw [if_neg hp] at hb; exact h'.2 _ a b ha hb

theorem Spec.SameParallel.map {as bs : List (Attr A)} (h : SameParallel as bs) (f : Attr A → Attr A)
    (hf : ∀ a b, SameAttrs a b → SameAttrs (f a) (f b)) : SameParallel (as.map f) (bs.map f) := by
  refine ⟨by simp [h.1], fun p a b ha hb => ?_⟩
  rw [List.getElem?_map] at ha hb
  cases h1 : as[p]? with
  | none => rw [h1] at ha; cases ha
  | some x =>
    cases h2 : bs[p]? with
    | none => rw [h2] at hb; cases hb
    | some y =>
      rw [h1] at ha; rw [h2] at hb; cases ha; cases hb
      exact hf _ _ (h.2 p x y h1 h2)

theorem Spec.SameParallel.modify {as bs : List (Attr A)} (h : SameParallel as bs) (q : Nat) (f : Attr A → Attr A)
    (hf : ∀ a b, SameAttrs a b → SameAttrs (f a) (f b)) : SameParallel (as.modify q f) (bs.modify q f) := by
  refine ⟨by simp [h.1], fun p a b ha hb => ?_⟩
  rw [List.getElem?_modify] at ha hb
  cases h1 : as[p]? with
  | none => rw [h1] at ha; simp at ha
  | some x =>
    cases h2 : bs[p]? with
    | none => rw [h2] at hb; simp at hb
    | some y =>
      rw [h1] at ha; rw [h2] at hb
      cases ha; cases hb
      by_cases hq : q = p
      · simp only [hq, if_true]; exact hf _ _ (h.2 p x y h1 h2)
      · simp only [hq, if_false]; exact h.2 p x y h1 h2

theorem Spec.SameGraph.rfl' (g : MG L A) : SameGraph g g :=
  ⟨fun _ => Iff.rfl, fun x a b ha hb => by rw [ha] at hb; cases hb; exact SameAttrs.rfl' a,
    fun _ _ => SameParallel.rfl' _, fun _ => rfl⟩

theorem Spec.SameGraph.symm {g h : MG L A} (s : SameGraph g h) : SameGraph h g :=
  ⟨fun x => (s.labels x).symm, fun x a b ha hb => (s.attrs x b a hb ha).symm, fun i j => (s.parallel i j).symm,
    fun i => (s.targets i).symm⟩

theorem Spec.SameGraph.trans {g h k : MG L A} (s : SameGraph g h) (s' : SameGraph h k) : SameGraph g k := by
  refine ⟨fun x => (s.labels x).trans (s'.labels x), fun x a c ha hc => ?_,
    fun i j => (s.parallel i j).trans (s'.parallel i j), fun i => (s.targets i).trans (s'.targets i)⟩
  obtain ⟨b, hb⟩ := Dict.exists_get?_of_mem_keys (d := h.nodes) ((s.labels x).1 (Dict.mem_keys_of_get? ha))
  exact (s.attrs x a b ha hb).trans (s'.attrs x b c hb hc)

/-! ## Counters -/

theorem count_sources (es : List (Edge L A)) (i j : L) :
    List.count i ((es.filter (fun e => decide (e.dst = j))).map Edge.src) = (between es i j).length := by
  induction es with
  | nil => rfl
  | cons e es ih =>
    rw [between_cons]
    by_cases h1 : e.dst = j <;> by_cases h2 : e.src = i <;> simp [h1, h2, ih]

theorem Spec.SameGraph.inCount {g h : MG L A} (s : SameGraph g h) (x : L) : inCount g.edges x = inCount h.edges x := by
  have : ((g.edges.filter (fun e => decide (e.dst = x))).map Edge.src).Perm
      ((h.edges.filter (fun e => decide (e.dst = x))).map Edge.src) := by
    rw [List.perm_iff_count]
    intro i
    rw [count_sources, count_sources, (s.parallel i x).1]
  simpa [MG.inCount] using this.length_eq

theorem Spec.SameGraph.outCount {g h : MG L A} (s : SameGraph g h) (x : L) : outCount g.edges x = outCount h.edges x := by
  simpa [MG.outCount, Spec.targets] using congrArg List.length (s.targets x)

theorem Spec.SameGraph.sources {g h : MG L A} (s : SameGraph g h) (i j : L) :
    i ∈ sources g.edges j ↔ i ∈ sources h.edges j := by
  have := (s.parallel i j).nil_iff
  rw [between_eq_nil_iff, between_eq_nil_iff] at this
  exact Decidable.not_iff_not.1 this

/-- All attributes are dicts with different names. -/
structure AttrsOk (g : MG L A) : Prop where
  nodes : ∀ p ∈ g.nodes, p.2.keys.Nodup
  edges : ∀ e ∈ g.edges, e.attr.keys.Nodup

theorem AttrsOk.between {g : MG L A} (hg : AttrsOk g) (i j : L) : ∀ a ∈ between g.edges i j, a.keys.Nodup := by
  intro a ha
  obtain ⟨e, he, rfl⟩ := List.mem_map.1 ha
  exact hg.edges e (List.mem_filter.1 he).1

theorem nodeEq_iff [DecidableEq A] {g h : MG L A} (hg : AttrsOk g) (hh : AttrsOk h) {x : L} {a b : Attr A}
    (ha : a.keys.Nodup) (hb : b.keys.Nodup) :
    Net.nodeEq (nodeOf g.edges x a) (nodeOf h.edges x b) = true ↔
      inCount g.edges x = inCount h.edges x ∧ outCount g.edges x = outCount h.edges x ∧
        (∀ i, SameParallel (between g.edges i x) (between h.edges i x)) ∧
        targets g.edges x = targets h.edges x ∧ SameAttrs a b := by
  unfold Net.nodeEq nodeOf
  simp only [Bool.and_eq_true, decide_eq_true_eq, Int.natCast_inj]
  rw [Dict.pyEq_iff (nodup_keys_incomingOf _ _) (nodup_keys_incomingOf _ _), attrEq_iff ha hb,
    keys_incomingOf, keys_incomingOf]
  have key : ((∀ k, k ∈ sources g.edges x ↔ k ∈ sources h.edges x) ∧
      ∀ k v w, (incomingOf g.edges x).get? k = some v → (incomingOf h.edges x).get? k = some w →
        List.isEqv v w Net.attrEq = true) ↔ ∀ i, SameParallel (between g.edges i x) (between h.edges i x) := by
    constructor
    · rintro ⟨h1, h2⟩ i
      by_cases hi : i ∈ sources g.edges x
      · have := h2 i _ _ (by rw [get?_incomingOf, if_pos hi]) (by rw [get?_incomingOf, if_pos ((h1 i).1 hi)])
        exact (isEqv_iff (hg.between i x) (hh.between i x)).1 this
      · rw [between_eq_nil_iff.2 hi, between_eq_nil_iff.2 (mt (h1 i).2 hi)]
        exact SameParallel.rfl' _
    · intro h1
      refine ⟨fun k => ?_, fun k v w hv hw => ?_⟩
      · have := (h1 k).nil_iff
        rw [between_eq_nil_iff, between_eq_nil_iff] at this
        exact Decidable.not_iff_not.1 this
      · rw [get?_incomingOf] at hv hw
        split at hv <;> split at hw <;> cases hv <;> cases hw
        exact (isEqv_iff (hg.between k x) (hh.between k x)).2 (h1 k)
  rw [key]
  constructor
  · rintro ⟨⟨⟨⟨h1, h2⟩, h3⟩, h4⟩, h5⟩; exact ⟨h1, h2, h3, h4, h5⟩
  · rintro ⟨h1, h2, h3, h4, h5⟩; exact ⟨⟨⟨⟨h1, h2⟩, h3⟩, h4⟩, h5⟩

/-- `==` on the networks of two multigraphs. -/
theorem pyEq_ofMG [DecidableEq A] {g h : MG L A} (vg : g.Valid) (vh : h.Valid) (hg : AttrsOk g) (hh : AttrsOk h) :
    Net.pyEq (ofMG g) (ofMG h) = true ↔ SameGraph g h := by
  unfold Net.pyEq
  rw [Dict.pyEq_iff (by rw [keys_ofMG]; exact vg.nodup) (by rw [keys_ofMG]; exact vh.nodup), keys_ofMG, keys_ofMG]
  have nd : ∀ {k : MG L A} {x : L} {a : Attr A}, AttrsOk k → k.nodes.get? x = some a → a.keys.Nodup :=
    fun hk hx => hk.nodes _ (Dict.mem_of_get? hx)
  constructor
  · rintro ⟨h1, h2⟩
    have h3 : ∀ x a b, g.nodes.get? x = some a → h.nodes.get? x = some b →
        Net.nodeEq (nodeOf g.edges x a) (nodeOf h.edges x b) = true := by
      intro x a b ha hb
      exact h2 x _ _ (by rw [get?_ofMG, ha]; rfl) (by rw [get?_ofMG, hb]; rfl)
    have h4 : ∀ x ∈ g.labels, ∃ a b, g.nodes.get? x = some a ∧ h.nodes.get? x = some b := by
      intro x hx
      obtain ⟨a, ha⟩ := Dict.exists_get?_of_mem_keys (d := g.nodes) hx
      obtain ⟨b, hb⟩ := Dict.exists_get?_of_mem_keys (d := h.nodes) ((h1 x).1 hx)
      exact ⟨a, b, ha, hb⟩
    refine ⟨h1, fun x a b ha hb => ?_, fun i j => ?_, fun i => ?_⟩
    · exact ((nodeEq_iff hg hh (nd hg ha) (nd hh hb)).1 (h3 x a b ha hb)).2.2.2.2
    · by_cases hj : j ∈ g.labels
      · obtain ⟨a, b, ha, hb⟩ := h4 j hj
        exact ((nodeEq_iff hg hh (nd hg ha) (nd hh hb)).1 (h3 j a b ha hb)).2.2.1 i
      · have e1 : between g.edges i j = [] :=
          between_eq_nil_iff.2 (fun hs => hj (mem_labels_of_mem_sources vg hs).2)
        have e2 : between h.edges i j = [] :=
          between_eq_nil_iff.2 (fun hs => hj ((h1 j).2 (mem_labels_of_mem_sources vh hs).2))
        rw [e1, e2]; exact SameParallel.rfl' _
    · by_cases hi : i ∈ g.labels
      · obtain ⟨a, b, ha, hb⟩ := h4 i hi
        exact ((nodeEq_iff hg hh (nd hg ha) (nd hh hb)).1 (h3 i a b ha hb)).2.2.2.1
      · unfold Spec.targets
        rw [filter_src_eq_nil vg hi, filter_src_eq_nil vh (mt (h1 i).2 hi)]
  · intro s
    refine ⟨s.labels, fun x v w hv hw => ?_⟩
    rw [get?_ofMG] at hv hw
    cases ha : g.nodes.get? x with
    | none => rw [ha] at hv; cases hv
    | some a =>
      cases hb : h.nodes.get? x with
      | none => rw [hb] at hw; cases hw
      | some b =>
        rw [ha] at hv; rw [hb] at hw; cases hv; cases hw
        exact (nodeEq_iff hg hh (nd hg ha) (nd hh hb)).2
          ⟨s.inCount x, s.outCount x, fun i => s.parallel i x, s.targets x, s.attrs x a b ha hb⟩

/-! ## Calls keep the attributes in order -/

omit [DecidableEq L] in
theorem attrsOk_empty : AttrsOk (MG.empty : MG L A) := ⟨by simp [MG.empty], by simp [MG.empty]⟩

theorem attrsOk_ensure {g : MG L A} (hg : AttrsOk g) (x : L) : AttrsOk (ensure g x) := by
  refine ⟨?_, by rw [ensure_edges]; exact hg.edges⟩
  unfold ensure
  split
  · exact hg.nodes
  · intro p hp
    rcases List.mem_append.1 hp with h | h
    · exact hg.nodes p h
    · rw [List.mem_singleton.1 h]; simp

theorem attrsOk_addEdge {g : MG L A} (hg : AttrsOk g) (i j : L) {attr : Attr A} (ha : attr.keys.Nodup) :
    AttrsOk (MG.addEdge g i j attr) := by
  refine ⟨(attrsOk_ensure (attrsOk_ensure hg i) j).nodes, ?_⟩
  intro e he
  rcases List.mem_append.1 he with h | h
  · exact hg.edges e h
  · rw [List.mem_singleton.1 h]; exact ha

theorem mem_updateNth {es : List (Edge L A)} {i j : L} {attr : Attr A} {p : Nat} {e : Edge L A}
    (h : e ∈ updateNth i j attr p es) : e ∈ es ∨ ∃ e' ∈ es, e.attr = e'.attr.update attr := by
  induction es generalizing p with
  | nil => simp [updateNth] at h
  | cons a es ih =>
    unfold updateNth at h
    split at h
    · cases p with
      | zero =>
        simp only at h
        rcases List.mem_cons.1 h with rfl | h
        · exact .inr ⟨a, by simp, rfl⟩
        · exact .inl (by simp [h])
      | succ p =>
        simp only at h
        rcases List.mem_cons.1 h with rfl | h
        · exact .inl (by simp)
        · rcases ih h with h | ⟨e', h1, h2⟩
          · exact .inl (by simp [h])
          · exact .inr ⟨e', by simp [h1], h2⟩
    · rcases List.mem_cons.1 h with rfl | h
      · exact .inl (by simp)
      · rcases ih h with h | ⟨e', h1, h2⟩
        · exact .inl (by simp [h])
        · exact .inr ⟨e', by simp [h1], h2⟩

theorem attrsOk_updateMany {g : MG L A} (hg : AttrsOk g) (i j : L) (attr : Attr A) (ks : List Int) :
    AttrsOk (updateMany g i j attr ks).2 := by
  induction ks generalizing g with
  | nil => exact hg
  | cons k ks ih =>
    unfold updateMany
    split
    · exact hg
    · apply ih
      refine ⟨hg.nodes, fun e he => ?_⟩
      rcases mem_updateNth he with h | ⟨e', h1, h2⟩
      · exact hg.edges e h
      · rw [h2]; exact Dict.nodup_keys_update (hg.edges e' h1) _

theorem attrsOk_exec {g : MG L A} (hg : AttrsOk g) {op : Net.Op L A} (hop : Keywords op) :
    AttrsOk (MG.exec g op).2 := by
  cases op with
  | addNode x attr =>
    refine ⟨?_, by show ∀ e ∈ (ensure g x).edges, _; rw [ensure_edges]; exact hg.edges⟩
    intro p hp
    obtain ⟨q, hq, rfl⟩ := List.mem_map.1 hp
    split
    · exact Dict.nodup_keys_update ((attrsOk_ensure hg x).nodes q hq) _
    · exact (attrsOk_ensure hg x).nodes q hq
  | addEdge i j attr => exact attrsOk_addEdge hg i j hop
  | addEdgeBidir i j attr => exact attrsOk_addEdge (attrsOk_addEdge hg i j hop) j i hop
  | updateEdge i j ks attr =>
    simp only [MG.exec]
    split
    · exact hg
    · cases ks with
      | none =>
        refine ⟨hg.nodes, fun e he => ?_⟩
        obtain ⟨e', h1, rfl⟩ := List.mem_map.1 he
        split
        · exact Dict.nodup_keys_update (hg.edges e' h1) _
        · exact hg.edges e' h1
      | some ks => exact attrsOk_updateMany hg i j attr ks
  | removeNode x =>
    simp only [MG.exec]
    split
    · exact ⟨fun p hp => hg.nodes p (List.mem_filter.1 hp).1, fun e he => hg.edges e (List.mem_filter.1 he).1⟩
    · exact hg
  | removeEdge i j =>
    simp only [MG.exec]
    split
    · exact hg
    · exact ⟨hg.nodes, fun e he => hg.edges e (List.mem_filter.1 he).1⟩
  | setRotation rs =>
    simp only [MG.exec]
    split
    · exact ⟨hg.nodes, hg.edges⟩
    · exact hg

theorem attrsOk_run {g : MG L A} (hg : AttrsOk g) {ops : List (Net.Op L A)} (h : ∀ op ∈ ops, Keywords op) :
    AttrsOk (MG.run g ops) := by
  induction ops generalizing g with
  | nil => exact hg
  | cons op ops ih =>
    simp only [MG.run, List.foldl_cons]
    exact ih (attrsOk_exec hg (h op (by simp))) (fun o ho => h o (by simp [ho]))

/-! ## The same call on two graphs that are the same -/

theorem targets_append (es : List (Edge L A)) (e : Edge L A) (i : L) :
    targets (es ++ [e]) i = targets es i ++ (if e.src = i then [e.dst] else []) := by
  unfold targets
  rw [List.filter_append, List.map_append]
  by_cases h : e.src = i <;> simp [h]

theorem lookup_ensure (g : MG L A) (x y : L) :
    (ensure g x).nodes.get? y = if y = x then some ((g.nodes.get? x).getD []) else g.nodes.get? y := by
  unfold ensure
  by_cases hx : x ∈ g.labels
  · rw [if_pos hx]
    obtain ⟨a, ha⟩ := Dict.exists_get?_of_mem_keys (d := g.nodes) hx
    by_cases hy : y = x
    · subst hy; simp [ha]
    · rw [if_neg hy]
  · rw [if_neg hx]
    have hn : g.nodes.get? x = none := Dict.get?_eq_none_iff.2 hx
    show Dict.get? (g.nodes ++ [(x, [])]) y = _
    rw [Dict.get?_append]
    by_cases hy : y = x
    · subst hy; simp [hn, Dict.get?_cons]
    · have : ¬ x = y := fun e => hy e.symm
      simp [hy, this, Dict.get?_cons]

theorem sameGraph_ensure {g h : MG L A} (s : SameGraph g h) (x : L) : SameGraph (ensure g x) (ensure h x) := by
  refine ⟨fun y => ?_, fun y a b ha hb => ?_, ?_, ?_⟩
  · rw [mem_labels_ensure, mem_labels_ensure, s.labels y]
  · rw [lookup_ensure] at ha hb
    by_cases hy : y = x
    · rw [if_pos hy] at ha hb
      cases ha; cases hb
      cases h1 : g.nodes.get? x with
      | none =>
        have : x ∉ h.labels := mt (s.labels x).2 (Dict.get?_eq_none_iff.1 h1)
        have h2 : h.nodes.get? x = none := Dict.get?_eq_none_iff.2 this
        rw [h2]; exact SameAttrs.rfl' _
      | some a =>
        obtain ⟨b, h2⟩ := Dict.exists_get?_of_mem_keys (d := h.nodes) ((s.labels x).1 (Dict.mem_keys_of_get? h1))
        rw [h2]; exact s.attrs x a b h1 h2
    · rw [if_neg hy] at ha hb; exact s.attrs y a b ha hb
  · rw [ensure_edges, ensure_edges]; exact s.parallel
  · rw [ensure_edges, ensure_edges]; exact s.targets

theorem sameGraph_addEdge {g h : MG L A} (s : SameGraph g h) (i j : L) (attr : Attr A) :
    SameGraph (MG.addEdge g i j attr) (MG.addEdge h i j attr) := by
  have s' := sameGraph_ensure (sameGraph_ensure s i) j
  refine ⟨s'.labels, s'.attrs, fun a b => ?_, fun a => ?_⟩
  · show SameParallel (between (g.edges ++ [_]) a b) (between (h.edges ++ [_]) a b)
    rw [between_append, between_append]
    exact (s.parallel a b).append (SameParallel.rfl' _)
  · show targets (g.edges ++ [_]) a = targets (h.edges ++ [_]) a
    rw [targets_append, targets_append, s.targets a]

theorem mem_labels_addEdge {g : MG L A} {i j x : L} {a : Attr A} :
    x ∈ (MG.addEdge g i j a).labels ↔ x = j ∨ x = i ∨ x ∈ g.labels := by
  show x ∈ (ensure (ensure g i) j).labels ↔ _
  rw [mem_labels_ensure, mem_labels_ensure]

theorem get?_addEdge (g : MG L A) (i j x : L) (a : Attr A) : (MG.addEdge g i j a).nodes.get? x =
    if x = i ∨ x = j then some ((g.nodes.get? x).getD []) else g.nodes.get? x := by
  show (ensure (ensure g i) j).nodes.get? x = _
  rw [lookup_ensure]
  by_cases h2 : x = j
  · subst h2
    rw [if_pos rfl, if_pos (.inr rfl), lookup_ensure]
    by_cases h1 : x = i
    · subst h1; rw [if_pos rfl]; rfl
    · rw [if_neg h1]
  · rw [if_neg h2, lookup_ensure]
    by_cases h1 : x = i
    · subst h1; rw [if_pos rfl, if_pos (.inl rfl)]
    · rw [if_neg h1, if_neg (by simp [h1, h2])]

theorem get?_addEdge2 (g : MG L A) (i j k l x : L) (a b : Attr A) :
    (MG.addEdge (MG.addEdge g i j a) k l b).nodes.get? x =
      if x = i ∨ x = j ∨ x = k ∨ x = l then some ((g.nodes.get? x).getD []) else g.nodes.get? x := by
  rw [get?_addEdge, get?_addEdge]
  by_cases h1 : x = i ∨ x = j
  · have : x = i ∨ x = j ∨ x = k ∨ x = l := h1.elim .inl (fun h => .inr (.inl h))
    rw [if_pos h1, if_pos this]
    split <;> rfl
  · rw [if_neg h1]
    by_cases h2 : x = k ∨ x = l
    · rw [if_pos h2, if_pos (.inr (.inr h2))]
    · rw [if_neg h2, if_neg (by rintro (h | h | h)
                                · exact h1 (.inl h)
                                · exact h1 (.inr h)
                                · exact h2 h)]

theorem sameGraph_addNode {g h : MG L A} (s : SameGraph g h) (x : L) {attr : Attr A} (ha : attr.keys.Nodup) :
    SameGraph (MG.addNode g x attr) (MG.addNode h x attr) := by
  have s' := sameGraph_ensure s x
  have hl : ∀ k : MG L A, (MG.addNode k x attr).labels = (ensure k x).labels := by
    intro k
    simp only [MG.addNode, MG.labels, List.map_map]
    apply List.map_congr_left
    intro p _; simp only [Function.comp]; split <;> rfl
  have hget : ∀ (k : MG L A) y, (MG.addNode k x attr).nodes.get? y =
      if x = y then ((ensure k x).nodes.get? y).map (fun d => d.update attr) else (ensure k x).nodes.get? y := by
    intro k y; exact Dict.get?_modify (ensure k x).nodes x y (fun d => d.update attr)
  refine ⟨fun y => ?_, fun y a b h1 h2 => ?_, s'.parallel, s'.targets⟩
  · rw [hl, hl]; exact s'.labels y
  · rw [hget] at h1 h2
    by_cases hy : x = y
    · rw [if_pos hy] at h1 h2
      cases e1 : (ensure g x).nodes.get? y with
      | none => rw [e1] at h1; cases h1
      | some a' =>
        cases e2 : (ensure h x).nodes.get? y with
        | none => rw [e2] at h2; cases h2
        | some b' =>
          rw [e1] at h1; rw [e2] at h2; cases h1; cases h2
          exact (s'.attrs y a' b' e1 e2).update ha
    · rw [if_neg hy] at h1 h2; exact s'.attrs y a b h1 h2

theorem sameGraph_edges {g h : MG L A} (s : SameGraph g h) {es fs : List (Edge L A)}
    (hp : ∀ i j, SameParallel (between es i j) (between fs i j)) (ht : ∀ i, targets es i = targets fs i) :
    SameGraph { g with edges := es } { h with edges := fs } := ⟨s.labels, s.attrs, hp, ht⟩

theorem targets_sameEnds {es fs : List (Edge L A)} (h : SameEnds es fs) (i : L) : targets es i = targets fs i :=
  h.outgoing i

theorem between_drop_node (es : List (Edge L A)) (x i j : L) :
    between (es.filter (fun e => decide (e.src ≠ x) && decide (e.dst ≠ x))) i j =
      if i ≠ x ∧ j ≠ x then between es i j else [] := by
  unfold between
  rw [List.filter_filter]
  split
  · rename_i h
    congr 1
    apply List.filter_congr
    intro e _
    by_cases h1 : e.src = i <;> by_cases h2 : e.dst = j <;> simp [h1, h2]
    exact h
  · rename_i h
    rw [List.map_eq_nil_iff, List.filter_eq_nil_iff]
    intro e _ he
    simp only [Bool.and_eq_true, decide_eq_true_eq] at he
    exact h ⟨he.1.1 ▸ he.2.1, he.1.2 ▸ he.2.2⟩

theorem targets_removeNode (es : List (Edge L A)) (x i : L) :
    targets (es.filter (fun e => decide (e.src ≠ x) && decide (e.dst ≠ x))) i =
      if i = x then [] else (targets es i).filter (fun y => decide (y ≠ x)) := by
  unfold targets
  induction es with
  | nil => simp
  | cons e es ih =>
    by_cases hi : i = x
    · subst hi
      by_cases h1 : e.src = i <;> by_cases h2 : e.dst = i <;> simp_all [List.filter_cons]
    · by_cases h1 : e.src = i
      · by_cases h2 : e.dst = x <;> simp_all [List.filter_cons]
      · by_cases h2 : e.dst = x <;> by_cases h3 : e.src = x <;> simp_all [List.filter_cons]

theorem targets_removeEdge (es : List (Edge L A)) (i j k : L) :
    targets (es.filter (fun e => !(decide (e.src = i) && decide (e.dst = j)))) k =
      if k = i then (targets es k).filter (fun y => decide (y ≠ j)) else targets es k := by
  unfold targets
  induction es with
  | nil => simp
  | cons e es ih =>
    by_cases hk : k = i
    · subst hk
      by_cases h1 : e.src = k <;> by_cases h2 : e.dst = j <;> simp_all [List.filter_cons]
    · by_cases h1 : e.src = k
      · have : ¬ e.src = i := fun h => hk (h1.symm.trans h)
        simp_all [List.filter_cons]
      · by_cases h2 : e.src = i <;> by_cases h3 : e.dst = j <;> simp_all [List.filter_cons]

theorem between_removeEdge_self (es : List (Edge L A)) (i j : L) :
    between (es.filter (fun e => !(decide (e.src = i) && decide (e.dst = j)))) i j = [] := by
  unfold between
  rw [List.filter_filter, List.map_eq_nil_iff, List.filter_eq_nil_iff]
  intro e _ he
  simp only [Bool.and_eq_true, Bool.not_eq_true', decide_eq_true_eq] at he
  simp [he.1] at he

theorem get?_filter_ne {V : Type} (d : Dict L V) (x y : L) :
    Dict.get? (d.filter (fun p => decide (p.1 ≠ x))) y = if x = y then none else d.get? y :=
  Dict.get?_erase d x y

theorem sameGraph_updateMany {g h : MG L A} (s : SameGraph g h) (i j : L) {attr : Attr A} (ha : attr.keys.Nodup)
    (ks : List Int) : (updateMany g i j attr ks).1 = (updateMany h i j attr ks).1 ∧
      SameGraph (updateMany g i j attr ks).2 (updateMany h i j attr ks).2 := by
  induction ks generalizing g h with
  | nil => exact ⟨rfl, s⟩
  | cons k ks ih =>
    unfold updateMany
    rw [← (s.parallel i j).1]
    cases pyIndex (between g.edges i j).length k with
    | none => exact ⟨rfl, s⟩
    | some p =>
      apply ih
      apply sameGraph_edges s
      · intro a b
        by_cases hab : a = i ∧ b = j
        · obtain ⟨rfl, rfl⟩ := hab
          rw [between_updateNth_self, between_updateNth_self]
          exact (s.parallel a b).modify p _ (fun _ _ h => h.update ha)
        · rw [between_updateNth_ne _ _ _ _ _ _ _ hab, between_updateNth_ne _ _ _ _ _ _ _ hab]
          exact s.parallel a b
      · intro a
        rw [targets_sameEnds (sameEnds_updateNth g.edges i j attr p),
          targets_sameEnds (sameEnds_updateNth h.edges i j attr p), s.targets a]

theorem sameGraph_exec {g h : MG L A} (s : SameGraph g h) {op : Net.Op L A} (hop : Keywords op) :
    (MG.exec g op).1 = (MG.exec h op).1 ∧ SameGraph (MG.exec g op).2 (MG.exec h op).2 := by
  cases op with
  | addNode x attr => exact ⟨rfl, sameGraph_addNode s x hop⟩
  | addEdge i j attr => exact ⟨rfl, sameGraph_addEdge s i j attr⟩
  | addEdgeBidir i j attr => exact ⟨rfl, sameGraph_addEdge (sameGraph_addEdge s i j attr) j i attr⟩
  | updateEdge i j ks attr =>
    simp only [MG.exec]
    by_cases he : between g.edges i j = []
    · rw [if_pos he, if_pos ((s.parallel i j).nil_iff.1 he)]; exact ⟨rfl, s⟩
    · rw [if_neg he, if_neg (mt (s.parallel i j).nil_iff.2 he)]
      cases ks with
      | none =>
        refine ⟨rfl, sameGraph_edges s (fun a b => ?_) (fun a => ?_)⟩
        · rw [between_map_update, between_map_update]
          split
          · exact (s.parallel a b).map _ (fun _ _ h => h.update hop)
          · exact s.parallel a b
        · exact (targets_sameEnds (sameEnds_updateAll g i j attr) a).trans
            ((s.targets a).trans (targets_sameEnds (sameEnds_updateAll h i j attr) a).symm)
      | some ks => exact sameGraph_updateMany s i j hop ks
  | removeNode x =>
    simp only [MG.exec]
    by_cases hx : x ∈ g.labels
    · rw [if_pos hx, if_pos ((s.labels x).1 hx)]
      refine ⟨rfl, fun y => ?_, fun y a b ha hb => ?_, fun a b => ?_, fun a => ?_⟩
      · have : ∀ k : MG L A, y ∈ (MG.removeNode k x).labels ↔ y ∈ k.labels ∧ y ≠ x := by
          intro k
          have := Dict.keys_erase k.nodes x
          show y ∈ Dict.keys (Dict.erase k.nodes x) ↔ _
          rw [this, List.mem_filter]; simp [MG.labels, Dict.keys]
        rw [this, this, s.labels y]
      · simp only [MG.removeNode, get?_filter_ne] at ha hb
        split at ha
        · cases ha
        · rename_i hne; rw [if_neg hne] at hb; exact s.attrs y a b ha hb
      · simp only [MG.removeNode, between_drop_node]
        split
        · exact s.parallel a b
        · exact SameParallel.rfl' _
      · simp only [MG.removeNode, targets_removeNode, s.targets a]
    · rw [if_neg hx, if_neg (mt (s.labels x).2 hx)]; exact ⟨rfl, s⟩
  | removeEdge i j =>
    simp only [MG.exec]
    by_cases he : between g.edges i j = []
    · rw [if_pos he, if_pos ((s.parallel i j).nil_iff.1 he)]; exact ⟨rfl, s⟩
    · rw [if_neg he, if_neg (mt (s.parallel i j).nil_iff.2 he)]
      refine ⟨rfl, sameGraph_edges s (fun a b => ?_) (fun a => ?_)⟩
      · by_cases hab : a = i ∧ b = j
        · obtain ⟨rfl, rfl⟩ := hab
          rw [between_removeEdge_self, between_removeEdge_self]; exact SameParallel.rfl' _
        · rw [between_filter_pair _ _ _ _ _ hab, between_filter_pair _ _ _ _ _ hab]; exact s.parallel a b
      · rw [targets_removeEdge, targets_removeEdge, s.targets a]
  | setRotation rs =>
    simp only [MG.exec]
    have : (∀ p ∈ rs, p.1 ∈ g.labels ∧ ∀ x ∈ p.2, x ∈ g.labels) ↔
        (∀ p ∈ rs, p.1 ∈ h.labels ∧ ∀ x ∈ p.2, x ∈ h.labels) := by simp only [s.labels]
    by_cases hr : ∀ p ∈ rs, p.1 ∈ g.labels ∧ ∀ x ∈ p.2, x ∈ g.labels
    · rw [if_pos hr, if_pos (this.1 hr)]; exact ⟨rfl, s.labels, s.attrs, s.parallel, s.targets⟩
    · rw [if_neg hr, if_neg (mt this.2 hr)]; exact ⟨rfl, s⟩

theorem sameGraph_run {g h : MG L A} (s : SameGraph g h) {ops : List (Net.Op L A)} (hops : ∀ op ∈ ops, Keywords op) :
    SameGraph (MG.run g ops) (MG.run h ops) := by
  induction ops generalizing g h with
  | nil => exact s
  | cons op ops ih =>
    simp only [MG.run, List.foldl_cons]
    exact ih (sameGraph_exec s (hops op (by simp))).2 (fun o ho => hops o (by simp [ho]))

end Verif
