import Verif.Model.Growth
import Verif.Spec.Growth
import Verif.Proofs.TopologyRun
import Verif.Proofs.Requests
import Verif.Proofs.NetworkQueries
/-! # Lemmas about randomly growing networks -/

namespace Verif
open Spec MG

/-- The multigraph with the nodes `0 .. n-1`, the edges `base`, and both directions of the links. -/
def linkMG {A : Type} (base : List (Edge Nat A)) (n : Nat) (ls : List (Nat × Nat)) : MG Nat A :=
  ⟨(List.range n).map (fun x => (x, [])), base ++ ls.flatMap (fun p => [⟨p.2, p.1, []⟩, ⟨p.1, p.2, []⟩]), none⟩

section
variable {A : Type} {base : List (Edge Nat A)} {n : Nat} {ls : List (Nat × Nat)}

theorem linkMG_labels : (linkMG base n ls).labels = List.range n := by
  simp [linkMG, MG.labels, Function.comp_def]

/-- The ends of the edges are nodes. -/
def LinkOk (base : List (Edge Nat A)) (n : Nat) (ls : List (Nat × Nat)) : Prop :=
  (∀ e ∈ base, e.src < n ∧ e.dst < n) ∧ ∀ p ∈ ls, p.1 < n ∧ p.2 < n

theorem linkMG_valid (h : LinkOk base n ls) : (linkMG base n ls).Valid := by
  refine ⟨by rw [linkMG_labels]; exact List.nodup_range, ?_⟩
  intro e he
  rw [linkMG_labels, List.mem_range, List.mem_range]
  rcases List.mem_append.1 he with he | he
  · exact h.1 e he
  · obtain ⟨p, hp, he⟩ := List.mem_flatMap.1 he
    have := h.2 p hp
    simp only [List.mem_cons, List.not_mem_nil, or_false] at he
    rcases he with rfl | rfl
    · exact ⟨this.2, this.1⟩
    · exact this

theorem linkMG_between_links (hne : ∀ p ∈ ls, p.1 ≠ p.2) (i j : Nat) :
    between (ls.flatMap (fun p => [⟨p.2, p.1, []⟩, ⟨p.1, p.2, []⟩]) : List (Edge Nat A)) i j =
      (ls.filter (fun p => decide (p = (i, j) ∨ p = (j, i)))).map (fun _ => []) := by
  induction ls with
  | nil => rfl
  | cons p ls ih =>
    obtain ⟨a, b⟩ := p
    have h1 : a ≠ b := hne (a, b) (by simp)
    rw [List.flatMap_cons, between_append, ih (fun p hp => hne p (by simp [hp])), between_cons, between_singleton, List.filter_cons]
    simp only [Prod.mk.injEq, decide_eq_true_eq]
    by_cases h2 : a = i ∧ b = j
    · rw [if_pos h2, if_neg (show ¬ (b = i ∧ a = j) by omega), if_pos (Or.inl h2)]
      rfl
    · by_cases h3 : b = i ∧ a = j
      · rw [if_neg h2, if_pos h3, if_pos (Or.inr ⟨h3.2, h3.1⟩)]
        rfl
      · rw [if_neg h2, if_neg h3, if_neg (by omega)]
        rfl

theorem linkMG_linked (h : LinkOk base n ls) (hne : ∀ p ∈ ls, p.1 ≠ p.2) :
    Linked (ofMG (linkMG base n ls)) n (between base) ls := by
  refine ⟨by rw [labels_ofMG, linkMG_labels], ?_⟩
  intro i j
  rw [parallel_ofMG (linkMG_valid h)]
  show between (base ++ _) i j = _
  rw [between_append, linkMG_between_links hne]

theorem linkMG_hasEdge (h : LinkOk base n ls) (hb : base = []) (i j : Nat) :
    (ofMG (linkMG base n ls)).hasEdge i j = decide ((i, j) ∈ ls ∨ (j, i) ∈ ls) := by
  rw [hasEdge_ofMG (linkMG_valid h)]
  congr 1
  rw [mem_sources, hb]
  simp only [linkMG, List.nil_append, List.mem_flatMap, List.mem_cons, List.not_mem_nil, or_false, eq_iff_iff]
  constructor
  · rintro ⟨e, ⟨⟨a, b⟩, hp, rfl | rfl⟩, rfl, rfl⟩
    · exact Or.inr hp
    · exact Or.inl hp
  · rintro (h1 | h1)
    · exact ⟨_, ⟨_, h1, Or.inr rfl⟩, rfl, rfl⟩
    · exact ⟨_, ⟨_, h1, Or.inl rfl⟩, rfl, rfl⟩

theorem linkMG_addLink (h : LinkOk base n ls) {a b : Nat} (ha : a < n) (hb : b < n) :
    (do Net.addEdge b a []; Net.addEdge a b [] : NetM Nat A Unit) (ofMG (linkMG base n ls)) =
      (.ok (), ofMG (linkMG base n (ls ++ [(a, b)]))) := by
  have hv := linkMG_valid h
  have h1 : Net.addEdge b a [] (ofMG (linkMG base n ls)) = (.ok (), ofMG (MG.addEdge (linkMG base n ls) b a [])) :=
    addEdge_ofMG hv b a []
  rw [NetM.bind_ok h1, addEdge_ofMG (valid_addEdge hv b a [])]
  congr 2
  have m : ∀ x, x < n → x ∈ (linkMG base n ls).labels := fun x hx => by rw [linkMG_labels]; simpa using hx
  unfold MG.addEdge
  rw [ensure_of_mem (m b hb), ensure_of_mem (m a ha)]
  have m' : ∀ x (es : List (Edge Nat A)), x < n → x ∈ ({ linkMG base n ls with edges := es } : MG Nat A).labels := fun x _ hx => m x hx
  rw [ensure_of_mem (m' a _ ha), ensure_of_mem (m' b _ hb)]
  simp [linkMG]

theorem linkMG_addNode (h : LinkOk base n ls) :
    Net.addNode n [] (ofMG (linkMG base n ls)) = (.ok (), ofMG (linkMG base (n + 1) ls)) := by
  rw [addNode_ofMG (linkMG_valid h)]
  congr 2
  unfold MG.addNode
  have hx : n ∉ (linkMG base n ls).labels := by rw [linkMG_labels]; simp
  unfold MG.ensure
  rw [if_neg hx]
  simp only [linkMG, List.map_append, List.map_map, List.range_succ, List.map_cons, List.map_nil]
  congr 1
  congr 1
  · apply List.map_congr_left
    intro x _
    simp only [Function.comp]
    split <;> rfl

theorem linkMG_copy (h : LinkOk base n ls) {cl : Codec Nat} {ca : Codec A} (hcl : ∀ x, x < n → cl.ExactAt x)
    (hca : ∀ e ∈ base, ∀ kv ∈ e.attr, ca.ExactAt kv.2) :
    (ofMG (linkMG base n ls)).copy cl ca = .ok (ofMG (linkMG base n ls)) := by
  rw [copy_ofMG (linkMG_valid h)]
  · rfl
  · intro x hx; rw [linkMG_labels, List.mem_range] at hx; exact hcl x hx
  · intro e he
    rcases List.mem_append.1 he with he | he
    · exact hca e he
    · obtain ⟨p, hp, he⟩ := List.mem_flatMap.1 he
      simp only [List.mem_cons, List.not_mem_nil, or_false] at he
      rcases he with rfl | rfl <;> simp
  · intro p hp
    obtain ⟨x, _, rfl⟩ := List.mem_map.1 hp
    simp

theorem linkMG_size : (ofMG (linkMG base n ls)).size = n := by
  rw [size_ofMG, linkMG_labels, List.length_range]

theorem linkMG_edges (h : LinkOk base n ls) : (ofMG (linkMG base n ls)).edges.length = base.length + 2 * ls.length := by
  rw [(edges_perm (linkMG_valid h)).length_eq]
  simp only [linkMG, List.length_map, List.length_append, List.length_flatMap, List.length_cons, List.length_nil, List.map_const',
    List.sum_replicate_nat]
  omega

theorem ofSize_link (n : Nat) : Net.ofSize n = ofMG (linkMG ([] : List (Edge Nat A)) n []) := by
  simp [ofMG, linkMG, Net.ofSize, Function.comp_def, nodeOf, MG.inCount, MG.outCount, incomingOf, MG.sources, MG.dedup, Dict.ofKeys,
    Net.newNode]

end

theorem ofMG_nonempty {L A : Type} [DecidableEq L] {g : MG L A} (h : g.labels ≠ []) : (ofMG g).nodes.isEmpty = false := by
  simp only [ofMG, MG.labels] at *
  cases hg : g.nodes with
  | nil => rw [hg] at h; exact absurd rfl h
  | cons a l => rfl

/-! ## The links -/

section
variable {σ : Type}

/-- What is known of the links of random attachment. -/
structure AttachOk (n t : Nat) (ls : List (Nat × Nat)) : Prop where
  range : ∀ p ∈ ls, p.1 < n ∧ p.2 < n
  ne : ∀ p ∈ ls, p.1 ≠ p.2
  once : ls.Pairwise (fun p q => ¬ SameLink p q)
  count : ls.length ≤ t

theorem attach_next {draw2 : List Nat → σ → Except Err ((Nat × Nat) × σ)} (hd : DrawsTwo draw2) {n : Nat} (hn : 2 ≤ n) {u : σ} {t : Nat}
    {ls : List (Nat × Nat)} {u1 : σ} (h : attachLinks draw2 n u t = .ok (ls, u1)) :
    ∃ a b u2, draw2 (List.range n) u1 = .ok ((a, b), u2) ∧ a < n ∧ b < n ∧ a ≠ b ∧
      attachLinks draw2 n u (t + 1) = .ok (if (a, b) ∈ ls ∨ (b, a) ∈ ls then ls else ls ++ [(a, b)], u2) := by
  obtain ⟨a, b, u2, h1, h2, h3, h4⟩ := hd.two (List.range n) u1 List.nodup_range (by simpa using hn)
  refine ⟨a, b, u2, h1, by simpa using h2, by simpa using h3, h4, ?_⟩
  simp only [attachLinks, h, h1]

theorem attach_ok {draw2 : List Nat → σ → Except Err ((Nat × Nat) × σ)} (hd : DrawsTwo draw2) {n : Nat} (hn : 2 ≤ n) (u : σ) (t : Nat) :
    ∃ ls u1, attachLinks draw2 n u t = .ok (ls, u1) ∧ AttachOk n t ls := by
  induction t with
  | zero => exact ⟨[], u, rfl, ⟨by simp, by simp, List.Pairwise.nil, by simp⟩⟩
  | succ t ih =>
    obtain ⟨ls, u1, h, ok⟩ := ih
    obtain ⟨a, b, u2, h1, h2, h3, h4, h5⟩ := attach_next hd hn h
    refine ⟨_, u2, h5, ?_⟩
    split
    · exact ⟨ok.range, ok.ne, ok.once, by have := ok.count; omega⟩
    · rename_i hnew
      rw [not_or] at hnew
      refine ⟨?_, ?_, ?_, ?_⟩
      · intro p hp
        rcases List.mem_append.1 hp with hp | hp
        · exact ok.range p hp
        · rw [List.mem_singleton] at hp; subst hp; exact ⟨h2, h3⟩
      · intro p hp
        rcases List.mem_append.1 hp with hp | hp
        · exact ok.ne p hp
        · rw [List.mem_singleton] at hp; subst hp; exact h4
      · rw [List.pairwise_append]
        refine ⟨ok.once, List.pairwise_singleton _ _, ?_⟩
        rintro ⟨p1, p2⟩ hp q hq (e | e)
        · rw [List.mem_singleton] at hq; subst hq; rw [e] at hp; exact hnew.1 hp
        · rw [List.mem_singleton] at hq; subst hq; rw [e] at hp; exact hnew.2 hp
      · have := ok.count; simp; omega

theorem links_count {n : Nat} {ls : List (Nat × Nat)} (hr : ∀ p ∈ ls, p.1 < n ∧ p.2 < n) (hne : ∀ p ∈ ls, p.1 ≠ p.2)
    (ho : ls.Pairwise (fun p q => ¬ SameLink p q)) : 2 * ls.length + n ≤ n * n := by
  have hall : (ls ++ ls.map (fun p => (p.2, p.1)) ++ (List.range n).map (fun x => (x, x))).Nodup := by
    rw [List.nodup_append, List.nodup_append]
    refine ⟨⟨ho.imp (fun h e => h (Or.inl e)), ?_, ?_⟩, ?_, ?_⟩
    · rw [List.Nodup, List.pairwise_map]
      refine ho.imp (fun {p q} h e => h (Or.inl ?_))
      simp only [Prod.mk.injEq] at e
      exact Prod.ext e.2 e.1
    · intro p hp q hq e
      subst e
      obtain ⟨q, hq', e⟩ := List.mem_map.1 hq
      clear hq
      obtain ⟨i, hi, rfl⟩ := List.mem_iff_getElem.1 hp
      obtain ⟨j, hj, rfl⟩ := List.mem_iff_getElem.1 hq'
      rw [List.pairwise_iff_getElem] at ho
      rcases Nat.lt_trichotomy i j with h | h | h
      · exact ho i j hi hj h (Or.inr e.symm)
      · subst h
        exact hne _ hp (congrArg Prod.snd e)
      · refine ho j i hj hi h (Or.inr ?_)
        rw [← e]
    · rw [List.Nodup, List.pairwise_map]
      exact List.nodup_range.imp (fun h e => h (by simpa using e))
    · intro p hp q hq e
      subst e
      obtain ⟨x, hx, rfl⟩ := List.mem_map.1 hq
      rcases List.mem_append.1 hp with hp | hp
      · exact hne _ hp rfl
      · obtain ⟨q, hq, e⟩ := List.mem_map.1 hp
        simp only [Prod.mk.injEq] at e
        exact hne q hq (by omega)
  have := List.Nodup.length_le_of_subset (l₂ := (List.range n).flatMap (fun i => (List.range n).map (fun j => (i, j)))) hall (by
    intro p hp
    have hp' : p.1 < n ∧ p.2 < n := by
      rcases List.mem_append.1 hp with hp | hp
      · rcases List.mem_append.1 hp with hp | hp
        · exact hr p hp
        · obtain ⟨q, hq, rfl⟩ := List.mem_map.1 hp
          exact ⟨(hr q hq).2, (hr q hq).1⟩
      · obtain ⟨x, hx, rfl⟩ := List.mem_map.1 hp
        exact ⟨by simpa using hx, by simpa using hx⟩
    rw [List.mem_flatMap]
    exact ⟨p.1, by simpa using hp'.1, List.mem_map.2 ⟨p.2, by simpa using hp'.2, rfl⟩⟩)
  rw [List.length_flatMap] at this
  simp only [List.length_append, List.length_map, List.length_range, List.map_const', List.sum_replicate_nat] at this
  omega

/-- What is known of the links of growth by nodes linked to an older node. -/
structure Grow1Ok (n t : Nat) (ls : List (Nat × Nat)) : Prop where
  count : ls.length = t
  link : ∀ (k : Nat), k < t → ∃ c, c < n + k ∧ ls[k]? = some (c, n + k)

theorem grow1_next {draw1 : Nat → σ → Except Err (Nat × σ)} (hd : DrawsOne draw1) {n : Nat} (hn : 0 < n) {u : σ} {t : Nat}
    {ls : List (Nat × Nat)} {u1 : σ} (h : growLinks1 draw1 n u t = .ok (ls, u1)) :
    ∃ c u2, draw1 (n + t) u1 = .ok (c, u2) ∧ c < n + t ∧ growLinks1 draw1 n u (t + 1) = .ok (ls ++ [(c, n + t)], u2) := by
  obtain ⟨c, u2, h1, h2⟩ := hd.one (n + t) u1 (by omega)
  refine ⟨c, u2, h1, h2, ?_⟩
  simp only [growLinks1, h, h1]

theorem grow1_ok {draw1 : Nat → σ → Except Err (Nat × σ)} (hd : DrawsOne draw1) {n : Nat} (hn : 0 < n) (u : σ) (t : Nat) :
    ∃ ls u1, growLinks1 draw1 n u t = .ok (ls, u1) ∧ Grow1Ok n t ls := by
  induction t with
  | zero => exact ⟨[], u, rfl, rfl, by simp⟩
  | succ t ih =>
    obtain ⟨ls, u1, h, ok⟩ := ih
    obtain ⟨c, u2, h1, h2, h3⟩ := grow1_next hd hn h
    refine ⟨_, u2, h3, by simp [ok.count], ?_⟩
    intro k hk
    by_cases hkt : k < t
    · obtain ⟨d, hd, e⟩ := ok.link k hkt
      exact ⟨d, hd, by rw [List.getElem?_append_left (by rw [ok.count]; exact hkt)]; exact e⟩
    · have : k = t := by omega
      subst this
      refine ⟨c, h2, ?_⟩
      rw [List.getElem?_append_right (by rw [ok.count]; omega), ok.count]
      simp

theorem Grow1Ok.mem {n t : Nat} {ls : List (Nat × Nat)} (ok : Grow1Ok n t ls) {p : Nat × Nat} (hp : p ∈ ls) :
    p.1 < p.2 ∧ n ≤ p.2 ∧ p.2 < n + t := by
  obtain ⟨k, hk, rfl⟩ := List.mem_iff_getElem.1 hp
  rw [ok.count] at hk
  obtain ⟨c, h1, h2⟩ := ok.link k hk
  rw [List.getElem?_eq_some_iff] at h2
  obtain ⟨_, h2⟩ := h2
  rw [h2]
  exact ⟨h1, by simp, by simp; omega⟩

theorem Grow1Ok.once {n t : Nat} {ls : List (Nat × Nat)} (ok : Grow1Ok n t ls) : ls.Pairwise (fun p q => ¬ SameLink p q) := by
  rw [List.pairwise_iff_getElem]
  intro i j hi hj hij hs
  have m1 := ok.mem (List.getElem_mem hi)
  have m2 := ok.mem (List.getElem_mem hj)
  rw [ok.count] at hi hj
  obtain ⟨c, h1, h2⟩ := ok.link i hi
  obtain ⟨d, h3, h4⟩ := ok.link j hj
  rw [List.getElem?_eq_some_iff] at h2 h4
  obtain ⟨_, h2⟩ := h2
  obtain ⟨_, h4⟩ := h4
  rw [h2] at m1 hs
  rw [h4] at m2 hs
  simp only [SameLink, Prod.mk.injEq] at *
  omega

theorem Reaches.append {ls ls' : List (Nat × Nat)} {x y : Nat} (h : Reaches ls x y) : Reaches (ls ++ ls') x y := by
  induction h with
  | refl => exact .refl
  | step _ hl ih =>
    refine .step ih (hl.imp ?_ ?_) <;> intro h <;> simp [h]

theorem grow1_reaches {draw1 : Nat → σ → Except Err (Nat × σ)} (hd : DrawsOne draw1) {n : Nat} (hn : 0 < n) (u : σ) (t : Nat) :
    ∀ ls u1, growLinks1 draw1 n u t = .ok (ls, u1) → ∀ x, x < n + t → ∃ y, y < n ∧ Reaches ls y x := by
  induction t with
  | zero => intro ls u1 _ x hx; exact ⟨x, hx, .refl⟩
  | succ t ih =>
    intro ls u1 h x hx
    obtain ⟨ls0, u0, h0, _⟩ := grow1_ok hd hn u t
    obtain ⟨c, u2, h1, h2, h3⟩ := grow1_next hd hn h0
    rw [h3] at h
    simp only [Except.ok.injEq, Prod.mk.injEq] at h
    obtain ⟨rfl, rfl⟩ := h
    by_cases hxt : x < n + t
    · obtain ⟨y, hy, r⟩ := ih ls0 u0 h0 x hxt
      exact ⟨y, hy, Reaches.append r⟩
    · have : x = n + t := by omega
      subst this
      obtain ⟨y, hy, r⟩ := ih ls0 u0 h0 c h2
      exact ⟨y, hy, .step (Reaches.append r) (Or.inl (by simp))⟩

/-- What is known of the links of growth by nodes and links. -/
structure Grow2Ok (n t : Nat) (ls : List (Nat × Nat)) : Prop where
  count : ls.length ≤ t
  range : ∀ p ∈ ls, p.1 < n + t ∧ p.2 < n + t
  ne : ∀ p ∈ ls, p.1 ≠ p.2

theorem grow2_next {coin : σ → Bool × σ} {draw2 : List Nat → σ → Except Err ((Nat × Nat) × σ)} (hd : DrawsTwo draw2) {n : Nat}
    (hn : 0 < n) {u : σ} {t : Nat} {ls : List (Nat × Nat)} {u1 : σ} (h : growLinks2 coin draw2 n u t = .ok (ls, u1)) :
    ((coin u1).1 = false ∧ growLinks2 coin draw2 n u (t + 1) = .ok (ls, (coin u1).2)) ∨
    ((coin u1).1 = true ∧ ∃ a b u2, draw2 (List.range (n + t + 1)) (coin u1).2 = .ok ((a, b), u2) ∧ a < n + t + 1 ∧ b < n + t + 1 ∧
      a ≠ b ∧ growLinks2 coin draw2 n u (t + 1) = .ok (ls ++ [(a, b)], u2)) := by
  cases hc : (coin u1).1 with
  | false =>
    refine Or.inl ⟨rfl, ?_⟩
    simp [growLinks2, h, hc]
  | true =>
    obtain ⟨a, b, u2, h1, h2, h3, h4⟩ := hd.two (List.range (n + t + 1)) (coin u1).2 List.nodup_range (by simp; omega)
    refine Or.inr ⟨rfl, a, b, u2, h1, by simpa using h2, by simpa using h3, h4, ?_⟩
    simp [growLinks2, h, hc, h1]

theorem grow2_ok {coin : σ → Bool × σ} {draw2 : List Nat → σ → Except Err ((Nat × Nat) × σ)} (hd : DrawsTwo draw2) {n : Nat}
    (hn : 0 < n) (u : σ) (t : Nat) :
    ∃ ls u1, growLinks2 coin draw2 n u t = .ok (ls, u1) ∧ Grow2Ok n t ls ∧ ((∀ v, (coin v).1 = true) → ls.length = t) ∧
      ((∀ v, (coin v).1 = false) → ls = []) := by
  induction t with
  | zero => exact ⟨[], u, rfl, ⟨by simp, by simp, by simp⟩, by simp, by simp⟩
  | succ t ih =>
    obtain ⟨ls, u1, h, ok, e1, e2⟩ := ih
    rcases grow2_next (coin := coin) hd hn h with ⟨hc, h1⟩ | ⟨hc, a, b, u2, h1, h2, h3, h4, h5⟩
    · refine ⟨_, _, h1, ⟨by have := ok.count; omega, fun p hp => by have := ok.range p hp; omega, ok.ne⟩, ?_, e2⟩
      intro ht
      rw [ht] at hc
      cases hc
    · refine ⟨_, _, h5, ⟨by have := ok.count; simp; omega, ?_, ?_⟩, fun ht => by simp [e1 ht], ?_⟩
      · intro p hp
        rcases List.mem_append.1 hp with hp | hp
        · have := ok.range p hp; omega
        · rw [List.mem_singleton] at hp; subst hp; exact ⟨h2, h3⟩
      · intro p hp
        rcases List.mem_append.1 hp with hp | hp
        · exact ok.ne p hp
        · rw [List.mem_singleton] at hp; subst hp; exact h4
      · intro ht
        rw [ht] at hc
        cases hc

end

/-! ## Runs -/

section
variable {A V I σ κ : Type} [DecidableEq V] [DecidableEq κ]

/-- Runs in which the rule changes the list of links. -/
theorem link_run {cfg : Config Nat A V I σ κ} {R : TopCtx Nat A V → σ → Except Err (TopOut Nat A × σ)} {T : Nat}
    (hrule : cfg.rule = none) (htop : cfg.topology = some R) (hcopy : cfg.copyNetwork = true)
    (hin : cfg.input = .timesteps T) (hpers : cfg.persistNet = true) (hcomp : cfg.compression = false)
    {base : List (Edge Nat A)} {m : Nat → Nat} {links : Nat → Except Err (List (Nat × Nat) × σ)} (hm : ∀ t, 0 < m t)
    (hok : ∀ t ls u, links t = .ok (ls, u) → LinkOk base (m t) ls)
    (hcl : ∀ t x, t + 1 < T → x < m t → cfg.labelCodec.ExactAt x) (hca : ∀ e ∈ base, ∀ kv ∈ e.attr, cfg.attrCodec.ExactAt kv.2)
    (hstep : ∀ t acts ls u, links t = .ok (ls, u) → ∃ ls' u', links (t + 1) = .ok (ls', u') ∧
      R ⟨ofMG (linkMG base (m t) ls), acts, t + 1⟩ u = .ok (⟨ofMG (linkMG base (m (t + 1)) ls'), .same⟩, u'))
    (hT : 1 ≤ T) {init : Option (Conds Nat V)} {r : Nat} {w : World Nat A σ} (h0 : links 0 = .ok ([], w.user))
    (hr : w.heap[r]? = some (ofMG (linkMG base (m 0) []))) {fuel : Nat} (hf : T ≤ fuel) :
    ∃ res, evolve fuel cfg init r w = .ok res ∧ res.states.length = T ∧ ∀ t, t < T → ∃ ls u, links t = .ok (ls, u) ∧
      res.net cfg t = some (ofMG (linkMG base (m t) ls)) := by
  obtain ⟨res, gs, e1, e2, _, e3, _⟩ := topology_run (V := V) (g0 := linkMG base (m 0) []) hrule htop hcopy hin hpers hcomp
    (Inv := fun t g u => ∃ ls, links t = .ok (ls, u) ∧ g = linkMG base (m t) ls) (Rel := fun _ _ _ => True) (by
      rintro t acts g u ht ⟨ls, h1, rfl⟩
      obtain ⟨ls', u', h2, h3⟩ := hstep t acts ls u h1
      refine ⟨_, linkMG base (m (t + 1)) ls', u', linkMG_copy (hok t ls u h1) (fun x hx => hcl t x ht hx) hca, h3, ?_,
        ⟨ls', h2, rfl⟩, trivial⟩
      have hne : (linkMG base (m (t + 1)) ls').labels ≠ [] := by
        rw [linkMG_labels, ne_eq, List.range_eq_nil]
        have := hm (t + 1)
        omega
      simp only [TopOut.value, ofMG_nonempty hne, Bool.false_eq_true, if_false]) (by
      rintro t g u ⟨ls, _, rfl⟩ h
      have h1 : (linkMG base (m t) ls).labels = [] := by rw [MG.labels, h]; rfl
      rw [linkMG_labels, List.range_eq_nil] at h1
      have := hm t
      omega) hT hr ⟨[], h0, rfl⟩ hf (init := init)
  refine ⟨res, e1, e2, ?_⟩
  intro t ht
  obtain ⟨h1, u, ls, h2, h3⟩ := e3 t ht
  exact ⟨ls, u, h2, by rw [h1, h3]⟩

end
end Verif
