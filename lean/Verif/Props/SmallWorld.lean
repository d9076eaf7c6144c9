import Verif.Proofs.SmallWorld
import Verif.Spec.SmallWorld
import Verif.Proofs.Density
import Verif.Proofs.Rotation
/-! # Small-world networks: C137, C138 -/

namespace Verif
open Spec MG

/-- The matrix of a graph without loops and repeated edges, read as a network. -/
theorem nxMatrix_network {n : Nat} {G : List (Nat × Nat)} (hn : 0 < n) (h1 : G.Pairwise (fun p q => ¬ SameLink p q))
    (h2 : ∀ e ∈ G, e.1 < n ∧ e.2 < n ∧ e.1 ≠ e.2) :
    ∃ M, nxMatrix n G = .ok M ∧
      (∀ a b, between (adjMG M).edges a b = if nxHas G a b then [[("weight", (1 : Int))]] else []) ∧
      ((adjMG M).edges.map (fun e => (e.src, e.dst))).Perm (G ++ G.map (fun e => (e.2, e.1))) ∧
      (∀ x, x ∈ (adjMG M).labels ↔ ∃ y, nxHas G x y = true) := by
  refine ⟨_, by unfold nxMatrix; rw [if_neg (by omega)], ?_, ?_, ?_⟩
  all_goals
    have hent : ∀ a b, entry ((List.range n).map (fun i => (List.range n).map (fun j => if nxHas G i j then (1 : Int) else 0))) a b =
        if a < n ∧ b < n then some (if nxHas G a b then 1 else 0) else none := by
      intro a b
      unfold entry
      by_cases ha : a < n <;> by_cases hb : b < n <;> simp [ha, hb]
    have hrange : ∀ a b, nxHas G a b = true → a < n ∧ b < n := by
      intro a b h
      rcases nxHas_iff.1 h with h | h
      · exact ⟨(h2 _ h).1, (h2 _ h).2.1⟩
      · exact ⟨(h2 _ h).2.1, (h2 _ h).1⟩
  · intro a b
    rw [between_adjMG, hent]
    by_cases h : nxHas G a b = true
    · simp [hrange a b h, h]
    · by_cases hab : a < n ∧ b < n
      · simp [hab, h]
      · rw [if_neg hab, if_neg h]
  · have hnd : (G ++ G.map (fun e => (e.2, e.1))).Nodup := by
      rw [List.nodup_append]
      refine ⟨h1.imp (fun h hc => h (Or.inl hc)), ?_, ?_⟩
      · rw [List.nodup_iff_pairwise_ne, List.pairwise_map]
        refine h1.imp (fun h hc => h (Or.inl ?_))
        rw [Prod.mk.injEq] at hc
        exact Prod.ext hc.2 hc.1
      · intro a ha b hb hab
        subst hab
        obtain ⟨c, hc, hca⟩ := List.mem_map.1 hb
        by_cases hac : a = c
        · have := (h2 a ha).2.2
          subst hac
          rw [← hca] at this
          have h3 := congrArg Prod.fst hca
          have h4 := (h2 a ha).2.2
          exact h4 h3.symm
        · have hsw : SameLink a c := Or.inr hca.symm
          have hsw' : SameLink c a := Or.inr (by rw [← hca])
          obtain ⟨A, B, rfl⟩ := List.append_of_mem ha
          rw [List.pairwise_append, List.pairwise_cons] at h1
          simp only [List.mem_append, List.mem_cons] at hc
          rcases hc with hc | hc | hc
          · exact h1.2.2 c hc a (by simp) hsw'
          · exact hac hc.symm
          · exact h1.2.1.1 c hc hsw
    have hmap : ((adjMG ((List.range n).map (fun i => (List.range n).map (fun j => if nxHas G i j then (1 : Int) else 0)))).edges.map
        (fun e => (e.src, e.dst))) = (matrixEntries ((List.range n).map (fun i => (List.range n).map (fun j =>
          if nxHas G i j then (1 : Int) else 0)))).map (fun t => (t.1, t.2.1)) := by
      rw [adjMG_edges, List.map_map]; rfl
    rw [hmap]
    refine (List.perm_ext_iff_of_nodup (nodup_matrixEntries _) hnd).2 ?_
    rintro ⟨a, b⟩
    have hR : (a, b) ∈ G ++ G.map (fun e => (e.2, e.1)) ↔ nxHas G a b = true := by
      rw [nxHas_iff, List.mem_append, List.mem_map]
      constructor
      · rintro (h | ⟨e, he, hea⟩)
        · exact Or.inl h
        · cases hea; exact Or.inr he
      · rintro (h | h)
        · exact Or.inl h
        · exact Or.inr ⟨_, h, rfl⟩
    rw [hR, List.mem_map]
    constructor
    · rintro ⟨⟨i, j, v⟩, ht, hte⟩
      cases hte
      have := mem_matrixEntries.1 ht
      have h3 : entry _ i j = some v := this.1
      rw [hent] at h3
      by_cases hij : i < n ∧ j < n
      · rw [if_pos hij] at h3
        by_cases hh : nxHas G i j = true
        · exact hh
        · rw [if_neg hh] at h3
          exact absurd (Option.some.inj h3).symm this.2
      · rw [if_neg hij] at h3; cases h3
    · intro h
      refine ⟨(a, b, 1), mem_matrixEntries.2 ⟨?_, by decide⟩, rfl⟩
      show entry _ a b = some 1
      rw [hent, if_pos (hrange a b h), if_pos h]
  · intro x
    rw [mem_adjMG_labels]
    constructor
    · rintro ⟨y, v, hv, h | h⟩
      all_goals
        rw [hent] at h
        split at h
        · next hxy =>
          split at h
          · next hh =>
            exact ⟨y, by first | exact hh | rw [nxHas_comm]; exact hh⟩
          · exact absurd (Option.some.inj h).symm hv
        · cases h
    · rintro ⟨y, h⟩
      refine ⟨y, 1, by decide, Or.inl ?_⟩
      rw [hent, if_pos (hrange x y h), if_pos h]


/-- Degree of a node in the doubled list of edges. -/
theorem countP_double (G : List (Nat × Nat)) (u : Nat) :
    (G ++ G.map (fun e => (e.2, e.1))).countP (fun e => decide (e.1 = u)) =
      G.countP (fun e => decide (e.1 = u)) + G.countP (fun e => decide (e.2 = u)) := by
  rw [List.countP_append, List.countP_map]; rfl

theorem countP_double' (G : List (Nat × Nat)) (u : Nat) :
    (G ++ G.map (fun e => (e.2, e.1))).countP (fun e => decide (e.2 = u)) =
      G.countP (fun e => decide (e.1 = u)) + G.countP (fun e => decide (e.2 = u)) := by
  rw [List.countP_append, List.countP_map, Nat.add_comm]; rfl

theorem outCount_eq {es : List (Edge Nat Int)} {G : List (Nat × Nat)}
    (h : (es.map (fun e => (e.src, e.dst))).Perm (G ++ G.map (fun e => (e.2, e.1)))) (u : Nat) :
    outCount es u = G.countP (fun e => decide (e.1 = u)) + G.countP (fun e => decide (e.2 = u)) := by
  rw [← countP_double, ← h.countP_eq, List.countP_map, List.countP_eq_length_filter]; rfl

theorem inCount_eq {es : List (Edge Nat Int)} {G : List (Nat × Nat)}
    (h : (es.map (fun e => (e.src, e.dst))).Perm (G ++ G.map (fun e => (e.2, e.1)))) (u : Nat) :
    inCount es u = G.countP (fun e => decide (e.1 = u)) + G.countP (fun e => decide (e.2 = u)) := by
  rw [← countP_double', ← h.countP_eq, List.countP_map, List.countP_eq_length_filter]; rfl

/-- **C137.** For all `n` and `k` with `2 ≤ k < n` and whatever the random generator yields, `watts_strogatz_graph` returns
(unless it draws forever) an undirected network without loops and parallel links: its nodes are exactly `0 … n - 1`, two
nodes are linked both ways by one edge of weight 1 each or not at all, it has `n * (k // 2)` links (twice as many
edges), and every node has at least `k // 2` neighbours, as many in as out. -/
theorem C137_small_world (n k : Nat) (h2 : 2 ≤ k) (hk : k < n) (luck : Nat × Nat → Option (Nat × List Nat)) (hl : DrawsNodes n luck) :
    wattsStrogatzGraph n k luck = .error .outOfFuel ∨
    ∃ g : MG Nat Int, wattsStrogatzGraph n k luck = .ok (ofMG g) ∧ g.Valid ∧ g.rot = none ∧
      (∀ x, x ∈ g.labels ↔ x < n) ∧
      (∀ a b, between g.edges a b = [] ∨ between g.edges a b = [[("weight", 1)]]) ∧
      (∀ a b, between g.edges a b = between g.edges b a) ∧
      (∀ a, between g.edges a a = []) ∧
      g.edges.length = 2 * (n * (k / 2)) ∧
      ∀ x, x < n → k / 2 ≤ inCount g.edges x ∧ inCount g.edges x = outCount g.edges x := by
  have hsz : nxSize n k = n := by unfold nxSize; rw [if_neg (by omega)]
  have hws : nxWattsStrogatz n k luck = nxRewireAll n luck (nxPairs n k) (nxRing n k) := by
    unfold nxWattsStrogatz; rw [if_neg (by omega), if_neg (by omega)]
  unfold wattsStrogatzGraph
  rw [hsz, hws]
  rcases rewireAll_ok (nxPairs n k) (rewiring_start hk) (fun p _ => hl p) with ⟨H, e1, hH⟩ | e1
  · right
    obtain ⟨M, m1, m2, m3, m4⟩ := nxMatrix_network (by omega) hH.once hH.range
    obtain ⟨f1, f2⟩ := fromAdjacencyMatrix_eq M
    have hb : ((Except.ok H : Except Err _).bind (nxMatrix n)).map fromAdjacencyMatrix = .ok (ofMG (adjMG M)) := by
      show (nxMatrix n H).map _ = _
      rw [m1, ← f1]; rfl
    rw [e1, hb]
    refine ⟨_, rfl, f2, adjMG_rot M, ?_, ?_, ?_, ?_, ?_, ?_⟩
    · intro x
      rw [m4]
      constructor
      · rintro ⟨y, h⟩
        rcases nxHas_iff.1 h with h | h
        · exact (hH.range _ h).1
        · exact (hH.range _ h).2.1
      · intro hx
        have := hH.own x hx
        have hp : 0 < H.countP (fun e => decide (e.1 = x)) := by rw [this]; omega
        obtain ⟨e, he, hex⟩ := List.countP_pos_iff.1 hp
        rw [decide_eq_true_eq] at hex
        exact ⟨e.2, nxHas_iff.2 (Or.inl (by rw [← hex]; exact he))⟩
    · intro a b
      rw [m2]
      split
      · exact Or.inr rfl
      · exact Or.inl rfl
    · intro a b
      rw [m2, m2, nxHas_comm]
    · intro a
      rw [m2, if_neg]
      intro h
      rcases nxHas_iff.1 h with h | h <;> exact (hH.range _ h).2.2 rfl
    · have := m3.length_eq
      simp only [List.length_map, List.length_append, hH.size] at this
      omega
    · intro x hx
      rw [inCount_eq m3, outCount_eq m3, hH.own x hx]
      exact ⟨by omega, rfl⟩
  · left
    rw [e1]; rfl

theorem degree_full {n u : Nat} {G : List (Nat × Nat)} (hu : u < n) (h : ∀ x, x < n → x = u ∨ nxHas G u x = true) :
    n - 1 ≤ nxDegree G u := by
  have h1 : ((List.range n).erase u).length = n - 1 := by
    rw [List.length_erase_of_mem (List.mem_range.2 hu), List.length_range]
  have h2 := length_le_of_nodup_subset (l := (List.range n).erase u)
    (m := (G.filter (fun e => decide (e.1 = u) || decide (e.2 = u))).map (fun e => if e.1 = u then e.2 else e.1))
    (List.nodup_range.erase u) (by
      intro x hx
      rw [List.nodup_range.mem_erase_iff, List.mem_range] at hx
      rw [List.mem_map]
      rcases h x hx.2 with rfl | h
      · exact absurd rfl hx.1
      · rcases nxHas_iff.1 h with h | h
        · exact ⟨(u, x), List.mem_filter.2 ⟨h, by simp⟩, by simp⟩
        · exact ⟨(x, u), List.mem_filter.2 ⟨h, by simp⟩, by simp [hx.1]⟩)
  rw [h1, List.length_map] at h2
  unfold nxDegree
  rw [List.countP_eq_length_filter]
  exact h2

theorem nxDraw_ends {n : Nat} {G : List (Nat × Nat)} {u w : Nat} {ds : List Nat} (hu : u < n) (hd : ds ≠ [])
    (hall : ∀ x, x < n → x ∈ w :: ds) : ∃ o, nxDraw n G u w ds = .ok o := by
  cases h : nxDraw n G u w ds with
  | ok o => exact ⟨o, rfl⟩
  | error e =>
    obtain ⟨-, h2⟩ := nxDraw_error ds w h
    have hdeg := degree_full hu (fun x hx => h2 x (hall x hx))
    cases ds with
    | nil => exact absurd rfl hd
    | cons d ds =>
      unfold nxDraw at h
      rw [if_pos (h2 w (by simp)), if_pos hdeg] at h
      cases h

theorem rewireAll_ends {n c : Nat} {luck : Nat × Nat → Option (Nat × List Nat)} (P : List (Nat × Nat)) {G : List (Nat × Nat)}
    (h : Rewiring n c P G) (hl : ∀ p ∈ P, ∀ w ds, luck p = some (w, ds) → ∀ x ∈ w :: ds, x < n)
    (hall : ∀ p ∈ P, ∀ w ds, luck p = some (w, ds) → ds ≠ [] ∧ ∀ x, x < n → x ∈ w :: ds) :
    nxRewireAll n luck P G ≠ .error .outOfFuel := by
  induction P generalizing G with
  | nil => intro h; cases h
  | cons p P ih =>
    obtain ⟨u, v⟩ := p
    unfold nxRewireAll nxRewire
    have hp' : ∀ p ∈ P, ∀ w ds, luck p = some (w, ds) → ∀ x ∈ w :: ds, x < n := fun p hp => hl p (by simp [hp])
    have ha' : ∀ p ∈ P, ∀ w ds, luck p = some (w, ds) → ds ≠ [] ∧ ∀ x, x < n → x ∈ w :: ds := fun p hp => hall p (by simp [hp])
    cases hp : luck (u, v) with
    | none => exact ih (rewiring_skip h) hp' ha'
    | some q =>
      obtain ⟨w, ds⟩ := q
      obtain ⟨a1, a2⟩ := hall (u, v) (by simp) w ds hp
      obtain ⟨o, ho⟩ := nxDraw_ends (G := G) (h.range (u, v) (h.pending _ (by simp))).1 a1 a2
      simp only [ho]
      cases o with
      | none => exact ih (rewiring_skip h) hp' ha'
      | some x =>
        obtain ⟨h1, h2, h3⟩ := nxDraw_ok ds w ho x rfl
        obtain ⟨H, e1, e2⟩ := rewiring_replace h (hl (u, v) (by simp) w ds hp x h1) h2 h3
        have : ((Except.ok (some x) : Except Err (Option Nat)).bind (nxReplace G u v)) = .ok H := e1
        rw [this]
        exact ih e2 hp' ha'

/-- **C137.** The drawing ends as soon as every node has been drawn (and one more): then the result is a network as in
`C137_small_world`. -/
theorem C137_ends (n k : Nat) (h2 : 2 ≤ k) (hk : k < n) (luck : Nat × Nat → Option (Nat × List Nat)) (hl : DrawsNodes n luck)
    (hall : ∀ p w ds, luck p = some (w, ds) → ds ≠ [] ∧ ∀ x, x < n → x ∈ w :: ds) :
    ∃ N, wattsStrogatzGraph n k luck = .ok N := by
  rcases C137_small_world n k h2 hk luck hl with h | ⟨g, h, -⟩
  · exfalso
    have hsz : nxSize n k = n := by unfold nxSize; rw [if_neg (by omega)]
    have hws : nxWattsStrogatz n k luck = nxRewireAll n luck (nxPairs n k) (nxRing n k) := by
      unfold nxWattsStrogatz; rw [if_neg (by omega), if_neg (by omega)]
    have hne := rewireAll_ends (nxPairs n k) (rewiring_start hk) (fun p _ => hl p) (fun p _ => hall p)
    unfold wattsStrogatzGraph at h
    rw [hsz, hws] at h
    rcases rewireAll_ok (nxPairs n k) (rewiring_start hk) (fun p _ => hl p) with ⟨H, e1, hH⟩ | e1
    · obtain ⟨M, m1, -⟩ := nxMatrix_network (by omega) hH.once hH.range
      rw [e1] at h
      have : ((Except.ok H : Except Err _).bind (nxMatrix n)).map fromAdjacencyMatrix = .ok (fromAdjacencyMatrix M) := by
        show (nxMatrix n H).map _ = _
        rw [m1]; rfl
      rw [this] at h
      cases h
    · exact hne e1
  · exact ⟨_, h⟩

theorem mem_nxComplete {n u v : Nat} : (u, v) ∈ nxComplete n ↔ u < v ∧ v < n := by
  simp only [nxComplete, List.mem_flatMap, List.mem_range, List.mem_map, List.mem_filter, decide_eq_true_eq, Prod.mk.injEq]
  constructor
  · rintro ⟨a, ha, b, ⟨hb, hab⟩, rfl, rfl⟩; exact ⟨hab, hb⟩
  · rintro ⟨h1, h2⟩; exact ⟨u, by omega, v, ⟨h2, h1⟩, rfl, rfl⟩

theorem nxComplete_once (n : Nat) : (nxComplete n).Pairwise (fun p q => ¬ SameLink p q) := by
  have hnd : (nxComplete n).Nodup := by
    unfold nxComplete
    rw [List.flatMap_def, List.nodup_iff_pairwise_ne, List.pairwise_flatten]
    refine ⟨?_, ?_⟩
    · intro l hl
      obtain ⟨u, -, rfl⟩ := List.mem_map.1 hl
      rw [List.pairwise_map]
      refine (List.nodup_range.filter _).imp ?_
      intro a b h hc
      exact h (Prod.mk.inj hc).2
    · rw [List.pairwise_map]
      refine List.pairwise_lt_range.imp ?_
      intro a b hab p hp q hq hc
      obtain ⟨x, -, rfl⟩ := List.mem_map.1 hp
      obtain ⟨y, -, rfl⟩ := List.mem_map.1 hq
      have := (Prod.mk.inj hc).1
      omega
  refine List.Pairwise.imp_of_mem ?_ hnd
  rintro ⟨a, b⟩ ⟨c, d⟩ h1 h2 hne hs
  have h1 := mem_nxComplete.1 h1
  have h2 := mem_nxComplete.1 h2
  rcases hs with hs | hs
  · exact hne hs
  · cases hs; omega

/-- **C137.** `k = n`: for `n ≥ 2` the complete network on `0 … n - 1`; one node is lost, and none is an error. -/
theorem C137_complete (n : Nat) (luck : Nat × Nat → Option (Nat × List Nat)) (hn : 0 < n) :
    ∃ g : MG Nat Int, wattsStrogatzGraph n n luck = .ok (ofMG g) ∧ g.Valid ∧ g.rot = none ∧
      (∀ x, x ∈ g.labels ↔ x < n ∧ 2 ≤ n) ∧
      (∀ a b, between g.edges a b = if a < n ∧ b < n ∧ a ≠ b then [[("weight", 1)]] else []) := by
  have hsz : nxSize n n = n := by unfold nxSize; rw [if_neg (by omega)]
  have hws : nxWattsStrogatz n n luck = .ok (nxComplete n) := by
    unfold nxWattsStrogatz; rw [if_neg (by omega), if_pos rfl]
  obtain ⟨M, m1, m2, m3, m4⟩ := nxMatrix_network hn (nxComplete_once n) (by
    rintro ⟨a, b⟩ h
    have := mem_nxComplete.1 h
    exact ⟨by simp only; omega, this.2, by simp only [ne_eq]; omega⟩)
  obtain ⟨f1, f2⟩ := fromAdjacencyMatrix_eq M
  have hhas : ∀ a b, nxHas (nxComplete n) a b = true ↔ a < n ∧ b < n ∧ a ≠ b := by
    intro a b
    rw [nxHas_iff, mem_nxComplete, mem_nxComplete]
    omega
  refine ⟨adjMG M, ?_, f2, adjMG_rot M, ?_, ?_⟩
  · unfold wattsStrogatzGraph
    rw [hsz, hws]
    show (nxMatrix n _).map _ = _
    rw [m1, ← f1]; rfl
  · intro x
    rw [m4]
    constructor
    · rintro ⟨y, h⟩
      have := (hhas _ _).1 h
      omega
    · rintro ⟨h1, h2⟩
      by_cases hx : x = 0
      · exact ⟨1, (hhas _ _).2 (by omega)⟩
      · exact ⟨0, (hhas _ _).2 (by omega)⟩
  · intro a b
    rw [m2]
    by_cases h : nxHas (nxComplete n) a b = true
    · rw [if_pos h, if_pos ((hhas a b).1 h)]
    · rw [if_neg h, if_neg (fun hc => h ((hhas a b).2 hc))]

/-- **C137.** All other arguments are rejected: more neighbours than nodes, or less than two (and not as many as nodes). -/
theorem C137_rejected (n k : Nat) (luck : Nat × Nat → Option (Nat × List Nat)) (h : n < k ∨ (k < 2 ∧ k < n) ∨ n = 0) :
    ∃ msg, wattsStrogatzGraph n k luck = .error (.exception msg) := by
  by_cases h1 : n < k
  · refine ⟨"k>n, choose smaller k or larger n", ?_⟩
    · unfold wattsStrogatzGraph nxWattsStrogatz
      rw [if_pos h1]
      rfl
  · by_cases h2 : k = n
    · have hn : n = 0 := by omega
      subst h2
      subst hn
      exact ⟨_, rfl⟩
    · have h3 : k / 2 = 0 := by omega
      refine ⟨"Graph has no nodes or edges", ?_⟩
      have hp : nxPairs n k = [] := by unfold nxPairs; rw [h3]; rfl
      have hsz : nxSize n k = 0 := by unfold nxSize; rw [if_pos (by omega)]
      unfold wattsStrogatzGraph nxWattsStrogatz
      rw [if_neg h1, if_neg h2, hsz, hp]
      rfl

theorem rewireAll_never (n : Nat) (P G : List (Nat × Nat)) : nxRewireAll n (fun _ => none) P G = .ok G := by
  induction P with
  | nil => rfl
  | cons p P ih => exact ih

theorem countP_flatMap_const {n c : Nat} {f : Nat → List (Nat × Nat)} {p : Nat × Nat → Bool} (h : ∀ j, j < n → (f j).countP p = c) :
    ((List.range n).flatMap f).countP p = n * c := by
  induction n with
  | zero => simp
  | succ n ih =>
    rw [List.range_succ, List.flatMap_append, List.countP_append, ih (fun j hj => h j (by omega))]
    simp [h n (by omega), Nat.succ_mul]

theorem countP_target {n j v : Nat} (hj : j < n) (hv : v < n) :
    ((List.range n).map (fun u => (u, (u + j) % n))).countP (fun e => decide (e.2 = v)) = 1 := by
  rw [List.countP_map]
  have h : List.countP ((fun e : Nat × Nat => decide (e.2 = v)) ∘ fun u => (u, (u + j) % n)) (List.range n) =
      (List.range n).count ((v + (n - j)) % n) := by
    rw [List.count]
    apply List.countP_congr
    intro x hx
    rw [List.mem_range] at hx
    simp only [Function.comp, decide_eq_true_eq, beq_iff_eq]
    rcases add_mod_cases hx hj with h1 | h1
    · by_cases h0 : j = 0
      · subst h0
        rw [show v + (n - 0) = v + n by omega, Nat.add_mod_right, Nat.mod_eq_of_lt hv]
        omega
      · rcases add_mod_cases hv (show n - j < n by omega) with h2 | h2 <;> omega
    · rcases add_mod_cases hv (show n - j < n by omega) with h2 | h2 <;> omega
  rw [h, List.nodup_range.count, if_pos (List.mem_range.2 (Nat.mod_lt _ (by omega)))]

/-- **C138** (documented: `k` is the number of nearest neighbours a node joins to; false for odd `k`, see `C138_odd`).  Full
claim: without rewiring (`p = 0`) each node is joined to its `k` nearest neighbours on the ring.  What holds for all
`2 ≤ k < n`: each node is joined to exactly the nodes at most `k // 2` steps away, and these are `2 * (k // 2)`, so
`k` if it is even.  Missing: odd `k`. -/
theorem C138_ring_partial (n k : Nat) (h2 : 2 ≤ k) (hk : k < n) :
    ∃ g : MG Nat Int, wattsStrogatzGraph n k (fun _ => none) = .ok (ofMG g) ∧ g.Valid ∧
      (∀ x, x ∈ g.labels ↔ x < n) ∧
      (∀ a b, between g.edges a b ≠ [] ↔ WithinRing n (k / 2) a b) ∧
      (∀ x, x < n → inCount g.edges x = 2 * (k / 2)) ∧
      (k % 2 = 0 → ∀ x, x < n → inCount g.edges x = k) := by
  have hsz : nxSize n k = n := by unfold nxSize; rw [if_neg (by omega)]
  have hws : nxWattsStrogatz n k (fun _ => none) = .ok (nxPairs n k) := by
    unfold nxWattsStrogatz
    rw [if_neg (by omega), if_neg (by omega), rewireAll_never, nxRing_eq hk]
  have hS := rewiring_start hk
  rw [nxRing_eq hk] at hS
  obtain ⟨M, m1, m2, m3, m4⟩ := nxMatrix_network (by omega) hS.once hS.range
  obtain ⟨f1, f2⟩ := fromAdjacencyMatrix_eq M
  have hhas : ∀ a b, nxHas (nxPairs n k) a b = true ↔ WithinRing n (k / 2) a b := by
    intro a b
    rw [nxHas_iff, mem_nxPairs (by omega), mem_nxPairs (by omega)]
    constructor
    · rintro (⟨ha, j, j1, j2, rfl⟩ | ⟨hb, j, j1, j2, rfl⟩)
      · exact ⟨ha, Nat.mod_lt _ (by omega), j, j1, j2, Or.inl rfl⟩
      · exact ⟨Nat.mod_lt _ (by omega), hb, j, j1, j2, Or.inr rfl⟩
    · rintro ⟨ha, hb, j, j1, j2, h | h⟩
      · exact Or.inl ⟨ha, j, j1, j2, h⟩
      · exact Or.inr ⟨hb, j, j1, j2, h⟩
  have hdeg : ∀ x, x < n → inCount (adjMG M).edges x = 2 * (k / 2) := by
    intro x hx
    rw [inCount_eq m3, hS.own x hx, nxPairs_eq (by omega), countP_flatMap_const (c := 1), Nat.mul_one]
    · omega
    · intro j hj
      exact countP_target (by omega) hx
  refine ⟨adjMG M, ?_, f2, ?_, ?_, hdeg, ?_⟩
  · unfold wattsStrogatzGraph
    rw [hsz, hws]
    show (nxMatrix n _).map _ = _
    rw [m1, ← f1]; rfl
  · intro x
    rw [m4]
    constructor
    · rintro ⟨y, h⟩
      exact ((hhas _ _).1 h).1
    · intro hx
      exact ⟨(x + 1) % n, (hhas _ _).2 ⟨hx, Nat.mod_lt _ (by omega), 1, by omega, by omega, Or.inl rfl⟩⟩
  · intro a b
    rw [m2, ← hhas]
    split
    · next h => simp [h]
    · next h => simp [h]
  · intro he x hx
    rw [hdeg x hx]; omega

/-- **C138 is false** for every odd `k` with `2 < k < n`: no node has `k` neighbours. -/
theorem C138_odd (n k : Nat) (h2 : 2 ≤ k) (hk : k < n) (ho : k % 2 = 1) :
    ∃ g : MG Nat Int, wattsStrogatzGraph n k (fun _ => none) = .ok (ofMG g) ∧ ∀ x, x < n → inCount g.edges x ≠ k := by
  obtain ⟨g, h, -, -, -, hd, -⟩ := C138_ring_partial n k h2 hk
  refine ⟨g, h, fun x hx hc => ?_⟩
  rw [hd x hx] at hc
  omega

/-! ## Examples -/

/-- Rewiring of one edge of a ring of five nodes: 0 — 1 becomes 0 — 3 after the draws 0, 4 and 3. -/
example : DrawsNodes 5 (fun p => if p = (0, 1) then some (0, [4, 3, 1, 2]) else none) ∧
    (nxWattsStrogatz 5 2 (fun p => if p = (0, 1) then some (0, [4, 3, 1, 2]) else none)) =
      .ok [(1, 2), (2, 3), (3, 4), (4, 0), (0, 3)] ∧
    (wattsStrogatzGraph 5 2 (fun p => if p = (0, 1) then some (0, [4, 3, 1, 2]) else none)).map (fun N => N.nodes.keys) =
      .ok [0, 3, 4, 1, 2] := by
  refine ⟨?_, by decide +kernel, by decide +kernel⟩
  intro p w ds h
  simp only at h
  split at h
  · cases h; decide
  · cases h

/-- Draws that never leave the loop: 0 is linked to 4, and only 4 is drawn. -/
example : wattsStrogatzGraph 5 2 (fun p => if p = (0, 1) then some (4, [4, 4]) else none) = .error .outOfFuel := by
  decide +kernel

/-- A node with all possible links is left alone: in a graph with 3 nodes nothing can be rewired. -/
example : nxWattsStrogatz 3 2 (fun _ => some (0, [1, 2])) = .ok [(0, 1), (1, 2), (2, 0)] := by decide +kernel

/-- The hypothesis of `C137_ends`. -/
example : ∀ p w ds, (fun (_ : Nat × Nat) => some (0, [1, 2, 3, 4])) p = some (w, ds) → ds ≠ [] ∧ ∀ x, x < 5 → x ∈ w :: ds := by
  intro p w ds h
  cases h
  exact ⟨by decide, by decide⟩

/-- Odd `k`: with `k = 3` each of 7 nodes has 2 neighbours. -/
example : (wattsStrogatzGraph 7 3 (fun _ => none)).map (fun N => N.nodes.keys.length) = .ok 7 := by decide +kernel

end Verif
