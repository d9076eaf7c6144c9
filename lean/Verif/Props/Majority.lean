import Verif.Proofs.Majority
import Verif.Proofs.StaticRun
import Verif.Props.Rules
import Verif.Props.Symmetry
/-! # Property C112: the majority rule on an undirected network ends in a cycle of length one or two -/

namespace Verif
open Spec MG
section
variable {L A I σ κ : Type} [DecidableEq L] [DecidableEq κ]

omit [DecidableEq L] [DecidableEq κ] in
theorem majority_binary (py38 : Bool) (pick : Nat) (c : NodeCtx L A Int I) (hb : ∀ v ∈ c.neighbourActs, v = 0 ∨ v = 1)
    (ho : c.neighbourActs.length % 2 = 1) :
    majorityRule py38 pick c = .ok (if (c.neighbourActs.length : Int) < 2 * c.neighbourActs.sum then 1 else 0) := by
  have hs := sum_binary _ hb
  have hc : ∀ l : List Int, (∀ v ∈ l, v = 0 ∨ v = 1) → l.count 0 + l.count 1 = l.length ∧ ∀ w, w ≠ 0 → w ≠ 1 → l.count w = 0 := by
    intro l
    induction l with
    | nil => intro _; exact ⟨rfl, fun _ _ _ => rfl⟩
    | cons a l ih =>
      intro h
      obtain ⟨i1, i2⟩ := ih (fun v hv => h v (List.mem_cons_of_mem _ hv))
      refine ⟨?_, fun w h0 h1 => ?_⟩
      · rcases h a (List.mem_cons_self ..) with rfl | rfl <;> simp [List.count_cons] <;> omega
      · rw [List.count_cons, i2 w h0 h1]
        rcases h a (List.mem_cons_self ..) with rfl | rfl <;> simp <;> omega
  obtain ⟨c1, c2⟩ := hc _ hb
  rw [hs]
  generalize hl : c.neighbourActs = l at *
  have base := (C31_majority_partial py38 pick c).1
  rw [hl] at base
  by_cases hlt : (l.length : Int) < 2 * (l.count 1 : Int)
  · rw [if_pos hlt]
    refine base 1 ⟨List.count_pos_iff.1 (by omega), fun w => ?_⟩ (fun w hw => ?_)
    · by_cases h0 : w = 0
      · subst h0; omega
      · by_cases h1 : w = 1
        · subst h1; exact Nat.le_refl _
        · rw [c2 w h0 h1]; omega
    · by_cases h1 : w = 1
      · exact h1
      · have := hw.2 1
        by_cases h0 : w = 0
        · subst h0; omega
        · rw [c2 w h0 h1] at this; omega
  · rw [if_neg hlt]
    refine base 0 ⟨List.count_pos_iff.1 (by omega), fun w => ?_⟩ (fun w hw => ?_)
    · by_cases h0 : w = 0
      · subst h0; exact Nat.le_refl _
      · by_cases h1 : w = 1
        · subst h1; omega
        · rw [c2 w h0 h1]; omega
    · by_cases h0 : w = 0
      · exact h0
      · have := hw.2 0
        by_cases h1 : w = 1
        · subst h1; omega
        · rw [c2 w h0 h1] at this; omega

/-- C112.  On a network whose neighbourhoods are those of an undirected graph of odd degrees, an ordinary call of `evolve`
with `majority_rule` and binary initial states returns the majority vote, under every version of Python, whatever the
random choices and with or without memoization. -/
theorem C112_run (py38 : Bool) (pick : Nat → L → Nat) (N : Net L A) (nb : L → List L) (hne : N.labels ≠ [])
    (hnb : ∀ x ∈ N.labels, specNbrs N x = some (nb x)) (hu : OddUndirected N.labels nb) (cfg : Config L A Int I σ κ) (T : Nat) (hT : 1 ≤ T)
    (h : cfg.Ordinary (fun c => majorityRule py38 (pick c.t c.node) c) T) (s : L → Int) (hs : ∀ x ∈ N.labels, s x = 0 ∨ s x = 1)
    (init : Option (Conds L Int)) (hlen : (initDict cfg init).length = N.labels.length)
    (h0 : ∀ x ∈ N.labels, (initDict cfg init).get? x = some (s x)) (r : Nat) (w : World L A σ) (hr : w.heap[r]? = some N) (fuel : Nat)
    (hfu : T ≤ fuel) : ∃ res, evolve fuel cfg init r w = .ok res ∧ ShowsOn cfg res T N.labels (votes nb s) := by
  have hsz : N.size = N.labels.length := by simp [Net.labels, Net.size, Dict.keys]
  have hpk : cfg.PackOk := by intro hc; rw [h.compression] at hc; cases hc
  have hbin := votes_binary (nb := nb) hs
  obtain ⟨res, _, e1, _, e3⟩ := evolve_pure h.rule h.pert h.top hpk hu.nodup (nb := nb)
    (fun x hx => ⟨hnb x hx, hu.closed x hx⟩) (init := init) (f := votes nb s) (by rw [hlen, hsz]) h0 (T := T) (by
      intro t _ x hx
      refine (majority_binary py38 _ _ ?_ ?_).trans ?_
      · intro v hv
        obtain ⟨y, hy, rfl⟩ := List.mem_map.1 hv
        exact hbin t y (hu.closed x hx y hy)
      · show ((nb x).map (votes nb s t)).length % 2 = 1
        rw [List.length_map]
        exact hu.odd x hx
      · show Except.ok (if ((((nb x).map (votes nb s t)).length : Nat) : Int) < 2 * ((nb x).map (votes nb s t)).sum then (1 : Int) else 0) = _
        rw [List.length_map]
        rfl) (by
      intro _ t t' x x' _ _ hx hx' heq
      have hp : ((nb x).map (votes nb s t)).Perm ((nb x').map (votes nb s t')) := by
        unfold effectiveKey at heq
        rw [h.key] at heq
        cases hro : N.rotation with
        | none =>
          rw [hro] at heq
          refine (counts_eq_iff_perm _ _).1 ?_
          simpa only [toKey, MemoKey.eq, plainCtx, runCtx] using heq
        | some rs =>
          rw [hro] at heq
          have : (nb x).map (votes nb s t) = (nb x').map (votes nb s t') := by
            simpa [toKey, MemoKey.eq, plainCtx, runCtx] using heq
          rw [this]
      have hl := hp.length_eq
      rw [List.length_map, List.length_map] at hl
      show (if _ then _ else _) = (if _ then _ else _)
      rw [hl, int_sum_perm hp]) hT h.input hr hfu
  exact ⟨res, e1, shows_on h.persist h.compression hne hlen h0 e3⟩

/-- C112.  The states of such a call repeat with period two: the activities at `t + 2` are those at `t`, for every node,
as soon as `2 t` reaches the number of pairs of neighbours less the number of nodes. -/
theorem C112_period_two (py38 : Bool) (pick : Nat → L → Nat) (N : Net L A) (nb : L → List L) (hne : N.labels ≠ [])
    (hnb : ∀ x ∈ N.labels, specNbrs N x = some (nb x)) (hu : OddUndirected N.labels nb) (cfg : Config L A Int I σ κ) (T : Nat) (hT : 1 ≤ T)
    (h : cfg.Ordinary (fun c => majorityRule py38 (pick c.t c.node) c) T) (s : L → Int) (hs : ∀ x ∈ N.labels, s x = 0 ∨ s x = 1)
    (init : Option (Conds L Int)) (hlen : (initDict cfg init).length = N.labels.length)
    (h0 : ∀ x ∈ N.labels, (initDict cfg init).get? x = some (s x)) (r : Nat) (w : World L A σ) (hr : w.heap[r]? = some N) (fuel : Nat)
    (hfu : T ≤ fuel) : ∃ res, evolve fuel cfg init r w = .ok res ∧ res.states.length = T ∧
      ∀ t, t + 2 < T → pairsOf N.labels nb ≤ N.labels.length + 2 * t →
        ∃ d d', res.acts cfg t = some d ∧ res.acts cfg (t + 2) = some d' ∧ ∀ x ∈ N.labels, ∃ v, d.get? x = some v ∧ d'.get? x = some v := by
  obtain ⟨res, e1, e2, e3⟩ := C112_run py38 pick N nb hne hnb hu cfg T hT h s hs init hlen h0 r w hr fuel hfu
  refine ⟨res, e1, e2, fun t ht hp => ?_⟩
  obtain ⟨d, d1, _, d3⟩ := e3 t (by omega)
  obtain ⟨d', d1', _, d3'⟩ := e3 (t + 2) ht
  refine ⟨d, d', d1, d1', fun x hx => ⟨_, d3 x hx, ?_⟩⟩
  rw [d3' x hx, votes_period hu hs t hp x hx]

end

section
variable {I σ κ : Type} [DecidableEq κ]

/-- The neighbourhoods of `cellular_automaton(n, r)` are those of an undirected graph of degree `2r + 1`. -/
theorem ring_undirected {n r : Nat} (hn : 3 ≤ n) (hr : 2 * r + 1 ≤ n) {ls : List Nat} (hl : ls.Perm (List.range n)) :
    OddUndirected ls (fun w => (List.range (2 * r + 1)).map (fun (k : Nat) => ringCell n w ((k : Int) - (r : Int)))) := by
  have hm : ∀ x, x ∈ ls ↔ x < n := fun x => by rw [hl.mem_iff, List.mem_range]
  have hmem : ∀ x y, x < n → y < n →
      (y ∈ (List.range (2 * r + 1)).map (fun (k : Nat) => ringCell n x ((k : Int) - (r : Int))) →
        x ∈ (List.range (2 * r + 1)).map (fun (k : Nat) => ringCell n y ((k : Int) - (r : Int)))) := by
    intro x y hx hy h
    obtain ⟨k, hk, rfl⟩ := List.mem_map.1 h
    rw [List.mem_range] at hk
    refine List.mem_map.2 ⟨2 * r - k, List.mem_range.2 (by omega), ?_⟩
    rw [ringCell_ringCell (by omega)]
    have : (k : Int) - (r : Int) + (((2 * r - k : Nat) : Int) - (r : Int)) = 0 := by omega
    rw [this]
    unfold ringCell
    rw [Int.add_zero, Int.emod_eq_of_lt (by omega) (by omega)]
    rfl
  refine ⟨hl.nodup_iff.2 List.nodup_range, ?_, ?_, ?_, ?_⟩
  · intro x _ y hy
    obtain ⟨k, _, rfl⟩ := List.mem_map.1 hy
    exact (hm _).2 (ringCell_lt (by omega) _)
  · intro x _
    refine List.pairwise_map.2 ?_
    refine (List.nodup_range (n := 2 * r + 1)).imp_of_mem ?_
    intro a b ha hb hab he
    rw [List.mem_range] at ha hb
    unfold ringCell at he
    have p1 := Int.emod_nonneg ((x : Int) + ((a : Int) - r)) (by omega : (n : Int) ≠ 0)
    have p2 := Int.emod_nonneg ((x : Int) + ((b : Int) - r)) (by omega : (n : Int) ≠ 0)
    have he' : ((x : Int) + ((a : Int) - r)) % (n : Int) = ((x : Int) + ((b : Int) - r)) % (n : Int) := by omega
    have hd := Int.emod_emod_of_dvd
    have := (Int.emod_eq_emod_iff_emod_sub_eq_zero).1 he'
    have h3 := Int.dvd_of_emod_eq_zero this
    obtain ⟨q, hq⟩ := h3
    have hq' : (a : Int) - (b : Int) = (n : Int) * q := by omega
    rcases Int.lt_trichotomy q 0 with h | h | h
    · have : (n : Int) * q ≤ (n : Int) * (-1) := Int.mul_le_mul_of_nonneg_left (by omega) (by omega)
      omega
    · subst h; omega
    · have : (n : Int) * 1 ≤ (n : Int) * q := Int.mul_le_mul_of_nonneg_left (by omega) (by omega)
      omega
  · intro x hx y hy
    exact ⟨hmem x y ((hm x).1 hx) ((hm y).1 hy), hmem y x ((hm y).1 hy) ((hm x).1 hx)⟩
  · intro x _
    rw [List.length_map, List.length_range]
    omega

/-- C112 for `cellular_automaton(n, r)`: the majority of `2r + 1` cells repeats with period two from timestep `n r` on. -/
theorem C112_ring (py38 : Bool) (pick : Nat → Nat → Nat) (n q : Nat) (hn : 3 ≤ n) (hq : 2 * q + 1 ≤ n) (N : Net Nat Int)
    (hN : cellularAutomaton n q true = .ok N) (cfg : Config Nat Int Int I σ κ) (T : Nat) (hT : 1 ≤ T)
    (h : cfg.Ordinary (fun c => majorityRule py38 (pick c.t c.node) c) T) (s : Nat → Int) (hs : ∀ x, x < n → s x = 0 ∨ s x = 1)
    (init : Option (Conds Nat Int)) (hlen : (initDict cfg init).length = n)
    (h0 : ∀ x, x < n → (initDict cfg init).get? x = some (s x)) (r : Nat) (w : World Nat Int σ) (hr : w.heap[r]? = some N) (fuel : Nat)
    (hfu : T ≤ fuel) : ∃ res, evolve fuel cfg init r w = .ok res ∧ res.states.length = T ∧
      ∀ t, t + 2 < T → n * q ≤ t →
        ∃ d d', res.acts cfg t = some d ∧ res.acts cfg (t + 2) = some d' ∧ ∀ x, x < n → ∃ v, d.get? x = some v ∧ d'.get? x = some v := by
  obtain ⟨N', rs, e1, e2, e3, e4⟩ := C43_left_to_right n q hn hq
  rw [hN] at e1
  cases e1
  have hm : ∀ x, x ∈ N.labels ↔ x < n := fun x => by rw [e3.mem_iff, List.mem_range]
  have hl : N.labels.length = n := by rw [e3.length_eq, List.length_range]
  obtain ⟨res, a1, a2, a3⟩ := C112_period_two py38 pick N _ (by intro hc; rw [hc] at hl; simp at hl; omega)
    (fun x hx => by unfold specNbrs; rw [e2]; exact e4 x ((hm x).1 hx)) (ring_undirected hn hq e3) cfg T hT h s
    (fun x hx => hs x ((hm x).1 hx)) init (by rw [hlen, hl]) (fun x hx => h0 x ((hm x).1 hx)) r w hr fuel hfu
  refine ⟨res, a1, a2, fun t ht htq => ?_⟩
  obtain ⟨d, d', b1, b2, b3⟩ := a3 t ht (by
    have : ∀ (ls : List Nat), pairsOf ls (fun w => (List.range (2 * q + 1)).map (fun (k : Nat) => ringCell n w ((k : Int) - (q : Int)))) = ls.length * (2 * q + 1) := by
      intro ls
      induction ls with
      | nil => simp [pairsOf]
      | cons x ls ih =>
        unfold pairsOf at ih ⊢
        rw [List.map_cons, List.sum_cons, ih]
        simp only [List.length_map, List.length_range, List.length_cons, Nat.succ_mul]
        omega
    rw [this, hl]
    have e : n * (2 * q + 1) = 2 * (n * q) + n := by grind
    omega)
  exact ⟨d, d', b1, b2, fun x hx => b3 x ((hm x).2 hx)⟩

/-- C112 for `from_adjacency_matrix` of a symmetric matrix whose rows have odd numbers of non-zero entries. -/
theorem C112_matrix (py38 : Bool) (pick : Nat → Nat → Nat) (n : Nat) (hn : 1 ≤ n) (M : List (List Int))
    (hM : M.length = n ∧ ∀ row ∈ M, row.length = n) (hsym : Symmetric M)
    (hodd : ∀ x, x < n → (rowOf M n x).length % 2 = 1) (cfg : Config Nat Int Int I σ κ) (T : Nat) (hT : 1 ≤ T)
    (h : cfg.Ordinary (fun c => majorityRule py38 (pick c.t c.node) c) T) (s : Nat → Int) (hs : ∀ x, x < n → s x = 0 ∨ s x = 1)
    (init : Option (Conds Nat Int)) (hlen : (initDict cfg init).length = n)
    (h0 : ∀ x, x < n → (initDict cfg init).get? x = some (s x)) (r : Nat) (w : World Nat Int σ)
    (hr : w.heap[r]? = some (fromAdjacencyMatrix M)) (fuel : Nat) (hfu : T ≤ fuel) :
    ∃ res, evolve fuel cfg init r w = .ok res ∧ ShowsOn cfg res T (fromAdjacencyMatrix M).labels (votes (rowOf M n) s) ∧
      (fromAdjacencyMatrix M).labels.Perm (List.range n) ∧
      ∀ t, t + 2 < T → pairsOf (List.range n) (rowOf M n) ≤ n + 2 * t →
        ∃ d d', res.acts cfg t = some d ∧ res.acts cfg (t + 2) = some d' ∧ ∀ x, x < n → ∃ v, d.get? x = some v ∧ d'.get? x = some v := by
  obtain ⟨hof, hv⟩ := fromAdjacencyMatrix_eq M
  have hsq : Square M n := hM
  have hent : ∀ x y, x < n → y < n → ∃ v, entry M x y = some v := by
    intro x y hx hy
    have h1 : x < M.length := by rw [hM.1]; exact hx
    have h2 : y < (M[x]).length := by rw [hM.2 _ (List.getElem_mem h1)]; exact hy
    exact ⟨M[x][y], by simp [entry, h1, h2]⟩
  have hrow : ∀ x y, x < n → (y ∈ rowOf M n x ↔ ∃ v, v ≠ 0 ∧ entry M x y = some v) := by
    intro x y hx
    unfold rowOf
    rw [List.mem_filter, List.mem_range, decide_eq_true_eq]
    show y < n ∧ entry M x y ≠ some 0 ↔ _
    constructor
    · rintro ⟨hy, hne⟩
      obtain ⟨v, hv⟩ := hent x y hx hy
      exact ⟨v, fun hc => hne (by rw [hv, hc]), hv⟩
    · rintro ⟨v, hne, hv⟩
      exact ⟨(entry_lt hsq hv).2, fun hc => by rw [hv] at hc; exact hne (Option.some.inj hc)⟩
  have hsrc : ∀ x, x < n → sources (adjMG M).edges x = rowOf M n x := by
    intro x hx
    have p1 := sources_adjMG_sorted M x
    have p2 : (rowOf M n x).Pairwise (· < ·) := List.pairwise_lt_range.filter _
    refine List.Perm.eq_of_pairwise (le := (· < ·)) (fun a b _ _ h1 h2 => by omega) p1 p2 ?_
    refine (List.perm_ext_iff_of_nodup (p1.imp (fun h => by omega)) (p2.imp (fun h => by omega))).2 (fun y => ?_)
    rw [mem_sources_adjMG, hrow x y hx]
    have : entry M y x = entry M x y := hsym y x
    rw [this]
  have hlab : (fromAdjacencyMatrix M).labels = (adjMG M).labels := by rw [hof]; exact labels_ofMG _
  have hmem : ∀ x, x ∈ (adjMG M).labels ↔ x < n := by
    intro x
    rw [mem_adjMG_labels]
    constructor
    · rintro ⟨y, v, _, h | h⟩
      · exact (entry_lt hsq h).1
      · exact (entry_lt hsq h).2
    · intro hx
      have := hodd x hx
      obtain ⟨y, hy⟩ := List.exists_mem_of_length_pos (l := rowOf M n x) (by omega)
      obtain ⟨v, h1, h2⟩ := (hrow x y hx).1 hy
      exact ⟨y, v, h1, Or.inl h2⟩
  have hperm : (fromAdjacencyMatrix M).labels.Perm (List.range n) := by
    rw [hlab]; exact perm_range_of_mem hv.nodup hmem
  have hm : ∀ x, x ∈ (fromAdjacencyMatrix M).labels ↔ x < n := fun x => by rw [hlab]; exact hmem x
  have hl : (fromAdjacencyMatrix M).labels.length = n := by rw [hperm.length_eq, List.length_range]
  have hne : (fromAdjacencyMatrix M).labels ≠ [] := by intro hc; rw [hc] at hl; simp at hl; omega
  have hnb : ∀ x ∈ (fromAdjacencyMatrix M).labels, specNbrs (fromAdjacencyMatrix M) x = some (rowOf M n x) := by
    intro x hx
    have hx' : x ∈ (adjMG M).labels := by rw [← hlab]; exact hx
    rw [← hsrc x ((hm x).1 hx), hof]
    unfold specNbrs
    have : (ofMG (adjMG M)).rotation = none := adjMG_rot M
    rw [this]
    simp only
    obtain ⟨a, _, h2⟩ := get?_ofMG_of_mem hx'
    rw [h2]
    simp only [Option.map_some, nodeOf, keys_incomingOf]
  have hu : OddUndirected (fromAdjacencyMatrix M).labels (rowOf M n) := by
    refine ⟨hperm.nodup_iff.2 List.nodup_range, ?_, ?_, ?_, ?_⟩
    · intro x _ y hy
      exact (hm y).2 (List.mem_range.1 (List.mem_filter.1 hy).1)
    · intro x _
      exact List.nodup_range.filter _
    · intro x hx y hy
      rw [hrow x y ((hm x).1 hx), hrow y x ((hm y).1 hy)]
      have : entry M y x = entry M x y := hsym y x
      rw [this]
    · intro x hx
      exact hodd x ((hm x).1 hx)
  have hs' : ∀ x ∈ (fromAdjacencyMatrix M).labels, s x = 0 ∨ s x = 1 := fun x hx => hs x ((hm x).1 hx)
  obtain ⟨res, e1, e2⟩ := C112_run py38 pick _ _ hne hnb hu cfg T hT h s hs' init (by rw [hlen, hl])
    (fun x hx => h0 x ((hm x).1 hx)) r w hr fuel hfu
  refine ⟨res, e1, e2, hperm, fun t ht hp => ?_⟩
  obtain ⟨d, d1, _, d3⟩ := e2.2 t (by omega)
  obtain ⟨d', d1', _, d3'⟩ := e2.2 (t + 2) ht
  refine ⟨d, d', d1, d1', fun x hx => ⟨_, d3 x ((hm x).2 hx), ?_⟩⟩
  have hpp : pairsOf (fromAdjacencyMatrix M).labels (rowOf M n) = pairsOf (List.range n) (rowOf M n) :=
    (hperm.map _).sum_nat
  rw [d3' x ((hm x).2 hx), votes_period hu hs' t (by rw [hpp, hl]; exact hp) x ((hm x).2 hx)]

end

/-- The state that moves around a cycle of three nodes. -/
def Ex.turning (t x : Nat) : Int := if t % 3 = x then 1 else 0

/-- A cycle of three nodes, each seeing the one before it. -/
def Ex.oneWay : MG Nat Int := ⟨[(0, []), (1, []), (2, [])], [⟨2, 0, []⟩, ⟨0, 1, []⟩, ⟨1, 2, []⟩], none⟩

/-- A cycle of three nodes, each seeing both others, the one before it first. -/
def Ex.bothWays : MG Nat Int :=
  ⟨[(0, []), (1, []), (2, [])], [⟨2, 0, []⟩, ⟨0, 1, []⟩, ⟨1, 2, []⟩, ⟨1, 0, []⟩, ⟨2, 1, []⟩, ⟨0, 2, []⟩], none⟩

/-- The two conditions on the neighbourhoods are needed.  On a directed cycle of three nodes (degrees odd, not symmetric)
and, from Python 3.8 on, on an undirected one (symmetric, degrees even, so that there are ties) the states of every call
have period three: the state `1, 0, 0` turns for ever. -/
theorem C112_conditions {σ κ I : Type} [DecidableEq κ] (pick : Nat → Nat → Nat) (g : MG Nat Int) (hg : g = Ex.oneWay ∨ g = Ex.bothWays)
    (cfg : Config Nat Int Int I σ κ) (T : Nat) (hT : 1 ≤ T) (hm : cfg.memoize = false)
    (h : cfg.Ordinary (fun c => majorityRule true (pick c.t c.node) c) T)
    (init : Option (Conds Nat Int)) (hi : initDict cfg init = [(0, 1), (1, 0), (2, 0)]) (r : Nat) (w : World Nat Int σ)
    (hr : w.heap[r]? = some (ofMG g)) (fuel : Nat) (hfu : T ≤ fuel) :
    ∃ res, evolve fuel cfg init r w = .ok res ∧ ShowsOn cfg res T [0, 1, 2] Ex.turning := by
  have hlab : g.labels = [0, 1, 2] := by rcases hg with rfl | rfl <;> rfl
  have hv : g.Valid := by rcases hg with rfl | rfl <;> exact ⟨by decide, by decide⟩
  have hrot : g.rot = none := by rcases hg with rfl | rfl <;> rfl
  have key := mg_run h hT hv hrot (by rw [hlab]; simp) (init := init) (by rw [hi, hlab]; rfl) (f := Ex.turning) (by
      rw [hi, hlab]; decide) (by
      intro t _ x hx c _ _ _ _ _ hc _
      rw [hlab] at hx
      have hmod : t % 3 = 0 ∨ t % 3 = 1 ∨ t % 3 = 2 := by omega
      simp only [List.mem_cons, List.not_mem_nil, or_false] at hx
      have hnext : (t + 1) % 3 = (t % 3 + 1) % 3 := by omega
      have hturn : Ex.turning t = Ex.turning (t % 3) := by
        funext y; unfold Ex.turning; rw [Nat.mod_mod]
      have hturn1 : Ex.turning (t + 1) = Ex.turning (t % 3 + 1) := by
        funext y; unfold Ex.turning; rw [hnext]
      have hk : statMode true ((sources g.edges x).map (Ex.turning t)) = some (Ex.turning (t + 1) x) := by
        rw [hturn, hturn1]
        rcases hg with rfl | rfl <;> rcases hx with rfl | rfl | rfl <;> rcases hmod with e | e | e <;> rw [e] <;> decide +kernel
      unfold majorityRule
      rw [hc, hk])
    (by intro hc; rw [hm] at hc; cases hc) hr hfu
  rwa [hlab] at key

/-- The hypotheses are met: four states of the cycle, each node of which sees both others. -/
example : ∃ res, evolve 4 ({ Ex.base with rule := some (pureRule (fun c => majorityRule true 0 c)), input := .timesteps 4 })
    (some (.list [1, 0, 0])) 0 ⟨[ofMG Ex.bothWays], []⟩ = .ok res ∧
    ShowsOn { Ex.base with rule := some (pureRule (fun c => majorityRule true 0 c)), input := .timesteps 4 } res 4 [0, 1, 2] Ex.turning :=
  C112_conditions (fun _ _ => 0) Ex.bothWays (Or.inr rfl)
    { Ex.base with rule := some (pureRule (fun c => majorityRule true 0 c)), input := .timesteps 4 } 4 (by omega) rfl ⟨rfl, rfl, rfl, rfl, rfl, rfl, rfl⟩
    (some (.list [1, 0, 0])) rfl 0 ⟨[ofMG Ex.bothWays], []⟩ rfl 4 (by omega)

/-- The hypotheses of the theorems are met: five cells that see three, memoized, before Python 3.8 … -/
example : ∃ N res, cellularAutomaton 5 1 true = .ok N ∧
    evolve 9 ({ Ex.base with rule := some (pureRule (fun c => majorityRule false (c.t + c.node) c)), input := .timesteps 9, memoize := true })
      (some (.list [0, 1, 0, 1, 1])) 0 ⟨[N], []⟩ = .ok res ∧ res.states.length = 9 := by
  obtain ⟨N, _, hN, _⟩ := C43_left_to_right 5 1 (by omega) (by omega)
  obtain ⟨res, h1, h2, _⟩ := C112_ring false (fun t x => t + x) 5 1 (by omega) (by omega) N hN
    { Ex.base with rule := some (pureRule (fun c => majorityRule false (c.t + c.node) c)), input := .timesteps 9, memoize := true } 9 (by omega)
    ⟨rfl, rfl, rfl, rfl, rfl, rfl, rfl⟩ (fun x => if x = 0 ∨ x = 2 then 0 else 1) (by decide) (some (.list [0, 1, 0, 1, 1])) rfl (by decide)
    0 ⟨[N], []⟩ rfl 9 (by omega)
  exact ⟨N, res, hN, h1, h2⟩

/-- … and four nodes that see each other. -/
example : ∃ res, evolve 8 ({ Ex.base with rule := some (pureRule (fun c => majorityRule true 0 c)), input := .timesteps 8 })
    (some (.list [1, 1, 0, 0])) 0 ⟨[fromAdjacencyMatrix [[0, 1, 1, 1], [1, 0, 1, 1], [1, 1, 0, 1], [1, 1, 1, 0]]], []⟩ = .ok res := by
  obtain ⟨res, h1, _⟩ := C112_matrix true (fun _ _ => 0) 4 (by omega) [[0, 1, 1, 1], [1, 0, 1, 1], [1, 1, 0, 1], [1, 1, 1, 0]]
    (by decide) (by
      intro i j
      match i, j with
      | 0, 0 | 0, 1 | 0, 2 | 0, 3 | 1, 0 | 1, 1 | 1, 2 | 1, 3 | 2, 0 | 2, 1 | 2, 2 | 2, 3 | 3, 0 | 3, 1 | 3, 2 | 3, 3 => rfl
      | i + 4, 0 | i + 4, 1 | i + 4, 2 | i + 4, 3 | 0, i + 4 | 1, i + 4 | 2, i + 4 | 3, i + 4 | i + 4, j + 4 => simp)
    (by decide) { Ex.base with rule := some (pureRule (fun c => majorityRule true 0 c)), input := .timesteps 8 } 8 (by omega)
    ⟨rfl, rfl, rfl, rfl, rfl, rfl, rfl⟩ (fun x => if x < 2 then 1 else 0) (by decide) (some (.list [1, 1, 0, 0])) rfl (by decide)
    0 ⟨[fromAdjacencyMatrix [[0, 1, 1, 1], [1, 0, 1, 1], [1, 1, 0, 1], [1, 1, 1, 0]]], []⟩ rfl 8 (by omega)
  exact ⟨res, h1⟩

/-- That vote has period two and not one: everybody changes sides at every timestep. -/
example : (List.range 4).map (votes (rowOf [[0, 1, 1, 1], [1, 0, 1, 1], [1, 1, 0, 1], [1, 1, 1, 0]] 4) (fun x => if x < 2 then 1 else 0) 1) = [0, 0, 1, 1] ∧
    (List.range 4).map (votes (rowOf [[0, 1, 1, 1], [1, 0, 1, 1], [1, 1, 0, 1], [1, 1, 1, 0]] 4) (fun x => if x < 2 then 1 else 0) 2) = [1, 1, 0, 0] := by
  decide +kernel

/-- The turning state does not have period two. -/
example : ∀ t, Ex.turning (t + 2) (t % 3) ≠ Ex.turning t (t % 3) := by
  intro t
  unfold Ex.turning
  rw [if_pos rfl, if_neg (by omega)]
  decide

end Verif
