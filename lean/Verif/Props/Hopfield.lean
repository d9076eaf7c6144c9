import Verif.Proofs.Hopfield
import Verif.Proofs.CARun
import Verif.Proofs.Ring
import Verif.Proofs.Families
import Verif.Props.Async
import Verif.Props.Evolution
/-! # Properties C59, C60, C61: Hopfield nets -/

namespace Verif
open Spec MG

/-! ## C59 -/

theorem entry_matOf (n : Nat) (g : Nat → Nat → Int) (i j : Nat) :
    entry (matOf n g) i j = if i < n ∧ j < n then some (g i j) else none := by
  unfold entry matOf
  by_cases hi : i < n
  · by_cases hj : j < n <;> simp [hi, hj]
  · simp [hi]

theorem square_matOf (n : Nat) (g : Nat → Nat → Int) : Square (matOf n g) n := by
  refine ⟨by simp [matOf], ?_⟩
  intro r hr
  simp only [matOf, List.mem_map] at hr
  obtain ⟨i, _, rfl⟩ := hr
  simp

theorem prodAt_comm (p : List Int) (i j : Nat) : prodAt p i j = prodAt p j i := by
  unfold prodAt
  cases p[i]? <;> cases p[j]? <;> simp [Int.mul_comm]

theorem hebb_symm (P : List (List Int)) (i j : Nat) : hebb P i j = hebb P j i := by
  unfold hebb
  by_cases h : i = j
  · subst h; rfl
  · rw [if_neg h, if_neg (fun e => h e.symm)]
    congr 1
    exact List.map_congr_left (fun p _ => prodAt_comm p i j)

theorem hebbTrain_eq {p : List Int} {P : List (List Int)} (h : ∀ q ∈ p :: P, q.length ≤ p.length) :
    hebbTrain (p :: P) = .ok (matOf p.length (hebb (p :: P))) := by
  unfold hebbTrain
  simp only
  rw [matOf_zero, hebb_fold _ h _ (fun _ => rfl)]
  congr 1
  exact matOf_congr (fun i j _ _ => by omega)

/-- C59.  For every list of patterns `P`, of whatever lengths: if the first pattern is the longest, `train` gives the
square matrix of its length with `Σ p[i]*p[j]` over the patterns that have both units, for `i ≠ j`, and 0 on the
diagonal, and that matrix is symmetric; if some pattern is longer than the first, or there is none, `train` raises
`IndexError`. -/
theorem C59_hebb (P : List (List Int)) :
    (∀ n, (P.head?).map List.length = some n → (∀ p ∈ P, p.length ≤ n) →
      ∃ M, hebbTrain P = .ok M ∧ M.length = n ∧ (∀ r ∈ M, r.length = n) ∧
        (∀ i j, i < n → j < n → entry M i j = some (hebb P i j)) ∧ ∀ i j, entry M i j = entry M j i) ∧
    (∀ n, (P.head?).map List.length = some n → (∃ p ∈ P, n < p.length) → hebbTrain P = .error .indexError) ∧
    (P = [] → hebbTrain P = .error .indexError) := by
  refine ⟨?_, ?_, by rintro rfl; rfl⟩
  · intro n hn hP
    cases P with
    | nil => cases hn
    | cons p P =>
      simp only [List.head?_cons, Option.map_some, Option.some.injEq] at hn
      subst hn
      obtain ⟨h1, h2⟩ := square_matOf p.length (hebb (p :: P))
      refine ⟨_, hebbTrain_eq hP, h1, h2, ?_, ?_⟩
      · intro i j hi hj; rw [entry_matOf, if_pos ⟨hi, hj⟩]
      · intro i j
        rw [entry_matOf, entry_matOf, hebb_symm]
        simp only [And.comm]
  · intro n hn hP
    cases P with
    | nil => cases hn
    | cons p P =>
      simp only [List.head?_cons, Option.map_some, Option.some.injEq] at hn
      subst hn
      unfold hebbTrain
      simp only
      rw [matOf_zero]
      exact hebb_fold_error _ hP _

/-- For patterns of the same length, as `HopfieldNet` expects them, the entry is the sum over all patterns. -/
theorem C59_same_length (n : Nat) (P : List (List Int)) (h0 : P ≠ []) (hP : ∀ p ∈ P, p.length = n) :
    ∃ M, hebbTrain P = .ok M ∧ M.length = n ∧ (∀ r ∈ M, r.length = n) ∧
      ∀ i j, i < n → j < n → entry M i j =
        some (if i = j then 0 else (P.map (fun p => p.getD i 0 * p.getD j 0)).sum) := by
  obtain ⟨q, P', rfl⟩ := List.exists_cons_of_ne_nil h0
  obtain ⟨M, h1, h2, h3, h4, _⟩ := (C59_hebb (q :: P')).1 n (by simp [hP q (by simp)])
    (fun p hp => by rw [hP p hp]; exact Nat.le_refl _)
  refine ⟨M, h1, h2, h3, ?_⟩
  intro i j hi hj
  rw [h4 i j hi hj]
  unfold hebb
  congr 1
  by_cases hij : i = j
  · simp [hij]
  · rw [if_neg hij, if_neg hij]
    congr 1
    refine List.map_congr_left (fun p hp => ?_)
    have := hP p hp
    unfold prodAt
    simp [List.getElem?_eq_getElem (show i < p.length by omega), List.getElem?_eq_getElem (show j < p.length by omega),
      List.getD_eq_getElem?_getD]

example : hebbTrain [[1, -1, 1], [1, 1, -1]] = .ok [[0, 0, 0], [0, 0, -2], [0, -2, 0]] := by decide
example : hebbTrain [[1, -1, 1], [1, 1]] = .ok [[0, 0, 1], [0, 0, -1], [1, -1, 0]] := by decide
example : hebbTrain [[1, -1], [1, 1, 1]] = .error .indexError := by decide

/-! ## C60 -/

section
variable {I τ κ : Type} [DecidableEq κ]

/-- The wrapped rule is stateless. -/
theorem hopfieldActivityRule_eq (sh : Nat → Nat → List Nat) :
    (hopfieldActivityRule sh : NodeCtx Nat Int Int I → Async Nat × τ → _) = asyncRule sh true (pureRule hopfieldRule) := by
  unfold hopfieldActivityRule
  congr 1
  funext c u
  unfold pureRule
  cases hopfieldRule c <;> rfl

theorem foldlM_sum {α : Type} (F : α → Except Err Int) (g : α → Int) (l : List α) (h : ∀ y ∈ l, F y = .ok (g y)) (a : Int) :
    l.foldlM (fun V y => (F y).map (fun v => V + v)) a = .ok (a + (l.map g).sum) := by
  induction l generalizing a with
  | nil => simp [pure, Except.pure]
  | cons y l ih =>
    rw [List.foldlM_cons, h y (by simp)]
    show l.foldlM (fun V y => (F y).map (fun v => V + v)) (a + g y) = _
    rw [ih (fun z hz => h z (by simp [hz]))]
    simp [Int.add_assoc]

theorem sum_filter_zero (l : List Nat) (p : Nat → Bool) (g : Nat → Int) (h : ∀ y ∈ l, p y = false → g y = 0) :
    ((l.filter p).map g).sum = (l.map g).sum := by
  induction l with
  | nil => rfl
  | cons y l ih =>
    have ih' := ih (fun z hz => h z (by simp [hz]))
    by_cases hp : p y = true
    · simp [hp, ih']
    · simp only [Bool.not_eq_true] at hp
      simp [hp, ih', h y (by simp) hp]

theorem perm_sum {l l' : List Int} (h : l.Perm l') : l.sum = l'.sum := by
  induction h with
  | nil => rfl
  | cons x _ ih => simp [ih]
  | swap x y l => simp only [List.sum_cons]; omega
  | trans _ _ ih1 ih2 => exact ih1.trans ih2

/-- The neighbours in the network of a symmetric matrix, and their weights. -/
theorem adj_context {n : Nat} {W : Nat → Nat → Int} {N : Net Nat Int} (hN : N = fromAdjacencyMatrix (matOf n W)) {x : Nat}
    (hx : x ∈ N.labels) :
    specNbrs N x = some (sources (adjMG (matOf n W)).edges x) ∧
    ((N.nodes.get? x).map (fun nd => nd.incoming)).getD [] = incomingOf (adjMG (matOf n W)).edges x ∧
    (sources (adjMG (matOf n W)).edges x).Perm ((List.range n).filter (fun y => decide (x < n ∧ W y x ≠ 0))) ∧
    ∀ y ∈ sources (adjMG (matOf n W)).edges x, (incomingOf (adjMG (matOf n W)).edges x).get? y = some [[("weight", W y x)]] := by
  obtain ⟨he, hv⟩ := fromAdjacencyMatrix_eq (matOf n W)
  rw [he] at hN
  subst hN
  rw [labels_ofMG] at hx
  obtain ⟨a, _, hget⟩ := get?_ofMG_of_mem hx
  have hrot : (ofMG (adjMG (matOf n W))).rotation = none := adjMG_rot _
  refine ⟨?_, ?_, ?_, ?_⟩
  · unfold specNbrs
    rw [hrot]
    simp only [hget, Option.map_some, nodeOf, keys_incomingOf]
  · simp [hget, nodeOf]
  · refine (List.perm_ext_iff_of_nodup (nodup_sources _ _) (List.nodup_range.filter _)).2 (fun y => ?_)
    rw [mem_sources_adjMG, List.mem_filter, List.mem_range]
    simp only [entry_matOf, decide_eq_true_eq]
    constructor
    · rintro ⟨v, hv, h⟩
      split at h
      · rename_i h'
        cases h
        exact ⟨h'.1, h'.2, hv⟩
      · cases h
    · rintro ⟨h1, h2, h3⟩
      exact ⟨_, h3, by rw [if_pos ⟨h1, h2⟩]⟩
  · intro y hy
    rw [get?_incomingOf, if_pos hy, between_adjMG]
    obtain ⟨v, hv, h⟩ := mem_sources_adjMG.1 hy
    rw [entry_matOf] at h
    split at h
    · rename_i h'
      cases h
      rw [entry_matOf, if_pos h']
      simp [hv]
    · cases h

/-- The rule of the net on a state `s`: the sign of the field. -/
theorem hopfieldRule_eq {n : Nat} {W : Nat → Nat → Int} (hsym : ∀ i j, i < n → j < n → W i j = W j i) {N : Net Nat Int}
    (hN : N = fromAdjacencyMatrix (matOf n W)) {x : Nat} (hxn : x < n) (hx : x ∈ N.labels) (s : Nat → Int)
    (c : NodeCtx Nat Int Int I) (h1 : c.neighbours = sources (adjMG (matOf n W)).edges x)
    (h2 : c.connections = ((N.nodes.get? x).map (fun nd => nd.incoming)).getD [])
    (h3 : ∀ y ∈ c.neighbours, c.activities.get? y = some (s y)) :
    hopfieldRule c = .ok (if field n W s x ≥ 0 then 1 else -1) := by
  obtain ⟨_, e2, e3, e4⟩ := adj_context hN hx
  have hterm : ∀ y ∈ c.neighbours, hopfieldTerm c y = .ok (W y x * s y) := by
    intro y hy
    have hy' := hy
    rw [h1] at hy'
    unfold hopfieldTerm
    have g1 : c.connections.get y = .ok [[("weight", W y x)]] := by
      rw [Dict.get_eq_ok_iff, h2, e2]; exact e4 y hy'
    have g2 : c.activities.get y = .ok (s y) := Dict.get_eq_ok_iff.2 (h3 y hy)
    have g3 : Dict.get ([("weight", W y x)] : Attr Int) "weight" = .ok (W y x) := by
      rw [Dict.get_eq_ok_iff]; simp [Dict.get?]
    simp only [g1, g2, g3]
  have hsum : hopfieldSum c = .ok (field n W s x) := by
    unfold hopfieldSum
    rw [foldlM_sum _ _ _ hterm, h1, Int.zero_add]
    congr 1
    rw [perm_sum (e3.map _), sum_filter_zero, isum_range]
    · unfold field
      refine isum_congr (fun j hj => ?_)
      rw [hsym x j hxn hj]
    · intro y _ hy
      simp only [hxn, true_and, decide_eq_false_iff_not, Decidable.not_not] at hy
      rw [hy, Int.zero_mul]
  unfold hopfieldRule
  rw [hsum]; rfl

/-- The node that the net updates at timestep `t + 1`: the one at position `t mod n` of the `t`-th shuffle. -/
def hopfieldPick (sh : Nat → Nat → List Nat) (n t : Nat) : Nat := (sh t n).getD (t % n) 0

theorem labels_matOf {n : Nat} {W : Nat → Nat → Int} (x : Nat) :
    x ∈ (fromAdjacencyMatrix (matOf n W)).labels ↔ x < n ∧ ∃ y, y < n ∧ (W x y ≠ 0 ∨ W y x ≠ 0) := by
  rw [(fromAdjacencyMatrix_eq _).1, labels_ofMG, mem_adjMG_labels]
  simp only [entry_matOf]
  constructor
  · rintro ⟨y, v, hv, h | h⟩
    · split at h
      · rename_i h'
        cases h
        exact ⟨h'.1, y, h'.2, Or.inl hv⟩
      · cases h
    · split at h
      · rename_i h'
        cases h
        exact ⟨h'.2, y, h'.1, Or.inr hv⟩
      · cases h
  · rintro ⟨hx, y, hy, h | h⟩
    · exact ⟨y, _, h, Or.inl (by rw [if_pos ⟨hx, hy⟩])⟩
    · exact ⟨y, _, h, Or.inr (by rw [if_pos ⟨hy, hx⟩])⟩

theorem nodup_matOf_labels (n : Nat) (W : Nat → Nat → Int) : (fromAdjacencyMatrix (matOf n W)).labels.Nodup := by
  obtain ⟨he, hv⟩ := fromAdjacencyMatrix_eq (matOf n W)
  rw [he, labels_ofMG]
  exact hv.nodup

/-- The trajectory of the rule of a Hopfield net, on the network of a symmetric matrix without isolated units. -/
theorem hopfield_run {n : Nat} (hn1 : 1 ≤ n) {W : Nat → Nat → Int} (hsym : ∀ i j, i < n → j < n → W i j = W j i)
    (hcon : ∀ x, x < n → ∃ y, y < n ∧ W x y ≠ 0) (cfg : Config Nat Int Int I τ κ) (T : Nat) (hT : 1 ≤ T)
    (hin : cfg.input = .timesteps T) (hp : cfg.perturbation = none) (htop : cfg.topology = none) (hm : cfg.memoize = false)
    (hk : cfg.key = none) (hpa : cfg.persistActs = true) (hco : cfg.compression = false)
    (sh : Nat → Nat → List Nat) (hsh : ∀ i, (sh i n).Perm (List.range n)) (a : Async Nat)
    (ha : asyncInit sh none (some n) = .ok a) (heap : List (Net Nat Int)) (r : Nat)
    (hr : heap[r]? = some (fromAdjacencyMatrix (matOf n W))) (u : τ) (init : Option (Conds Nat Int)) (s : Nat → Int)
    (hlen : (initDict cfg init).length = n) (h0 : ∀ x, x < n → (initDict cfg init).get? x = some (s x))
    (fuel : Nat) (hf : T ≤ fuel) :
    ∃ res, evolve fuel (cfg.withRule (hopfieldActivityRule sh)) init r ⟨heap, (a, u)⟩ = .ok res ∧
      ShowsRun (cfg.withRule (α := Async Nat) (hopfieldActivityRule sh)) res T n (hopfield n W (hopfieldPick sh n) s) := by
  have hlab : (fromAdjacencyMatrix (matOf n W)).labels.Perm (List.range n) := by
    refine perm_range_of_mem (nodup_matOf_labels n W) (fun x => ?_)
    rw [labels_matOf]
    exact ⟨fun h => h.1, fun h => ⟨h, by obtain ⟨y, h1, h2⟩ := hcon x h; exact ⟨y, h1, Or.inl h2⟩⟩⟩
  cases ha
  have hl : ∀ i, (sh i n).length = n := fun i => by rw [(hsh i).length_eq, List.length_range]
  have hout := C39_one_node_partial cfg sh (pureRule (σ := τ) (hopfieldRule (I := I))) hm htop none (some n)
    ⟨sh 0 n, 0, 0, 1⟩ rfl ((hsh 0).nodup_iff.2 List.nodup_range)
    (by intro h; have := hl 0; rw [show sh 0 n = [] from h] at this; simp at this; omega)
    (by intro i; simp only [hl]; exact (hsh i).trans (hsh 0).symm) (fromAdjacencyMatrix (matOf n W))
    (nodup_matOf_labels n W) (by intro x hx; exact hlab.mem_iff.2 ((hsh 0).mem_iff.1 hx))
    (by
      intro c u o u' h
      unfold pureRule at h
      cases hh : hopfieldRule c with
      | error e => rw [hh] at h; cases h
      | ok v => rw [hh] at h; cases h; exact ⟨rfl, rfl⟩) heap r hr u fuel init
  have hpick : ∀ t, (orderAt sh true (sh 0 n) 1 t)[t % n]? = some (hopfieldPick sh n t) := by
    intro t
    have e : orderAt sh true (sh 0 n) 1 t = sh t n := by
      cases t with
      | zero => rfl
      | succ t => simp [orderAt, hl, Nat.add_comm]
    rw [e]
    unfold hopfieldPick
    rw [List.getD_eq_getElem?_getD]
    have : t % n < (sh t n).length := by rw [hl]; exact Nat.mod_lt _ (by omega)
    simp [this]
  simp only [hl] at hout
  have hord : Config.Ordinary { cfg with rule := some (pickRule (τ := τ)
      (fun t => (orderAt sh true (sh 0 n) 1 (t - 1))[(t - 1) % n]?) (pureRule hopfieldRule)) }
      (fun c => if (orderAt sh true (sh 0 n) 1 (c.t - 1))[(c.t - 1) % n]? = some c.node then hopfieldRule c
        else .ok c.current) T := by
    refine ⟨?_, hp, htop, hin, hk, hpa, hco⟩
    show some _ = some _
    congr 1
    funext c u
    unfold pickRule pureRule
    dsimp only
    split <;> rfl
  have hid : ∀ rl, initDict { cfg with rule := rl } init = initDict cfg init := by intro rl; cases init <;> rfl
  obtain ⟨res, e1, e2⟩ := ca_run hord hT hn1 hlab (nb := fun x => sources (adjMG (matOf n W)).edges x)
    (init := init) (f := hopfield n W (hopfieldPick sh n) s) (r := r) (w := ⟨heap, u⟩) (fuel := fuel)
    (by
      intro x hx
      obtain ⟨c1, _, c3, _⟩ := adj_context (W := W) rfl (hlab.mem_iff.2 (List.mem_range.2 hx))
      refine ⟨c1, ?_⟩
      intro y hy
      have := c3.mem_iff.1 hy
      simp only [List.mem_filter, List.mem_range] at this
      exact this.1)
    (by rw [hid]; exact hlen) (by intro x hx; rw [hid]; exact h0 x hx)
    (by
      intro t ht x hx
      have e : (orderAt sh true (sh 0 n) 1 (t + 1 - 1))[(t + 1 - 1) % n]? = some (hopfieldPick sh n t) := hpick t
      show (if (orderAt sh true (sh 0 n) 1 (t + 1 - 1))[(t + 1 - 1) % n]? = some x then _ else _) = _
      rw [e]
      by_cases hx' : hopfieldPick sh n t = x
      · rw [if_pos (by rw [hx'])]
        have hmem := hlab.mem_iff.2 (List.mem_range.2 hx)
        rw [hopfieldRule_eq hsym rfl hx hmem (hopfield n W (hopfieldPick sh n) s t) _ rfl rfl]
        · congr 1
          show _ = if x = hopfieldPick sh n t then _ else _
          rw [if_pos hx'.symm]
        · intro y hy
          obtain ⟨_, _, c3, _⟩ := adj_context (W := W) rfl hmem
          have := c3.mem_iff.1 hy
          simp only [List.mem_filter, List.mem_range] at this
          exact get?_plainActs (fun z hz => by rw [hid]; exact h0 z (List.mem_range.1 (hlab.mem_iff.1 hz))) t
            (hlab.mem_iff.2 (List.mem_range.2 this.1))
      · rw [if_neg (by intro h; exact hx' (Option.some.inj h))]
        show Except.ok (hopfield n W (hopfieldPick sh n) s t x) = .ok (if x = hopfieldPick sh n t then _ else _)
        rw [if_neg (fun h => hx' h.symm)])
    (by intro h; rw [show ({ cfg with rule := some (pickRule (τ := τ)
      (fun t => (orderAt sh true (sh 0 n) 1 (t - 1))[(t - 1) % n]?) (pureRule hopfieldRule)) } : Config Nat Int Int I τ κ).memoize
        = cfg.memoize from rfl, hm] at h; cases h)
    hr hf
  rw [hopfieldActivityRule_eq]
  rcases hout with ⟨e, _, h⟩ | ⟨x, y, h1, h2, h3, h4, h5⟩
  · rw [h] at e1; cases e1
  · rw [h2] at e1
    cases e1
    refine ⟨x, h1, ?_, ?_⟩
    · rw [h3]; exact e2.1
    · intro t ht
      obtain ⟨d, d1, d2⟩ := e2.2 t ht
      refine ⟨d, ?_, d2⟩
      unfold Evolved.acts at d1 ⊢
      rw [h3]; exact d1

/-- The activities stay bipolar. -/
theorem hopfield_bipolar {n : Nat} {W : Nat → Nat → Int} {pick : Nat → Nat} {s : Nat → Int}
    (hs : ∀ x, x < n → s x = 1 ∨ s x = -1) (t x : Nat) (hx : x < n) :
    hopfield n W pick s t x = 1 ∨ hopfield n W pick s t x = -1 := by
  induction t with
  | zero => exact hs x hx
  | succ t ih =>
    show (if x = pick t then _ else _) = _ ∨ (if x = pick t then _ else _) = _
    by_cases h : x = pick t
    · rw [if_pos h]; split <;> simp
    · rw [if_neg h]; exact ih

theorem hopfieldPick_lt {n : Nat} (hn : 1 ≤ n) {sh : Nat → Nat → List Nat} (hsh : ∀ i, (sh i n).Perm (List.range n)) (t : Nat) :
    hopfieldPick sh n t < n := by
  unfold hopfieldPick
  have hl : (sh t n).length = n := by rw [(hsh t).length_eq, List.length_range]
  have : t % n < (sh t n).length := by rw [hl]; exact Nat.mod_lt _ (by omega)
  rw [List.getD_eq_getElem?_getD, List.getElem?_eq_getElem this]
  exact List.mem_range.1 ((hsh t).mem_iff.1 (List.getElem_mem this))

theorem hopfieldNetwork_eq {n : Nat} {P : List (List Int)} (h0 : P ≠ []) (hP : ∀ p ∈ P, p.length = n) :
    hopfieldNetwork P = .ok (fromAdjacencyMatrix (matOf n (hebb P))) := by
  obtain ⟨q, P', rfl⟩ := List.exists_cons_of_ne_nil h0
  have hq : q.length = n := hP q (by simp)
  unfold hopfieldNetwork
  rw [hebbTrain_eq (fun p hp => by rw [hP p hp, hq]; exact Nat.le_refl _), hq]
  rfl

/-- C60.  For every training set of patterns of length `n`, every initial pattern of `n` activities `±1`, every sequence
of shuffles: if no unit is isolated (has only weights 0) the run of `T` timesteps finishes, its activities are at all
times `±1`, they are those of the net in which at timestep `t + 1` only the unit at position `t mod n` of the `t`-th
shuffle takes the sign of its field, and the energy does not increase from any timestep to the next; if some unit is
isolated, `evolve` raises, because `from_adjacency_matrix` has left the unit out of the network.  The other arguments of
`evolve`: no memoization, perturbation or topology rule; activities persisted, without compression. -/
theorem C60_energy (n : Nat) (hn : 1 ≤ n) (P : List (List Int)) (hP0 : P ≠ []) (hP : ∀ p ∈ P, p.length = n)
    (N : Net Nat Int) (hN : hopfieldNetwork P = .ok N) (s : List Int) (hs : s.length = n) (hb : ∀ v ∈ s, v = 1 ∨ v = -1)
    (sh : Nat → Nat → List Nat) (hsh : ∀ i, (sh i n).Perm (List.range n)) (a : Async Nat)
    (ha : asyncInit sh none (some n) = .ok a) (cfg : Config Nat Int Int I τ κ) (T : Nat) (hT : 1 ≤ T)
    (hin : cfg.input = .timesteps T) (hp : cfg.perturbation = none) (htop : cfg.topology = none) (hm : cfg.memoize = false)
    (hk : cfg.key = none) (hpa : cfg.persistActs = true) (hco : cfg.compression = false) (hnat : cfg.natLabel = id)
    (heap : List (Net Nat Int)) (r : Nat) (hr : heap[r]? = some N) (u : τ) (fuel : Nat) (hf : T ≤ fuel) :
    ((∀ x, x < n → ∃ y, y < n ∧ hebb P x y ≠ 0) →
      ∃ (res : Evolved Nat Int Int (Async Nat × τ)) (f : Nat → Nat → Int),
        evolve fuel (cfg.withRule (hopfieldActivityRule sh)) (some (.list s)) r ⟨heap, (a, u)⟩ = .ok res ∧
        ShowsRun (cfg.withRule (α := Async Nat) (hopfieldActivityRule sh)) res T n f ∧
        (∀ x, x < n → some (f 0 x) = s[x]?) ∧
        (∀ t x, x < n → f (t + 1) x = if x = (sh t n).getD (t % n) 0 then
          (if field n (hebb P) (f t) x ≥ 0 then 1 else -1) else f t x) ∧
        (∀ t x, x < n → f t x = 1 ∨ f t x = -1) ∧
        ∀ t, energy2 n (hebb P) (f (t + 1)) ≤ energy2 n (hebb P) (f t)) ∧
    ((∃ x, x < n ∧ ∀ y, y < n → hebb P x y = 0) →
      evolve fuel (cfg.withRule (hopfieldActivityRule sh)) (some (.list s)) r ⟨heap, (a, u)⟩ =
        .error (.exception "too few intial conditions specified")) := by
  rw [hopfieldNetwork_eq hP0 hP] at hN
  cases hN
  have hsym : ∀ i j, i < n → j < n → hebb P i j = hebb P j i := fun i j _ _ => hebb_symm P i j
  obtain ⟨hil, hik, hiv⟩ := initDict_list (cfg := cfg) hnat s
  rw [hs] at hil hiv
  have hval : ∀ x, x < n → s[x]? = some (s.getD x 0) := by
    intro x hx
    rw [List.getD_eq_getElem?_getD, List.getElem?_eq_getElem (by omega)]
    rfl
  constructor
  · intro hcon
    obtain ⟨res, e1, e2⟩ := hopfield_run hn hsym hcon cfg T hT hin hp htop hm hk hpa hco sh hsh a ha heap r hr u
      (some (.list s)) (fun x => s.getD x 0) hil (fun x hx => by rw [hiv x hx, hval x hx]) fuel hf
    have hbip : ∀ t x, x < n → hopfield n (hebb P) (hopfieldPick sh n) (fun x => s.getD x 0) t x = 1 ∨
        hopfield n (hebb P) (hopfieldPick sh n) (fun x => s.getD x 0) t x = -1 := by
      intro t x hx
      refine hopfield_bipolar (fun y hy => ?_) t x hx
      have := List.mem_of_getElem? (hval y hy)
      exact hb _ this
    refine ⟨res, _, e1, e2, fun x hx => (hval x hx).symm, fun _ _ _ => rfl, hbip, ?_⟩
    intro t
    have hlt := hopfieldPick_lt hn hsh t
    refine energy_update hlt hsym (by simp [hebb]) (hbip t _ hlt) ?_ ?_
    · show (if _ = _ then _ else _) = _
      rw [if_pos rfl]
    · intro i _ hi
      show (if i = _ then _ else _) = _
      rw [if_neg hi]
  · rintro ⟨x, hx, h0⟩
    have hsize : (fromAdjacencyMatrix (matOf n (hebb P))).size ≠ n := by
      intro h
      have hnd := nodup_matOf_labels n (hebb P)
      have hsub : ∀ y ∈ (fromAdjacencyMatrix (matOf n (hebb P))).labels, y ∈ (List.range n).erase x := by
        intro y hy
        obtain ⟨h1, z, h2, h3⟩ := labels_matOf y |>.1 hy
        refine (List.Nodup.mem_erase_iff List.nodup_range).2 ⟨?_, List.mem_range.2 h1⟩
        rintro rfl
        rcases h3 with h3 | h3
        · exact h3 (h0 z h2)
        · rw [hebb_symm] at h3; exact h3 (h0 z h2)
      have hle := List.Nodup.length_le_of_subset hnd hsub
      rw [List.length_erase_of_mem (List.mem_range.2 hx), List.length_range] at hle
      have : (fromAdjacencyMatrix (matOf n (hebb P))).labels.length = n := by
        conv => rhs; rw [← h]
        simp [Net.labels, Dict.keys, Net.size]
      omega
    have hin' : (cfg.withRule (α := Async Nat) (τ := τ) (hopfieldActivityRule sh)).input = .timesteps T := by
      show cfg.input.beside _ = _
      rw [hin]; rfl
    have hlen : (initDict (cfg.withRule (α := Async Nat) (hopfieldActivityRule sh)) (some (.list s))).length = n := by
      have := (initDict_list (cfg := cfg.withRule (α := Async Nat) (hopfieldActivityRule sh)) hnat s).1
      rw [this, hs]
    exact (C26_size_mismatch _ (Or.inr (by
      intro rule hrule
      rw [show (cfg.withRule (α := Async Nat) (hopfieldActivityRule sh)).topology = cfg.topology.map (fun f c => besides (f c)) from rfl,
        htop] at hrule
      cases hrule))
      (by intro hc; rw [show (cfg.withRule (α := Async Nat) (hopfieldActivityRule sh)).compression = cfg.compression from rfl, hco] at hc; cases hc)
      (by rw [hin']; intro h; cases h) (some (.list s)) r ⟨heap, (a, u)⟩ _ hr fuel).1 rfl
      (by rw [hlen]; exact fun h => hsize h.symm)

/-! ## C61 -/

theorem hebb_single {p : List Int} {i j : Nat} (hi : i < p.length) (hj : j < p.length) :
    hebb [p] i j = if i = j then 0 else p.getD i 0 * p.getD j 0 := by
  unfold hebb prodAt
  simp [List.getElem?_eq_getElem hi, List.getElem?_eq_getElem hj, List.getD_eq_getElem?_getD]

theorem isum_all_but {n k : Nat} (hk : k < n) (v : Int) : isum n (fun j => if k = j then 0 else v) = ((n : Int) - 1) * v := by
  have h : isum n (fun j => if k = j then 0 else v) + isum n (fun j => if j = k then v else 0) = isum n (fun _ => v) := by
    rw [← isum_add]
    refine isum_congr (fun j _ => ?_)
    by_cases h : j = k
    · subst h; simp
    · rw [if_neg h, if_neg (fun e => h e.symm)]; omega
  have hc : ∀ m : Nat, isum m (fun _ => v) = (m : Int) * v := by
    intro m
    induction m with
    | zero => simp [isum]
    | succ m ih => simp only [isum]; rw [ih]; grind
  rw [isum_single hk, hc] at h
  grind

/-- The field of a net trained on `p` alone, in the state `c * p`. -/
theorem field_single {n : Nat} {p : List Int} (hp : p.length = n) (hb : ∀ v ∈ p, v = 1 ∨ v = -1) (c : Int) {k : Nat} (hk : k < n) :
    field n (hebb [p]) (fun x => c * p.getD x 0) k = ((n : Int) - 1) * (c * p.getD k 0) := by
  unfold field
  rw [← isum_all_but hk]
  refine isum_congr (fun j hj => ?_)
  rw [hebb_single (by omega) (by omega)]
  by_cases h : k = j
  · simp [h]
  · rw [if_neg h, if_neg h]
    have hj' : p.getD j 0 = 1 ∨ p.getD j 0 = -1 := by
      apply hb
      rw [List.getD_eq_getElem?_getD, List.getElem?_eq_getElem (show j < p.length by omega)]
      exact List.getElem_mem _
    rcases hj' with h | h <;> rw [h] <;> grind

theorem hopfield_fixed {n : Nat} (hn : 2 ≤ n) {p : List Int} (hp : p.length = n) (hb : ∀ v ∈ p, v = 1 ∨ v = -1) {c : Int}
    (hc : c = 1 ∨ c = -1) {pick : Nat → Nat} (t : Nat) :
    ∀ x, x < n → hopfield n (hebb [p]) pick (fun x => c * p.getD x 0) t x = c * p.getD x 0 := by
  induction t with
  | zero => intro x _; rfl
  | succ t ih =>
    intro x hx
    show (if x = pick t then _ else _) = _
    by_cases h : x = pick t
    · rw [if_pos h]
      have e : field n (hebb [p]) (hopfield n (hebb [p]) pick (fun x => c * p.getD x 0) t) x =
          field n (hebb [p]) (fun x => c * p.getD x 0) x := by
        unfold field
        refine isum_congr (fun j hj => ?_)
        rw [ih j hj]
      rw [e, field_single hp hb c hx]
      have hx' : p.getD x 0 = 1 ∨ p.getD x 0 = -1 := by
        apply hb
        rw [List.getD_eq_getElem?_getD, List.getElem?_eq_getElem (show x < p.length by omega)]
        exact List.getElem_mem _
      have : c * p.getD x 0 = 1 ∨ c * p.getD x 0 = -1 := by
        rcases hc with h | h <;> rcases hx' with h' | h' <;> rw [h, h'] <;> simp
      rcases this with h' | h' <;> rw [h']
      · rw [if_pos (by omega)]
      · rw [if_neg (by omega)]
    · rw [if_neg h]; exact ih x hx

theorem single_fixed (n : Nat) (hn : 2 ≤ n) (p : List Int) (hp : p.length = n) (hb : ∀ v ∈ p, v = 1 ∨ v = -1)
    (c : Int) (hc : c = 1 ∨ c = -1)
    (N : Net Nat Int) (hN : hopfieldNetwork [p] = .ok N)
    (sh : Nat → Nat → List Nat) (hsh : ∀ i, (sh i n).Perm (List.range n)) (a : Async Nat)
    (ha : asyncInit sh none (some n) = .ok a) (cfg : Config Nat Int Int I τ κ) (T : Nat) (hT : 1 ≤ T)
    (hin : cfg.input = .timesteps T) (hpt : cfg.perturbation = none) (htop : cfg.topology = none) (hm : cfg.memoize = false)
    (hk : cfg.key = none) (hpa : cfg.persistActs = true) (hco : cfg.compression = false) (hnat : cfg.natLabel = id)
    (heap : List (Net Nat Int)) (r : Nat) (hr : heap[r]? = some N) (u : τ) (fuel : Nat) (hf : T ≤ fuel) :
    ∃ res, evolve fuel (cfg.withRule (hopfieldActivityRule sh)) (some (.list (p.map (c * ·)))) r ⟨heap, (a, u)⟩ = .ok res ∧
      ShowsRun (cfg.withRule (α := Async Nat) (hopfieldActivityRule sh)) res T n (fun _ x => c * p.getD x 0) := by
  rw [hopfieldNetwork_eq (n := n) (by simp) (by simp [hp])] at hN
  cases hN
  have hb1 : ∀ x, x < n → p.getD x 0 = 1 ∨ p.getD x 0 = -1 := by
    intro x hx
    apply hb
    rw [List.getD_eq_getElem?_getD, List.getElem?_eq_getElem (show x < p.length by omega)]
    exact List.getElem_mem _
  have hcon : ∀ x, x < n → ∃ y, y < n ∧ hebb [p] x y ≠ 0 := by
    intro x hx
    have : ∃ y, y < n ∧ y ≠ x := by
      by_cases h : x = 0
      · exact ⟨1, by omega, by omega⟩
      · exact ⟨0, by omega, by omega⟩
    obtain ⟨y, hy, hne⟩ := this
    refine ⟨y, hy, ?_⟩
    rw [hebb_single (by omega) (by omega), if_neg (fun e => hne e.symm)]
    rcases hb1 x hx with h | h <;> rcases hb1 y hy with h' | h' <;> rw [h, h'] <;> decide
  obtain ⟨hil, _, hiv⟩ := initDict_list (cfg := cfg) hnat (p.map (c * ·))
  rw [List.length_map, hp] at hil hiv
  obtain ⟨res, e1, e2⟩ := hopfield_run (by omega) (fun i j _ _ => hebb_symm [p] i j) hcon cfg T hT hin hpt htop hm hk hpa hco sh
    hsh a ha heap r hr u (some (.list (p.map (c * ·)))) (fun x => c * p.getD x 0) hil (fun x hx => by
      rw [hiv x hx, List.getElem?_map, List.getD_eq_getElem?_getD, List.getElem?_eq_getElem (by omega)]
      rfl) fuel hf
  refine ⟨res, e1, e2.1, ?_⟩
  intro t ht
  obtain ⟨d, d1, d2, d3⟩ := e2.2 t ht
  refine ⟨d, d1, d2, ?_⟩
  intro x hx
  rw [d3 x hx, hopfield_fixed hn hp hb hc t x hx]

/-- C61.  After training on one bipolar pattern of length `n ≥ 2`, the run from that pattern shows it at every timestep,
whatever the shuffles. -/
theorem C61_fixed (n : Nat) (hn : 2 ≤ n) (p : List Int) (hp : p.length = n) (hb : ∀ v ∈ p, v = 1 ∨ v = -1)
    (N : Net Nat Int) (hN : hopfieldNetwork [p] = .ok N)
    (sh : Nat → Nat → List Nat) (hsh : ∀ i, (sh i n).Perm (List.range n)) (a : Async Nat)
    (ha : asyncInit sh none (some n) = .ok a) (cfg : Config Nat Int Int I τ κ) (T : Nat) (hT : 1 ≤ T)
    (hin : cfg.input = .timesteps T) (hpt : cfg.perturbation = none) (htop : cfg.topology = none) (hm : cfg.memoize = false)
    (hk : cfg.key = none) (hpa : cfg.persistActs = true) (hco : cfg.compression = false) (hnat : cfg.natLabel = id)
    (heap : List (Net Nat Int)) (r : Nat) (hr : heap[r]? = some N) (u : τ) (fuel : Nat) (hf : T ≤ fuel) :
    ∃ res, evolve fuel (cfg.withRule (hopfieldActivityRule sh)) (some (.list p)) r ⟨heap, (a, u)⟩ = .ok res ∧
      ShowsRun (cfg.withRule (α := Async Nat) (hopfieldActivityRule sh)) res T n (fun _ x => p.getD x 0) := by
  have h := single_fixed n hn p hp hb 1 (Or.inl rfl) N hN sh hsh a ha cfg T hT hin hpt htop hm hk hpa hco hnat heap r hr u fuel hf
  simpa using h

/-- So does the run from the inverted pattern: `-p` is a second, spurious, fixed point. -/
theorem C61_inverse (n : Nat) (hn : 2 ≤ n) (p : List Int) (hp : p.length = n) (hb : ∀ v ∈ p, v = 1 ∨ v = -1)
    (N : Net Nat Int) (hN : hopfieldNetwork [p] = .ok N)
    (sh : Nat → Nat → List Nat) (hsh : ∀ i, (sh i n).Perm (List.range n)) (a : Async Nat)
    (ha : asyncInit sh none (some n) = .ok a) (cfg : Config Nat Int Int I τ κ) (T : Nat) (hT : 1 ≤ T)
    (hin : cfg.input = .timesteps T) (hpt : cfg.perturbation = none) (htop : cfg.topology = none) (hm : cfg.memoize = false)
    (hk : cfg.key = none) (hpa : cfg.persistActs = true) (hco : cfg.compression = false) (hnat : cfg.natLabel = id)
    (heap : List (Net Nat Int)) (r : Nat) (hr : heap[r]? = some N) (u : τ) (fuel : Nat) (hf : T ≤ fuel) :
    ∃ res, evolve fuel (cfg.withRule (hopfieldActivityRule sh)) (some (.list (p.map (fun v => -v)))) r ⟨heap, (a, u)⟩ = .ok res ∧
      ShowsRun (cfg.withRule (α := Async Nat) (hopfieldActivityRule sh)) res T n (fun _ x => - p.getD x 0) := by
  have h := single_fixed n hn p hp hb (-1) (Or.inr rfl) N hN sh hsh a ha cfg T hT hin hpt htop hm hk hpa hco hnat heap r hr u
    fuel hf
  have e : (fun v : Int => -1 * v) = fun v => -v := by funext v; omega
  have e2 : (fun (_ : Nat) (x : Nat) => -1 * p.getD x 0) = fun _ x => - p.getD x 0 := by funext _ x; omega
  rw [e, e2] at h
  exact h

end

/-! ### Examples -/

/-- The observed activities of `T` timesteps of a net trained on `P`. -/
def hopfieldActs (T : Nat) (P : List (List Int)) (n : Nat) (sh : Nat → Nat → List Nat) (init : Conds Nat Int) :
    Except Err (List (Option (Dict Nat Int))) :=
  let cfg := ({ Ex.base with input := .timesteps T }).withRule (hopfieldActivityRule sh)
  match hopfieldNetwork P, asyncInit sh none (some n) with
  | .ok N, .ok a => match evolve T cfg (some init) 0 ⟨[N], (a, [])⟩ with
    | .error e => .error e
    | .ok res => .ok ((List.range res.states.length).map (fun t => res.acts cfg t))
  | .error e, _ => .error e
  | _, .error e => .error e

/-- The rotation of `range n` by `i`, as a sequence of shuffles. -/
def turnBy (i n : Nat) : List Nat := (List.range n).map (fun k => (k + i) % n)

/-- The pattern `1 -1 1` is restored from `1 1 1`. -/
example : hopfieldActs 4 [[1, -1, 1]] 3 (fun _ n => (List.range n).reverse) (.list [1, 1, 1]) =
    .ok [some [(0, 1), (1, 1), (2, 1)], some [(0, 1), (1, 1), (2, 1)], some [(0, 1), (1, -1), (2, 1)],
      some [(0, 1), (1, -1), (2, 1)]] := by decide +kernel

/-- The hypotheses of `C60_energy` are met by a training set of three patterns of three units... -/
example : ∃ N res, ∃ f : Nat → Nat → Int, hopfieldNetwork [[1, -1, 1], [1, -1, -1], [1, 1, 1]] = .ok N ∧
    evolve 5 (({ Ex.base with input := .timesteps 5 }).withRule (hopfieldActivityRule turnBy)) (some (.list [1, 1, -1])) 0
      ⟨[N], (⟨turnBy 0 3, 0, 0, 1⟩, [])⟩ = .ok res ∧
    ShowsRun (({ Ex.base with input := .timesteps 5 }).withRule (α := Async Nat) (hopfieldActivityRule turnBy)) res 5 3 f ∧
    ∀ t, energy2 3 (hebb [[1, -1, 1], [1, -1, -1], [1, 1, 1]]) (f (t + 1)) ≤
      energy2 3 (hebb [[1, -1, 1], [1, -1, -1], [1, 1, 1]]) (f t) := by
  have hcon : ∀ x ∈ List.range 3, ∃ y ∈ List.range 3, hebb [[1, -1, 1], [1, -1, -1], [1, 1, 1]] x y ≠ 0 := by decide
  have hturn : ∀ i, (turnBy i 3).Perm (List.range 3) := by
    intro i
    have h3 : i % 3 = 0 ∨ i % 3 = 1 ∨ i % 3 = 2 := by omega
    have e : turnBy i 3 = [i % 3, (1 + i) % 3, (2 + i) % 3] := by simp [turnBy, List.range_succ]
    rw [e]
    rcases h3 with h | h | h
    · rw [h, show (1 + i) % 3 = 1 by omega, show (2 + i) % 3 = 2 by omega]; decide
    · rw [h, show (1 + i) % 3 = 2 by omega, show (2 + i) % 3 = 0 by omega]; decide
    · rw [h, show (1 + i) % 3 = 0 by omega, show (2 + i) % 3 = 1 by omega]; decide
  obtain ⟨res, f, h1, h2, _, _, _, h3⟩ := (C60_energy 3 (by omega) [[1, -1, 1], [1, -1, -1], [1, 1, 1]] (by simp) (by decide) _
    (hopfieldNetwork_eq (n := 3) (by simp) (by decide)) [1, 1, -1] rfl (by decide) turnBy hturn _ rfl
    ({ Ex.base with input := .timesteps 5 }) 5 (by omega) rfl rfl rfl rfl rfl rfl rfl rfl
    [fromAdjacencyMatrix (matOf 3 (hebb [[1, -1, 1], [1, -1, -1], [1, 1, 1]]))] 0 rfl [] 5 (by omega)).1 (by
      intro x hx
      obtain ⟨y, h1, h2⟩ := hcon x (List.mem_range.2 hx)
      exact ⟨y, List.mem_range.1 h1, h2⟩)
  exact ⟨_, res, f, hopfieldNetwork_eq (n := 3) (by simp) (by decide), h1, h2, h3⟩

/-- ... and the second part by one with an isolated unit, the first. -/
example : hopfieldActs 4 [[1, -1, 1], [1, 1, -1]] 3 (fun _ n => List.range n) (.list [1, 1, 1]) =
    .error (.exception "too few intial conditions specified") := by decide +kernel

/-- Six patterns of six units; unit 2 is isolated. -/
def isolatedSet : List (List Int) :=
  [[-1, 1, -1, -1, 1, -1], [-1, -1, 1, -1, 1, 1], [-1, 1, 1, -1, 1, -1], [1, 1, -1, -1, 1, 1], [-1, -1, -1, 1, 1, -1],
    [1, 1, 1, 1, 1, -1]]

/-- Three shuffles. -/
def isolatedShuffle (i _n : Nat) : List Nat :=
  if i = 0 then [1, 5, 2, 4, 3, 0] else if i = 1 then [2, 0, 3, 1, 4, 5] else [3, 1, 4, 2, 0, 5]

/-- The list of initial activities cannot be used when a unit is isolated; with the activities of the remaining units,
given as a dict, the run succeeds, but the counter of `AsynchronousRule` waits for six units while only five are
visited in a timestep.  A cycle then ends in the middle of a timestep, two units are updated at once, and the energy can
increase: here from -8 to 8 (twice the energy) at the third timestep. -/
theorem C60_isolated_unit :
    (∃ d0 d1 d2 d3, hopfieldActs 4 isolatedSet 6 isolatedShuffle (.dict [(0, -1), (1, 1), (3, -1), (4, -1), (5, 1)]) =
        .ok [some d0, some d1, some d2, some d3] ∧
      energy2 6 (hebb isolatedSet) (fun x => (d2.get? x).getD 0) = -8 ∧
      energy2 6 (hebb isolatedSet) (fun x => (d3.get? x).getD 0) = 8) ∧
    (∀ i, (isolatedShuffle i 6).Perm (List.range 6)) ∧ ∀ y ∈ List.range 6, hebb isolatedSet 2 y = 0 := by
  refine ⟨⟨[(0, -1), (1, 1), (3, -1), (4, -1), (5, 1)], [(0, -1), (1, -1), (3, -1), (4, -1), (5, 1)],
    [(0, -1), (1, -1), (3, -1), (4, -1), (5, 1)], [(0, 1), (1, -1), (3, -1), (4, 1), (5, 1)], by decide +kernel,
    by decide +kernel, by decide +kernel⟩,
    ?_, by decide⟩
  intro i
  unfold isolatedShuffle
  split
  · decide
  · split <;> decide

end Verif
