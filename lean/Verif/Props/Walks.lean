import Verif.Spec.Walks
import Verif.Props.Hopfield
/-! # C164: weighted sums compute the powers of the matrix, and count walks -/

namespace Verif
open Spec MG
section
variable {I σ κ : Type} [DecidableEq κ]

theorem isum_swap (m n : Nat) (f : Nat → Nat → Int) : isum m (fun i => isum n (fun j => f i j)) = isum n (fun j => isum m (fun i => f i j)) := by
  induction m with
  | zero => exact (isum_zero n).symm
  | succ m ih =>
    show isum m (fun i => isum n (fun j => f i j)) + isum n (fun j => f m j) = isum n (fun j => isum m (fun i => f i j) + f m j)
    rw [ih, ← isum_add]

omit [DecidableEq κ] in
/-- The sum of the Hopfield rule at node `x`, for any matrix. -/
theorem hopfieldSum_eq {n : Nat} {W : Nat → Nat → Int} {N : Net Nat Int}
    (hN : N = fromAdjacencyMatrix (matOf n W)) {x : Nat} (hxn : x < n) (hx : x ∈ N.labels) (s : Nat → Int)
    (c : NodeCtx Nat Int Int I) (h1 : c.neighbours = sources (adjMG (matOf n W)).edges x)
    (h2 : c.connections = ((N.nodes.get? x).map (fun nd => nd.incoming)).getD [])
    (h3 : ∀ y ∈ c.neighbours, c.activities.get? y = some (s y)) :
    hopfieldSum c = .ok (isum n (fun y => W y x * s y)) := by
  obtain ⟨_, e2, e3, e4⟩ := adj_context hN hx
  have hterm : ∀ y ∈ c.neighbours, hopfieldTerm c y = .ok (W y x * s y) := by
    intro y hy
    have hy' := hy
    rw [h1] at hy'
    unfold hopfieldTerm
    have g1 : c.connections.get y = .ok [[("weight", W y x)]] := by
      rw [Dict.get_eq_ok_iff, h2, e2]; exact e4 y hy'
    have g2 : c.activities.get y = .ok (s y) := Dict.get_eq_ok_iff.2 (h3 y hy)
    have g3 : Dict.get ([("weight", W y x)] : Attr Int) "weight" = .ok (W y x) := by
      rw [Dict.get_eq_ok_iff]; simp [Dict.get?]
    simp only [g1, g2, g3]
  unfold hopfieldSum
  rw [foldlM_sum _ _ _ hterm, h1, Int.zero_add]
  congr 1
  rw [perm_sum (e3.map _), sum_filter_zero, isum_range]
  intro y _ hy
  simp only [hxn, true_and, decide_eq_false_iff_not, Decidable.not_not] at hy
  rw [hy, Int.zero_mul]

/-- One step of the powers, applied to a row of states. -/
theorem powers_step (n : Nat) (W : Nat → Nat → Int) (s : Nat → Int) (t x : Nat) :
    isum n (fun z => W z x * isum n (fun y => matPow n W t y z * s y)) = isum n (fun y => matPow n W (t + 1) y x * s y) := by
  have h1 : isum n (fun z => W z x * isum n (fun y => matPow n W t y z * s y)) =
      isum n (fun z => isum n (fun y => W z x * (matPow n W t y z * s y))) := isum_congr fun z _ => (isum_mul n _ _).symm
  rw [h1, isum_swap]
  refine isum_congr fun y _ => ?_
  show _ = isum n (fun z => matPow n W t y z * W z x) * s y
  rw [Int.mul_comm, ← isum_mul]
  refine isum_congr fun z _ => ?_
  rw [← Int.mul_assoc, Int.mul_comm (W z x), Int.mul_comm]

/-- C164: on the network of any square matrix of integers in which every node has a link, with the weighted sum of the neighbours as rule, the
states after `t` steps are the initial ones times the power `t` of the matrix. -/
theorem C164_powers (n : Nat) (hn : 1 ≤ n) (W : Nat → Nat → Int) (hcon : ∀ x, x < n → ∃ y, y < n ∧ (W x y ≠ 0 ∨ W y x ≠ 0))
    (cfg : Config Nat Int Int I σ κ) (T : Nat) (hT : 1 ≤ T) (h : cfg.Ordinary hopfieldSum T) (hm : cfg.memoize = false)
    (init : Option (Conds Nat Int)) (s : Nat → Int) (hlen : (initDict cfg init).length = n)
    (h0 : ∀ x, x < n → (initDict cfg init).get? x = some (s x)) (r : Nat) (w : World Nat Int σ)
    (hr : w.heap[r]? = some (fromAdjacencyMatrix ((List.range n).map (fun i => (List.range n).map (W i))))) (fuel : Nat) (hf : T ≤ fuel) :
    ∃ res, evolve fuel cfg init r w = .ok res ∧ ShowsRun cfg res T n (fun t x => isum n (fun y => matPow n W t y x * s y)) := by
  have hlab : (fromAdjacencyMatrix (matOf n W)).labels.Perm (List.range n) := by
    refine perm_range_of_mem (nodup_matOf_labels n W) (fun x => ?_)
    rw [labels_matOf]
    exact ⟨fun h => h.1, fun h => ⟨h, hcon x h⟩⟩
  have start : ∀ x, x < n → isum n (fun y => matPow n W 0 y x * s y) = s x := by
    intro x hx
    refine Eq.trans ?_ (isum_single hx (s x))
    refine isum_congr fun y _ => ?_
    show (if y = x then (1 : Int) else 0) * s y = _
    by_cases e : y = x
    · rw [if_pos e, if_pos e, Int.one_mul, e]
    · rw [if_neg e, if_neg e, Int.zero_mul]
  have h0' : ∀ x, x < n → (initDict cfg init).get? x = some (isum n (fun y => matPow n W 0 y x * s y)) := by
    intro x hx
    rw [start x hx]
    exact h0 x hx
  refine ca_run h hT hn hlab (nb := fun x => sources (adjMG (matOf n W)).edges x) ?_ hlen h0' ?_ (fun hc => by rw [hm] at hc; cases hc) hr hf
  · intro x hx
    obtain ⟨c1, _, c3, _⟩ := adj_context (W := W) rfl (hlab.mem_iff.2 (List.mem_range.2 hx))
    refine ⟨c1, ?_⟩
    intro y hy
    have := c3.mem_iff.1 hy
    simp only [List.mem_filter, List.mem_range] at this
    exact this.1
  · intro t ht x hx
    have hmem := hlab.mem_iff.2 (List.mem_range.2 hx)
    rw [hopfieldSum_eq rfl hx hmem (fun y => isum n (fun z => matPow n W t z y * s z)) _ rfl rfl]
    · congr 1
      exact powers_step n W s t x
    · intro y hy
      obtain ⟨_, _, c3, _⟩ := adj_context (W := W) rfl hmem
      have hyn : y < n := by
        have := c3.mem_iff.1 hy
        simp only [List.mem_filter, List.mem_range] at this
        exact this.1
      exact get?_plainActs (f := fun t x => isum n (fun y => matPow n W t y x * s y)) (by
        intro z hz
        exact h0' z (List.mem_range.1 (hlab.mem_iff.1 hz))) t (hlab.mem_iff.2 (List.mem_range.2 hyn))

end

/-- The walks of `t` steps from `y` to `x`. -/
def walkList (n : Nat) (W : Nat → Nat → Int) (y : Nat) : Nat → Nat → List (List Nat)
  | 0, x => if x = y then [[x]] else []
  | t + 1, x => (List.range n).flatMap (fun z => if W z x ≠ 0 then (walkList n W y t z).map (x :: ·) else [])

theorem mem_walkList {n : Nat} {W : Nat → Nat → Int} {y : Nat} : ∀ (t x : Nat), x < n → ∀ p : List Nat,
    p ∈ walkList n W y t x ↔ p.length = t + 1 ∧ p.head? = some x ∧ WalkBack n W y p
  | 0, x, hx, p => by
    show p ∈ (if x = y then [[x]] else []) ↔ _
    match p with
    | [] => split <;> simp
    | [a] =>
      split
      · rename_i e; subst e
        simp [WalkBack]
        intro h; omega
      · rename_i e
        simp [WalkBack]
        intro h1 h2; omega
    | a :: b :: p => split <;> simp
  | t + 1, x, hx, p => by
    show p ∈ (List.range n).flatMap _ ↔ _
    rw [List.mem_flatMap]
    constructor
    · rintro ⟨z, hz, hp⟩
      rw [List.mem_range] at hz
      split at hp
      · rename_i hw
        obtain ⟨q, hq, rfl⟩ := List.mem_map.1 hp
        obtain ⟨h1, h2, h3⟩ := (mem_walkList t z hz q).1 hq
        cases q with
        | nil => cases h2
        | cons b q =>
          cases h2
          exact ⟨by rw [List.length_cons, h1], rfl, hx, hw, h3⟩
      · cases hp
    · rintro ⟨h1, h2, h3⟩
      match p, h1, h2, h3 with
      | a :: b :: q, h1, h2, h3 =>
        cases h2
        have hb : b < n := by
          cases q with
          | nil => exact h3.2.2.2
          | cons c q => exact h3.2.2.1
        refine ⟨b, List.mem_range.2 hb, ?_⟩
        rw [if_pos h3.2.1]
        refine List.mem_map.2 ⟨b :: q, (mem_walkList t b hb _).2 ⟨by simpa using h1, rfl, h3.2.2⟩, rfl⟩

theorem nodup_walkList {n : Nat} {W : Nat → Nat → Int} {y : Nat} : ∀ (t x : Nat), (walkList n W y t x).Nodup
  | 0, x => by
    show (if x = y then [[x]] else []).Nodup
    split <;> simp
  | t + 1, x => by
    show List.Nodup (List.flatMap _ _)
    unfold List.Nodup
    rw [List.pairwise_flatMap]
    constructor
    · intro z _
      split
      · rw [List.pairwise_map]
        exact (nodup_walkList t z).imp (fun h e => h (List.cons.inj e).2)
      · exact List.Pairwise.nil
    · refine List.Pairwise.imp_of_mem ?_ List.nodup_range
      intro a b ha hb hab p hp q hq e
      subst e
      split at hp
      · split at hq
        · obtain ⟨p1, hp1, rfl⟩ := List.mem_map.1 hp
          obtain ⟨q1, hq1, e⟩ := List.mem_map.1 hq
          have e' := (List.cons.inj e).2
          subst e'
          have u1 := ((mem_walkList t a (List.mem_range.1 ha) _).1 hp1).2.1
          have u2 := ((mem_walkList t b (List.mem_range.1 hb) _).1 hq1).2.1
          rw [u1] at u2
          exact hab (Option.some.inj u2)
        · cases hq
      · cases hp

/-- C164: for a matrix of zeros and ones, the entries of the powers are the numbers of walks. -/
theorem C164_walks (n : Nat) (W : Nat → Nat → Int) (hW : ∀ i, i < n → ∀ j, j < n → W i j = 0 ∨ W i j = 1) (t y x : Nat) (hx : x < n) :
    ∃ ps : List (List Nat), ps.Nodup ∧ (∀ p, p ∈ ps ↔ p.length = t + 1 ∧ p.head? = some x ∧ WalkBack n W y p) ∧
      matPow n W t y x = ps.length := by
  refine ⟨walkList n W y t x, nodup_walkList t x, mem_walkList t x hx, ?_⟩
  induction t generalizing x with
  | zero =>
    show (if y = x then (1 : Int) else 0) = ((if x = y then [[x]] else []).length : Nat)
    by_cases e : y = x
    · rw [if_pos e, if_pos e.symm]; rfl
    · rw [if_neg e, if_neg (Ne.symm e)]; rfl
  | succ t ih =>
    show isum n (fun z => matPow n W t y z * W z x) = (((List.range n).flatMap _).length : Nat)
    rw [List.length_flatMap]
    have key : ∀ m, m ≤ n → isum m (fun z => matPow n W t y z * W z x) =
        (((List.range m).map (fun z => (if W z x ≠ 0 then (walkList n W y t z).map (x :: ·) else []).length)).sum : Nat) := by
      intro m
      induction m with
      | zero => intro _; rfl
      | succ m ihm =>
        intro hm
        rw [List.range_succ, List.map_append, List.sum_append, Int.natCast_add, ← ihm (by omega)]
        show isum m _ + matPow n W t y m * W m x = _
        congr 1
        rw [ih m (by omega)]
        rcases hW m (by omega) x hx with e | e
        · simp [e]
        · simp [e]
    exact key n (Nat.le_refl _)

section
variable {I σ κ : Type} [DecidableEq κ]

/-- C164: on the network of a matrix of zeros and ones, started with a one at node `y` and zeros elsewhere, the state of node `x` after `t` steps is the
number of walks of `t` steps from `y` to `x`. -/
theorem C164_counts (n : Nat) (W : Nat → Nat → Int) (hW : ∀ i, i < n → ∀ j, j < n → W i j = 0 ∨ W i j = 1)
    (hcon : ∀ x, x < n → ∃ y, y < n ∧ (W x y ≠ 0 ∨ W y x ≠ 0)) (y : Nat) (hy : y < n)
    (cfg : Config Nat Int Int I σ κ) (T : Nat) (hT : 1 ≤ T) (h : cfg.Ordinary hopfieldSum T) (hm : cfg.memoize = false)
    (init : Option (Conds Nat Int)) (hlen : (initDict cfg init).length = n)
    (h0 : ∀ x, x < n → (initDict cfg init).get? x = some (if x = y then 1 else 0)) (r : Nat) (w : World Nat Int σ)
    (hr : w.heap[r]? = some (fromAdjacencyMatrix ((List.range n).map (fun i => (List.range n).map (W i))))) (fuel : Nat) (hf : T ≤ fuel) :
    ∃ res f, evolve fuel cfg init r w = .ok res ∧ ShowsRun cfg res T n f ∧ ∀ t x, x < n →
      ∃ ps : List (List Nat), ps.Nodup ∧ (∀ p, p ∈ ps ↔ p.length = t + 1 ∧ p.head? = some x ∧ WalkBack n W y p) ∧ f t x = (ps.length : Int) := by
  obtain ⟨res, e1, e2⟩ := C164_powers n (by omega) W hcon cfg T hT h hm init (fun x => if x = y then 1 else 0) hlen h0 r w hr fuel hf
  refine ⟨res, _, e1, e2, fun t x hx => ?_⟩
  obtain ⟨ps, h1, h2, h3⟩ := C164_walks n W hW t y x hx
  refine ⟨ps, h1, h2, ?_⟩
  rw [← h3]
  refine Eq.trans (isum_congr fun z _ => ?_) (isum_single hy (matPow n W t y x))
  by_cases e : z = y
  · rw [if_pos e, if_pos e, Int.mul_one, e]
  · rw [if_neg e, if_neg e, Int.mul_zero]

end

/-! Example: a node with a link to itself and links to and from a second node; its walks are counted by the Fibonacci numbers. -/

def Ex.fibMat (i j : Nat) : Int := if i = 1 ∧ j = 1 then 0 else 1
def Ex.weightedCfg (T : Nat) : Config Nat Int Int Int (List Int) Unit :=
  { Ex.base with rule := some (pureRule hopfieldSum), input := .timesteps T }

example : ∃ res f, evolve 9 (Ex.weightedCfg 9) (some (.list [1, 0])) 0 ⟨[fromAdjacencyMatrix [[1, 1], [1, 0]]], []⟩ = .ok res ∧
    ShowsRun (Ex.weightedCfg 9) res 9 2 f ∧ ∀ t x, x < 2 → ∃ ps : List (List Nat), ps.Nodup ∧
      (∀ p, p ∈ ps ↔ p.length = t + 1 ∧ p.head? = some x ∧ WalkBack 2 Ex.fibMat 0 p) ∧ f t x = (ps.length : Int) :=
  C164_counts 2 Ex.fibMat (by decide) (by decide) 0 (by decide) (Ex.weightedCfg 9) 9 (by decide) ⟨rfl, rfl, rfl, rfl, rfl, rfl, rfl⟩ rfl
    (some (.list [1, 0])) rfl (by decide) 0 ⟨[fromAdjacencyMatrix [[1, 1], [1, 0]]], []⟩ rfl 9 (by decide)

example : (List.range 9).map (fun t => matPow 2 Ex.fibMat t 0 0) = [1, 1, 2, 3, 5, 8, 13, 21, 34] := by decide

example : ∃ ps : List (List Nat), ps.Nodup ∧ (∀ p, p ∈ ps ↔ p.length = 2 + 1 ∧ p.head? = some 0 ∧ WalkBack 2 Ex.fibMat 0 p) ∧
    matPow 2 Ex.fibMat 2 0 0 = ps.length :=
  C164_walks 2 Ex.fibMat (by decide) 2 0 0 (by decide)

/-- A matrix with other weights, not symmetric. -/
example : ∃ res, evolve 9 (Ex.weightedCfg 9) (some (.list [4, 5])) 0 ⟨[fromAdjacencyMatrix [[2, -3], [0, 1]]], []⟩ = .ok res ∧
    ShowsRun (Ex.weightedCfg 9) res 9 2 (fun t x => isum 2 (fun y => matPow 2 (fun i j => [[2, -3], [0, 1]].getD i [] |>.getD j 0) t y x * (4 + y))) :=
  C164_powers 2 (by decide) (fun i j => [[2, -3], [0, 1]].getD i [] |>.getD j 0) (by decide) (Ex.weightedCfg 9) 9 (by decide)
    ⟨rfl, rfl, rfl, rfl, rfl, rfl, rfl⟩ rfl (some (.list [4, 5])) (fun y => 4 + y) rfl (by decide) 0 ⟨[fromAdjacencyMatrix [[2, -3], [0, 1]]], []⟩ rfl 9 (by decide)

end Verif
