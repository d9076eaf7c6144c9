import Verif.Proofs.CARun
import Verif.Props.Topology
import Verif.Props.Rules
import Verif.Props.Examples
/-! # Properties C46, C47: whole runs of elementary automata and of the Game of Life -/

namespace Verif
open Spec
section
variable {I σ κ : Type} [DecidableEq κ]

/-! ## C46 -/

theorem eca_lt_two {n R : Nat} {s : Nat → Nat} (hn : 0 < n) (hs : ∀ x, x < n → s x < 2) :
    ∀ t x, x < n → eca n R s t x < 2 := by
  intro t
  cases t with
  | zero => exact hs
  | succ t => intro x _; exact Nat.mod_lt _ (by decide)

theorem ringCell_three {n x : Nat} (hx : x < n) (hn : 3 ≤ n) :
    (List.range (2 * 1 + 1)).map (fun (k : Nat) => ringCell n x ((k : Int) - ((1 : Nat) : Int))) =
      [(x + n - 1) % n, x, (x + 1) % n] := by
  have e1 : ringCell n x (((0 : Nat) : Int) - ((1 : Nat) : Int)) = (x + n - 1) % n := by
    unfold ringCell
    have : ((x : Int) + (((0 : Nat) : Int) - ((1 : Nat) : Int))) % (n : Int) = (((x + n - 1) % n : Nat) : Int) := by
      rw [Int.natCast_emod, ← Int.add_emod_right]
      congr 1
      omega
    rw [this]; rfl
  have e2 : ringCell n x (((1 : Nat) : Int) - ((1 : Nat) : Int)) = x := by
    unfold ringCell
    rw [Int.sub_self, Int.add_zero, Int.emod_eq_of_lt (by omega) (by omega)]; rfl
  have e3 : ringCell n x (((2 : Nat) : Int) - ((1 : Nat) : Int)) = (x + 1) % n := by
    unfold ringCell
    have : ((x : Int) + (((2 : Nat) : Int) - ((1 : Nat) : Int))) % (n : Int) = (((x + 1) % n : Nat) : Int) := by
      rw [Int.natCast_emod]
      congr 1
    rw [this]; rfl
  show [ringCell n x (((0 : Nat) : Int) - ((1 : Nat) : Int)), ringCell n x (((1 : Nat) : Int) - ((1 : Nat) : Int)),
    ringCell n x (((2 : Nat) : Int) - ((1 : Nat) : Int))] = _
  rw [e1, e2, e3]

/-- C46.  On `cellular_automaton(n)`, `n ≥ 3`, with `nks_ca_rule(R)`, `R < 256`, and any binary initial conditions
`s`, an ordinary call of `evolve` (with or without memoization) returns, and its states are the elementary cellular
automaton number `R` on the ring. -/
theorem C46_elementary_ca (n R : Nat) (hn : 3 ≤ n) (hR : R < 256) (cfg : Config Nat Int Int I σ κ) (T : Nat) (hT : 1 ≤ T)
    (h : cfg.Ordinary (nksCaRule (R : Int)) T) (N : Net Nat Int) (hN : cellularAutomaton n 1 true = .ok N) (r : Nat)
    (w : World Nat Int σ) (hr : w.heap[r]? = some N) (init : Option (Conds Nat Int)) (s : Nat → Nat)
    (hs : ∀ x, x < n → s x < 2) (hlen : (initDict cfg init).length = n)
    (h0 : ∀ x, x < n → (initDict cfg init).get? x = some (s x : Int)) (fuel : Nat) (hf : T ≤ fuel) :
    ∃ res, evolve fuel cfg init r w = .ok res ∧ ShowsRun cfg res T n (fun t x => (eca n R s t x : Int)) := by
  obtain ⟨N', rs, e1, e2, e3, e4⟩ := C43_left_to_right n 1 hn (by omega)
  rw [hN] at e1
  cases e1
  have hrule : ∀ t x, x < n → ∀ c : NodeCtx Nat Int Int I,
      c.neighbourActs = [(eca n R s t ((x + n - 1) % n) : Int), (eca n R s t x : Int), (eca n R s t ((x + 1) % n) : Int)] →
      nksCaRule (R : Int) c = .ok (eca n R s (t + 1) x : Int) := by
    intro t x hx c hc
    have l1 := eca_lt_two (R := R) (by omega) hs t ((x + n - 1) % n) (Nat.mod_lt _ (by omega))
    have l2 := eca_lt_two (R := R) (by omega) hs t x hx
    have l3 := eca_lt_two (R := R) (by omega) hs t ((x + 1) % n) (Nat.mod_lt _ (by omega))
    have hb : Binary c.neighbourActs := by
      rw [hc]
      intro v hv
      simp only [List.mem_cons, List.not_mem_nil, or_false] at hv
      rcases hv with rfl | rfl | rfl <;> omega
    have h256 : 2 ^ 2 ^ c.neighbourActs.length = 256 := by
      have h3 : c.neighbourActs.length = 3 := by rw [hc]; simp only [List.length_cons, List.length_nil]
      rw [h3]
    rw [(C28_binary_ca R c hb (by omega)).2.2.1]
    have hnum : (numeral c.neighbourActs).toNat =
        4 * eca n R s t ((x + n - 1) % n) + 2 * eca n R s t x + eca n R s t ((x + 1) % n) := by
      rw [hc]
      simp only [numeral, List.foldl]
      omega
    rw [hnum]
    rfl
  refine ca_run h hT (by omega) e3 (nb := fun x => [(x + n - 1) % n, x, (x + 1) % n]) ?_ hlen h0 ?_ ?_ hr hf
  · intro x hx
    refine ⟨?_, ?_⟩
    · simp only [specNbrs, e2]
      rw [e4 x hx, ringCell_three hx hn]
    · intro y hy
      simp only [List.mem_cons, List.not_mem_nil, or_false] at hy
      rcases hy with rfl | rfl | rfl
      · exact Nat.mod_lt _ (by omega)
      · exact hx
      · exact Nat.mod_lt _ (by omega)
  · intro t ht x hx
    exact hrule t x hx _ rfl
  · intro _
    refine ⟨by rw [e2]; rfl, ?_⟩
    intro t t' x x' ht ht' hx hx' heq
    simp only [List.map_cons, List.map_nil, List.cons.injEq, and_true] at heq
    have q1 := Int.ofNat.inj heq.1
    have q2 := Int.ofNat.inj heq.2.1
    have q3 := Int.ofNat.inj heq.2.2
    simp only [eca, q1, q2, q3]

/-- Three timesteps of rule 30 on six cells, memoized: the hypotheses are met. -/
example : ∃ N res, cellularAutomaton 6 1 true = .ok N ∧
    evolve 4 ({ Ex.base with rule := some (pureRule (nksCaRule 30)), input := .timesteps 4, memoize := true })
      (some (.list [0, 0, 1, 0, 0, 1])) 0 ⟨[N], []⟩ = .ok res ∧
    ShowsRun { Ex.base with rule := some (pureRule (nksCaRule 30)), input := .timesteps 4, memoize := true } res 4 6
      (fun t x => (eca 6 30 (fun x => if x = 2 ∨ x = 5 then 1 else 0) t x : Int)) := by
  obtain ⟨N, _, hN, _⟩ := C43_left_to_right 6 1 (by omega) (by omega)
  obtain ⟨res, h1, h2⟩ := C46_elementary_ca 6 30 (by omega) (by omega)
    { Ex.base with rule := some (pureRule (nksCaRule 30)), input := .timesteps 4, memoize := true } 4 (by omega)
    ⟨rfl, rfl, rfl, rfl, rfl, rfl, rfl⟩ N hN 0 ⟨[N], []⟩ rfl (some (.list [0, 0, 1, 0, 0, 1]))
    (fun x => if x = 2 ∨ x = 5 then 1 else 0) (by decide) (by decide) (by decide) 4 (by omega)
  exact ⟨N, res, hN, h1, h2⟩
example : (List.range 6).map (eca 6 30 (fun x => if x = 2 ∨ x = 5 then 1 else 0) 1) = [1, 1, 1, 1, 1, 1] ∧
    (List.range 6).map (eca 6 110 (fun x => if x = 5 then 1 else 0) 3) = [0, 0, 1, 1, 0, 1] := by decide

/-! ## C47 -/

/-- The ordered network of a symmetric matrix with a unit diagonal: the neighbours of `x` are the columns with an
entry in row `x`, once each, with `x` in the middle. -/
theorem ordered_symmetric {M : List (List Int)} {n : Nat} (h2 : Square M n) (hd : ∀ x, x < n → entry M x x = some 1)
    (hs : Symmetric M) :
    ∃ N rs, orderNetwork (fromAdjacencyMatrix M) = .ok N ∧ N.rotation = some rs ∧ N.labels.Perm (List.range n) ∧
      ∀ x, x < n → ∃ l, rs.get? x = some l ∧ l.Nodup ∧ l[l.length / 2]? = some x ∧
        ∀ y, y ∈ l ↔ ∃ v, v ≠ 0 ∧ entry M x y = some v := by
  obtain ⟨ho, _⟩ := ordered_diag h2 hd
  obtain ⟨hof, hv⟩ := fromAdjacencyMatrix_eq M
  have hl : (fromAdjacencyMatrix M).labels = (MG.labels (adjMG M)) := by rw [hof]; exact labels_ofMG _
  refine ⟨_, _, ho, rfl, ?_, ?_⟩
  · show (fromAdjacencyMatrix M).labels.Perm _
    rw [hl]; exact perm_range_of_mem hv.nodup (mem_labels_diag h2 hd)
  · intro x hx
    obtain ⟨l, s1, s2, s3⟩ := shiftToCenter_spec (sources_adjMG_sorted M x)
      (mem_sources_adjMG.2 ⟨1, by decide, hd x hx⟩)
    have hrot : rotEntry M x = l := by unfold rotEntry; rw [s1]
    refine ⟨l, ?_, ?_, ?_, ?_⟩
    · rw [get?_mapSelf _ _ (by rw [hl]; exact (mem_labels_diag h2 hd x).2 hx), hrot]
    · exact s2.nodup_iff.2 (nodup_sources _ _)
    · rw [s2.length_eq]; exact s3
    · intro y
      rw [s2.mem_iff, mem_sources_adjMG]
      have : entry M y x = entry M x y := hs y x
      rw [this]

theorem step_mod {n a c : Nat} (ha : a < n) (hc : c < n) (hn : 3 ≤ n) :
    (∃ d : Int, d.natAbs ≤ 1 ∧ ((a : Int) + d) % (n : Int) = (c : Int)) ↔
      c = (a + n - 1) % n ∨ c = a ∨ c = (a + 1) % n := by
  have m1 : ((a : Int) + -1) % (n : Int) = (((a + n - 1) % n : Nat) : Int) := by
    rw [Int.natCast_emod, ← Int.add_emod_right]
    congr 1
    omega
  have m2 : ((a : Int) + 0) % (n : Int) = (a : Int) := by
    rw [Int.add_zero, Int.emod_eq_of_lt (by omega) (by omega)]
  have m3 : ((a : Int) + 1) % (n : Int) = (((a + 1) % n : Nat) : Int) := by
    rw [Int.natCast_emod]; rfl
  constructor
  · rintro ⟨d, hd, he⟩
    have : d = -1 ∨ d = 0 ∨ d = 1 := by omega
    rcases this with rfl | rfl | rfl
    · left; rw [m1] at he; exact (Int.ofNat.inj he).symm
    · right; left; rw [m2] at he; exact (Int.ofNat.inj he).symm
    · right; right; rw [m3] at he; exact (Int.ofNat.inj he).symm
  · rintro (rfl | rfl | rfl)
    · exact ⟨-1, by decide, m1⟩
    · exact ⟨0, by decide, m2⟩
    · exact ⟨1, by decide, m3⟩

theorem mod_distinct {n a : Nat} (ha : a < n) (hn : 3 ≤ n) :
    (a + n - 1) % n ≠ a ∧ (a + 1) % n ≠ a ∧ (a + n - 1) % n ≠ (a + 1) % n := by
  have e1 : (a + n - 1) % n = if a = 0 then n - 1 else a - 1 := by
    by_cases h : a = 0
    · subst h; rw [if_pos rfl, Nat.mod_eq_of_lt (by omega)]; omega
    · rw [if_neg h, show a + n - 1 = (a - 1) + n by omega, Nat.add_mod_right, Nat.mod_eq_of_lt (by omega)]
  have e2 : (a + 1) % n = if a + 1 = n then 0 else a + 1 := by
    by_cases h : a + 1 = n
    · rw [if_pos h, h, Nat.mod_self]
    · rw [if_neg h, Nat.mod_eq_of_lt (by omega)]
  rw [e1, e2]
  refine ⟨?_, ?_, ?_⟩ <;> split <;> (try split) <;> omega

/-- The cell and the eight cells around it are nine different cells. -/
theorem around_nodup {rows cols a b : Nat} (hr : 3 ≤ rows) (hc : 3 ≤ cols) (ha : a < rows) (hb : b < cols) :
    ((a, b) :: around rows cols a b).Nodup := by
  obtain ⟨h1, h2, h3⟩ := mod_distinct ha hr
  obtain ⟨k1, k2, k3⟩ := mod_distinct hb hc
  unfold around
  simp only [List.nodup_cons, List.mem_cons, List.not_mem_nil, Prod.mk.injEq, or_false, not_or, List.nodup_nil, and_true]
  simp [h1, h2, h3, k1, k2, k3, h1.symm, h2.symm, h3.symm, k1.symm, k2.symm, k3.symm]

theorem around_lt {rows cols a b : Nat} (hr : 3 ≤ rows) (hc : 3 ≤ cols) (ha : a < rows) (hb : b < cols) :
    ∀ p ∈ (a, b) :: around rows cols a b, p.1 < rows ∧ p.2 < cols := by
  have h1 := Nat.mod_lt (a + rows - 1) (by omega : rows > 0)
  have h2 := Nat.mod_lt (a + 1) (by omega : rows > 0)
  have h3 := Nat.mod_lt (b + cols - 1) (by omega : cols > 0)
  have h4 := Nat.mod_lt (b + 1) (by omega : cols > 0)
  intro p hp
  simp only [around, List.mem_cons, List.not_mem_nil, or_false] at hp
  rcases hp with rfl | rfl | rfl | rfl | rfl | rfl | rfl | rfl | rfl <;> exact ⟨by assumption, by assumption⟩

theorem moore_one {rows cols a b c d : Nat} (hr : 3 ≤ rows) (hc : 3 ≤ cols) (ha : a < rows) (hb : b < cols)
    (hc' : c < rows) (hd : d < cols) :
    TorusReach rows cols (MooreOffset 1) (a, b) (c, d) ↔ (c, d) ∈ (a, b) :: around rows cols a b := by
  have e1 := step_mod ha hc' hr
  have e2 := step_mod hb hd hc
  have : TorusReach rows cols (MooreOffset 1) (a, b) (c, d) ↔
      (∃ d : Int, d.natAbs ≤ 1 ∧ ((a : Int) + d) % (rows : Int) = (c : Int)) ∧
      (∃ e : Int, e.natAbs ≤ 1 ∧ ((b : Int) + e) % (cols : Int) = (d : Int)) := by
    constructor
    · rintro ⟨x, y, ⟨p1, p2⟩, p3, p4⟩
      exact ⟨⟨x, p1, p3⟩, ⟨y, p2, p4⟩⟩
    · rintro ⟨⟨x, p1, p3⟩, ⟨y, p2, p4⟩⟩
      exact ⟨x, y, ⟨p1, p2⟩, p3, p4⟩
  rw [this, e1, e2]
  simp only [around, List.mem_cons, List.not_mem_nil, or_false, Prod.mk.injEq]
  constructor
  · rintro ⟨h1 | h1 | h1, h2 | h2 | h2⟩ <;> simp [h1, h2]
  · rintro (h | h | h | h | h | h | h | h | h) <;> simp [h.1, h.2]

/-- Neighbours in the Moore network of radius 1, for any list with the right members. -/
theorem moore_perm {M : List (List Int)} {rows cols : Nat} (hr : 3 ≤ rows) (hc : 3 ≤ cols)
    (hM : GridMatrix rows cols (fun _ => MooreOffset 1) M) {a b : Nat} (ha : a < rows) (hb : b < cols) {l : List Nat}
    (hl : l.Nodup) (hm : ∀ y, y ∈ l ↔ ∃ v, v ≠ 0 ∧ entry M (a * cols + b) y = some v) :
    l.Perm (((a, b) :: around rows cols a b).map (fun p => p.1 * cols + p.2)) := by
  apply (List.perm_ext_iff_of_nodup hl ?_).2
  · intro y
    rw [hm]
    constructor
    · rintro ⟨v, hv, he⟩
      have hy : y < rows * cols := by
        unfold entry at he
        cases hrow : M[a * cols + b]? with
        | none => rw [hrow] at he; cases he
        | some row =>
          rw [hrow] at he
          have := (List.getElem?_eq_some_iff.1 he).1
          rw [hM.2.1 row (List.mem_of_getElem? hrow)] at this
          exact this
      obtain ⟨h1, h2, h3⟩ := split_label hy
      have g := hM.2.2 a b (y / cols) (y % cols) ha hb h1 h2
      rw [h3] at g
      have ht : TorusReach rows cols (MooreOffset 1) (a, b) (y / cols, y % cols) := by
        apply Classical.byContradiction
        intro hn
        have := g.2 hn
        unfold entry at he
        rw [this] at he
        exact hv (Option.some.inj he).symm
      rw [moore_one hr hc ha hb h1 h2] at ht
      exact List.mem_map.2 ⟨_, ht, h3⟩
    · intro hy
      obtain ⟨p, hp, rfl⟩ := List.mem_map.1 hy
      obtain ⟨p1, p2⟩ := around_lt hr hc ha hb p hp
      exact ⟨1, by decide, (hM.2.2 a b p.1 p.2 ha hb p1 p2).1 ((moore_one hr hc ha hb p1 p2).2 hp)⟩
  · have hlt := around_lt hr hc ha hb
    have hnd := around_nodup hr hc ha hb
    rw [List.Nodup, List.pairwise_map]
    refine List.Pairwise.imp_of_mem ?_ hnd
    intro p q hp hq hne heq
    obtain ⟨k1, k2⟩ := label_inj (hlt p hp).2 (hlt q hq).2 heq
    exact hne (Prod.ext k1 k2)

/-- The rule of the game on a neighbourhood that is the cell and the eight cells around it. -/
theorem life_step {rows cols : Nat} (hr : 3 ≤ rows) (hc : 3 ≤ cols) (s : Nat → Nat → Bool) (t : Nat) {x : Nat}
    (hx : x < rows * cols) {l : List Nat}
    (hl : l.Perm (((x / cols, x % cols) :: around rows cols (x / cols) (x % cols)).map (fun p => p.1 * cols + p.2)))
    (c : NodeCtx Nat Int Int I)
    (h1 : c.neighbourActs = l.map (fun y => if life rows cols s t (y / cols) (y % cols) then 1 else 0))
    (h2 : c.current = if life rows cols s t (x / cols) (x % cols) then 1 else 0) :
    orNone gameOfLife? c = .ok (if life rows cols s (t + 1) (x / cols) (x % cols) then 1 else 0) := by
  obtain ⟨ha, hb, hab⟩ := split_label hx
  have hval : ∀ p ∈ around rows cols (x / cols) (x % cols),
      (if life rows cols s t ((p.1 * cols + p.2) / cols) ((p.1 * cols + p.2) % cols) then (1 : Int) else 0) =
        if life rows cols s t p.1 p.2 then 1 else 0 := by
    intro p hp
    obtain ⟨k1, k2⟩ := around_lt hr hc ha hb p (List.mem_cons_of_mem _ hp)
    have q1 : (p.1 * cols + p.2) / cols = p.1 := by
      rw [Nat.mul_comm, Nat.mul_add_div (by omega), Nat.div_eq_of_lt k2, Nat.add_zero]
    have q2 : (p.1 * cols + p.2) % cols = p.2 := by
      rw [Nat.mul_comm, Nat.mul_add_mod, Nat.mod_eq_of_lt k2]
    rw [q1, q2]
  have hperm : c.neighbourActs.Perm (c.current ::
      (around rows cols (x / cols) (x % cols)).map (fun p => if life rows cols s t p.1 p.2 then (1 : Int) else 0)) := by
    rw [h1]
    refine (hl.map _).trans ?_
    rw [List.map_cons, List.map_cons, hab, h2, List.map_map]
    apply List.Perm.cons
    rw [List.map_congr_left (g := fun p => if life rows cols s t p.1 p.2 then (1 : Int) else 0) hval]
  have hb' : Binary (c.current ::
      (around rows cols (x / cols) (x % cols)).map (fun p => if life rows cols s t p.1 p.2 then (1 : Int) else 0)) := by
    intro v hv
    rcases List.mem_cons.1 hv with rfl | hv
    · rw [h2]; split <;> simp
    · obtain ⟨p, _, rfl⟩ := List.mem_map.1 hv
      split <;> simp
  rw [C32_life c _ hperm hb']
  have hcur : (c.current == 1) = life rows cols s t (x / cols) (x % cols) := by
    rw [h2]; cases life rows cols s t (x / cols) (x % cols) <;> rfl
  have hcount : ((around rows cols (x / cols) (x % cols)).map
      (fun p => if life rows cols s t p.1 p.2 then (1 : Int) else 0)).count 1 =
      (around rows cols (x / cols) (x % cols)).countP (fun p => life rows cols s t p.1 p.2) := by
    rw [List.count, List.countP_map]
    apply List.countP_congr
    intro p _
    simp only [Function.comp]
    cases life rows cols s t p.1 p.2 <;> decide
  rw [hcur, hcount]
  rfl

/-- C47.  On `cellular_automaton2d(rows, cols)`, `rows, cols ≥ 3`, Moore neighbourhood of radius 1, with
`game_of_life_rule` and any initial pattern `s`, an ordinary call of `evolve` (with or without memoization) returns,
and its states are Conway's Life on the torus. -/
theorem C47_game_of_life (rows cols : Nat) (hrw : 3 ≤ rows) (hcl : 3 ≤ cols) (cfg : Config Nat Int Int I σ κ) (T : Nat)
    (hT : 1 ≤ T) (h : cfg.Ordinary (orNone gameOfLife?) T) (N : Net Nat Int)
    (hN : cellularAutomaton2d rows cols 1 "Moore" true = .ok N) (r : Nat) (w : World Nat Int σ)
    (hr : w.heap[r]? = some N) (init : Option (Conds Nat Int)) (s : Nat → Nat → Bool)
    (hlen : (initDict cfg init).length = rows * cols)
    (h0 : ∀ a b, a < rows → b < cols → (initDict cfg init).get? (a * cols + b) = some (if s a b then 1 else 0))
    (fuel : Nat) (hf : T ≤ fuel) :
    ∃ res, evolve fuel cfg init r w = .ok res ∧ ShowsRun cfg res T (rows * cols)
      (fun t x => if life rows cols s t (x / cols) (x % cols) then 1 else 0) := by
  have h9 : 9 ≤ rows * cols := Nat.mul_le_mul hrw hcl
  obtain ⟨M, m1, m2⟩ := C41_moore rows cols 1 h9
  have hsym := C42_moore rows cols 1 M m1
  have hd : ∀ x, x < rows * cols → entry M x x = some 1 := by
    intro x hx
    obtain ⟨ha, hb, hab⟩ := split_label hx
    have := (m2.2.2 _ _ _ _ ha hb ha hb).1 ((moore_one hrw hcl ha hb ha hb).2 (List.mem_cons_self ..))
    rw [hab] at this
    exact this
  obtain ⟨N', rs, e1, e2, e3, e4⟩ := ordered_symmetric ⟨m2.1, m2.2.1⟩ hd hsym
  have hNN : N' = N := by
    unfold cellularAutomaton2d at hN
    rw [m1] at hN
    simp only [if_true] at hN
    rw [e1] at hN
    exact Except.ok.inj hN
  subst hNN
  have hnb : ∀ x, x < rows * cols → ∃ l, rs.get? x = some l ∧ l[l.length / 2]? = some x ∧
      l.Perm (((x / cols, x % cols) :: around rows cols (x / cols) (x % cols)).map (fun p => p.1 * cols + p.2)) := by
    intro x hx
    obtain ⟨l, l1, l2, l3, l4⟩ := e4 x hx
    obtain ⟨ha, hb, hab⟩ := split_label hx
    exact ⟨l, l1, l3, moore_perm hrw hcl m2 ha hb l2 (by rw [hab]; exact l4)⟩
  have hget : ∀ x, x < rows * cols → rs.get? x = some ((rs.get? x).getD []) ∧
      ((rs.get? x).getD [])[((rs.get? x).getD []).length / 2]? = some x ∧ ((rs.get? x).getD []).Perm
        (((x / cols, x % cols) :: around rows cols (x / cols) (x % cols)).map (fun p => p.1 * cols + p.2)) := by
    intro x hx
    obtain ⟨l, l1, l2, l3⟩ := hnb x hx
    rw [l1]
    exact ⟨rfl, l2, l3⟩
  have hrule : ∀ t x, x < rows * cols → ∀ c : NodeCtx Nat Int Int I,
      c.neighbourActs = ((rs.get? x).getD []).map (fun y => if life rows cols s t (y / cols) (y % cols) then 1 else 0) →
      c.current = (if life rows cols s t (x / cols) (x % cols) then 1 else 0) →
      orNone gameOfLife? c = .ok (if life rows cols s (t + 1) (x / cols) (x % cols) then 1 else 0) :=
    fun t x hx c k1 k2 => life_step hrw hcl s t hx (hget x hx).2.2 c k1 k2
  refine ca_run h hT (by omega) e3 (nb := fun x => (rs.get? x).getD []) ?_ hlen ?_ ?_ ?_ hr hf
  · intro x hx
    obtain ⟨l1, l2, l3⟩ := hget x hx
    obtain ⟨ha, hb, hab⟩ := split_label hx
    refine ⟨by simp only [specNbrs, e2]; exact l1, ?_⟩
    intro y hy
    obtain ⟨p, hp, rfl⟩ := List.mem_map.1 (l3.mem_iff.1 hy)
    obtain ⟨p1, p2⟩ := around_lt hrw hcl ha hb p hp
    exact label_lt p1 p2
  · intro x hx
    obtain ⟨ha, hb, hab⟩ := split_label hx
    have := h0 _ _ ha hb
    rw [hab] at this
    exact this
  · intro t ht x hx
    exact hrule t x hx _ rfl rfl
  · intro _
    refine ⟨by rw [e2]; rfl, ?_⟩
    intro t t' x x' ht ht' hx hx' heq
    -- two contexts with the same neighbourhood have the same centre
    have hcen : (if life rows cols s t (x / cols) (x % cols) then (1 : Int) else 0) =
        if life rows cols s t' (x' / cols) (x' % cols) then 1 else 0 := by
      have hlen' : ((rs.get? x).getD []).length = ((rs.get? x').getD []).length := by
        have := congrArg List.length heq
        simpa using this
      have := congrArg (fun l : List Int => l[((rs.get? x).getD []).length / 2]?) heq
      simp only [List.getElem?_map] at this
      rw [(hget x hx).2.1, hlen', (hget x' hx').2.1] at this
      simpa using this
    let c : NodeCtx Nat Int Int I := ⟨x, t, [], [], ((rs.get? x).getD []).map
      (fun y => if life rows cols s t (y / cols) (y % cols) then 1 else 0), [],
      (if life rows cols s t (x / cols) (x % cols) then 1 else 0), none, none⟩
    have q1 := hrule t x hx c rfl rfl
    have q2 := hrule t' x' hx' c heq hcen
    rw [q1] at q2
    exact Except.ok.inj q2

/-- A glider on a 5 × 6 torus, memoized: the hypotheses are met. -/
example : ∃ N res, cellularAutomaton2d 5 6 1 "Moore" true = .ok N ∧
    evolve 4 ({ Ex.base with rule := some (pureRule (orNone gameOfLife?)), input := .timesteps 4, memoize := true })
      (some (.dict (Dict.ofKeys (List.range 30) (fun x => if x ∈ [1, 8, 12, 13, 14] then 1 else 0)))) 0 ⟨[N], []⟩ = .ok res ∧
    ShowsRun { Ex.base with rule := some (pureRule (orNone gameOfLife?)), input := .timesteps 4, memoize := true } res 4 30
      (fun t x => if life 5 6 (fun a b => decide (a * 6 + b ∈ [1, 8, 12, 13, 14])) t (x / 6) (x % 6) then 1 else 0) := by
  obtain ⟨N, hN, _⟩ := C44_centre_partial.2 5 6 1 "Moore" (by decide) (by decide)
  obtain ⟨res, h1, h2⟩ := C47_game_of_life 5 6 (by omega) (by omega)
    { Ex.base with rule := some (pureRule (orNone gameOfLife?)), input := .timesteps 4, memoize := true } 4 (by omega)
    ⟨rfl, rfl, rfl, rfl, rfl, rfl, rfl⟩ N hN 0 ⟨[N], []⟩ rfl
    (some (.dict (Dict.ofKeys (List.range 30) (fun x => if x ∈ [1, 8, 12, 13, 14] then 1 else 0))))
    (fun a b => decide (a * 6 + b ∈ [1, 8, 12, 13, 14])) (by decide)
    (by
      intro a b ha hb
      simp only [initDict, Conds.toDict, Dict.get?_ofKeys]
      rw [if_pos (List.mem_range.2 (label_lt ha hb))]
      simp) 4 (by omega)
  exact ⟨N, res, hN, h1, h2⟩
/-- The glider after two steps. -/
example : ∀ a ∈ List.range 5, ∀ b ∈ List.range 6,
    life 5 6 (fun a b => decide (a * 6 + b ∈ [1, 8, 12, 13, 14])) 2 a b =
      decide (a * 6 + b ∈ [8, 12, 14, 19, 20]) := by decide +kernel

end
end Verif
