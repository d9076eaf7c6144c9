import Verif.Proofs.Torus
import Verif.Model.Ctrbl
/-! # Properties C49, C50, C51: CTRBL rules and Langton's loop -/

namespace Verif
open Spec

/-! ## C49 -/

/-- Label of a cell of a grid with `cols` columns. -/
def cellLabel (cols : Nat) (p : Nat × Nat) : Nat := p.1 * cols + p.2

/-- The neighbourhood that C49 asks for: the labels of the cell and of the cells above, to the right, below and to the
left, with wrap-around. -/
def torusHood (rows cols a b : Nat) : Hood where
  center := a * cols + b
  top := ((a + rows - 1) % rows) * cols + b
  right := a * cols + (b + 1) % cols
  bottom := ((a + 1) % rows) * cols + b
  left := a * cols + (b + cols - 1) % cols

theorem mod_mul_label {rows cols a b : Nat} (hb : b < cols) : (a * cols + b) % (rows * cols) = (a % rows) * cols + b := by
  have h := Nat.mod_mul_left_div_self (a * cols + b) cols rows
  obtain ⟨h1, h2⟩ := label_div (a := a) hb
  rw [h1] at h
  have h3 : (a * cols + b) % (rows * cols) % cols = b := by
    rw [Nat.mod_mul_left_mod, h2]
  have := Nat.div_add_mod' ((a * cols + b) % (rows * cols)) cols
  rw [h, h3] at this
  exact this.symm

theorem hoodOf_eq {rows cols a b : Nat} (ha : a < rows) (hb : b < cols) :
    hoodOf rows cols a (a * cols + b) = torusHood rows cols a b := by
  obtain ⟨p1, p2, p3⟩ := shift_mod hb
  have e0 : (((a * cols + b : Nat) : Int) - ((a * cols : Nat) : Int)) = (b : Int) := by omega
  unfold hoodOf torusHood
  congr 1
  · have : (((a * cols + b : Nat) : Int) - (cols : Int)) % ((rows * cols : Nat) : Int) =
        ((((a + rows - 1) * cols + b) % (rows * cols) : Nat) : Int) := by
      rw [Int.natCast_emod, ← Int.add_emod_right]
      congr 1
      have : (a + rows - 1) * cols + cols = a * cols + rows * cols := by
        rw [← Nat.add_mul, ← Nat.succ_mul]; congr 1; omega
      omega
    rw [this, mod_mul_label hb]; rfl
  · have : (((a * cols + b : Nat) : Int) + (cols : Int)) % ((rows * cols : Nat) : Int) =
        ((((a + 1) * cols + b) % (rows * cols) : Nat) : Int) := by
      rw [Int.natCast_emod]
      congr 1
      rw [Nat.succ_mul]; omega
    rw [this, mod_mul_label hb]; rfl
  · rw [e0, Int.sub_eq_add_neg, p1, Nat.add_comm]; rfl
  · rw [e0, p3, Nat.add_comm]; rfl

theorem hoodRow_eq {rows cols row : Nat} (k : Nat) (m : Dict Nat Hood) :
    let st := (List.range k).foldl (fun (st : Dict Nat Hood × Nat) _ => (st.1.set st.2 (hoodOf rows cols row st.2), st.2 + 1))
      (m, row * cols)
    st.2 = row * cols + k ∧ ∀ x, st.1.get? x =
      if row * cols ≤ x ∧ x < row * cols + k then some (hoodOf rows cols row x) else m.get? x := by
  induction k with
  | zero => exact ⟨rfl, fun x => by rw [if_neg (by omega)]; rfl⟩
  | succ k ih =>
    obtain ⟨h1, h2⟩ := ih
    rw [List.range_succ, List.foldl_append]
    refine ⟨by simp only [List.foldl_cons, List.foldl_nil]; rw [h1]; rfl, ?_⟩
    intro x
    simp only [List.foldl_cons, List.foldl_nil]
    rw [Dict.get?_set, h1, h2]
    by_cases hx : row * cols + k = x
    · subst hx
      rw [if_pos rfl, if_pos (by omega)]
    · rw [if_neg hx]
      by_cases hx' : row * cols ≤ x ∧ x < row * cols + k
      · rw [if_pos hx', if_pos (by omega)]
      · rw [if_neg hx', if_neg (by omega)]

theorem ctrblMap_get {rows cols a b : Nat} (ha : a < rows) (hb : b < cols) :
    (ctrblMap rows cols).get? (a * cols + b) = some (torusHood rows cols a b) := by
  have key : ∀ k, k ≤ rows → let st := (List.range k).foldl (fun st row => hoodRow rows cols row st) (([], 0) : Dict Nat Hood × Nat)
      st.2 = k * cols ∧ ∀ a b, a < k → b < cols → st.1.get? (a * cols + b) = some (torusHood rows cols a b) := by
    intro k
    induction k with
    | zero => intro _; exact ⟨by simp, by intro a b h; omega⟩
    | succ k ih =>
      intro hk
      obtain ⟨h1, h2⟩ := ih (by omega)
      rw [List.range_succ, List.foldl_append]
      simp only [List.foldl_cons, List.foldl_nil]
      generalize hst : (List.range k).foldl (fun st row => hoodRow rows cols row st) (([], 0) : Dict Nat Hood × Nat) = st at h1 h2 ⊢
      obtain ⟨m, i⟩ := st
      simp only at h1 h2
      subst h1
      obtain ⟨q1, q2⟩ := hoodRow_eq (rows := rows) (cols := cols) (row := k) cols m
      unfold hoodRow
      refine ⟨by rw [q1, Nat.succ_mul], ?_⟩
      intro a b ha hb
      rw [q2]
      by_cases hak : a = k
      · subst hak
        rw [if_pos (by omega), hoodOf_eq (by omega) hb]
      · have : (a + 1) * cols ≤ k * cols := Nat.mul_le_mul_right _ (by omega)
        rw [Nat.succ_mul] at this
        rw [if_neg (by omega)]
        exact h2 a b (by omega) hb
  exact (key rows (Nat.le_refl _)).2 a b ha hb

/-- C49.  For every shape with at least nine cells (fewer raise, `C49_raises`), the neighbourhood map gives the torus
neighbourhood of every cell, the rotation system lists it in the order centre, top, right, bottom, left, and these are
exactly the nodes with an edge to the cell. -/
theorem C49_torus (rows cols : Nat) (h9 : 9 ≤ rows * cols) :
    ∃ N rs, ctrblNetwork rows cols = .ok N ∧ N.rotation = some rs ∧ N.labels.Perm (List.range (rows * cols)) ∧
      ∀ a b, a < rows → b < cols →
        (ctrblMap rows cols).get? (a * cols + b) = some (torusHood rows cols a b) ∧
        rs.get? (a * cols + b) = some (((a, b) :: cross rows cols a b).map (cellLabel cols)) ∧
        ∃ inc, N.inEdges (a * cols + b) = .ok inc ∧ ∀ y, y ∈ inc.keys ↔ y ∈ ((a, b) :: cross rows cols a b).map (cellLabel cols) := by
  obtain ⟨M, m1, m2⟩ := C41_von_neumann rows cols 1 h9
  have hsym := C42_von_neumann rows cols 1 M m1
  have hd : ∀ x, x < rows * cols → entry M x x = some 1 := by
    intro x hx
    obtain ⟨ha, hb, hab⟩ := split_label hx
    have := (m2.2.2 _ _ _ _ ha hb ha hb).1 ((von_neumann_one ha hb).2 (List.mem_cons_self ..))
    rw [hab] at this
    exact this
  obtain ⟨hof, hv⟩ := fromAdjacencyMatrix_eq M
  have hl : (fromAdjacencyMatrix M).labels = (adjMG M).labels := by rw [hof]; exact labels_ofMG _
  have hmem : ∀ x, x ∈ (adjMG M).labels ↔ x < rows * cols := mem_labels_diag ⟨m2.1, m2.2.1⟩ hd
  let F : Nat → List Nat := fun x => (((x / cols, x % cols) :: cross rows cols (x / cols) (x % cols))).map (cellLabel cols)
  have hent : ∀ x ∈ (fromAdjacencyMatrix M).labels, ctrblEntry (ctrblMap rows cols) x = .ok (x, F x) := by
    intro x hx
    rw [hl, hmem] at hx
    obtain ⟨ha, hb, hab⟩ := split_label hx
    have hg := ctrblMap_get ha hb
    rw [hab] at hg
    unfold ctrblEntry
    rw [Dict.get_eq_ok_iff.2 hg]
    simp only [torusHood, F, cross, cellLabel, List.map_cons, List.map_nil]
  have hset : Net.setRotation ((fromAdjacencyMatrix M).labels.map (fun x => (x, F x))) (fromAdjacencyMatrix M) =
      (.ok (), { fromAdjacencyMatrix M with rotation := some ((fromAdjacencyMatrix M).labels.map (fun x => (x, F x))) }) := by
    have hhas : ∀ y, y < rows * cols → (fromAdjacencyMatrix M).nodes.has y = true := by
      intro y hy
      rw [hof, has_ofMG]
      exact decide_eq_true ((hmem y).2 hy)
    unfold Net.setRotation
    rw [if_pos]
    rw [List.all_eq_true]
    intro p hp
    obtain ⟨x, hx, rfl⟩ := List.mem_map.1 hp
    rw [hl, hmem] at hx
    obtain ⟨ha, hb, hab⟩ := split_label hx
    rw [Bool.and_eq_true, List.all_eq_true]
    refine ⟨hhas x hx, ?_⟩
    intro y hy
    obtain ⟨q, hq, rfl⟩ := List.mem_map.1 hy
    obtain ⟨q1, q2⟩ := cross_lt ha hb q hq
    exact hhas _ (label_lt q1 q2)
  refine ⟨{ fromAdjacencyMatrix M with rotation := some ((fromAdjacencyMatrix M).labels.map (fun x => (x, F x))) },
    (fromAdjacencyMatrix M).labels.map (fun x => (x, F x)), ?_, rfl, ?_, ?_⟩
  · unfold ctrblNetwork cellularAutomaton2d
    rw [m1]
    simp only [Bool.false_eq_true, if_false]
    rw [mapM_total (g := fun x => (x, F x)) hent]
    simp only
    rw [ofPairs_nodup, hset]
    rw [List.map_map]
    have : (Prod.fst ∘ fun x => (x, F x)) = (id : Nat → Nat) := rfl
    rw [this, List.map_id, hl]
    exact hv.nodup
  · show (fromAdjacencyMatrix M).labels.Perm _
    rw [hl]; exact perm_range_of_mem hv.nodup hmem
  · intro a b ha hb
    have hx := label_lt ha hb
    obtain ⟨q1, q2⟩ := label_div (a := a) hb
    refine ⟨ctrblMap_get ha hb, ?_, ?_⟩
    · rw [get?_mapSelf _ _ (by rw [hl, hmem]; exact hx)]
      simp only [F, q1, q2]
    · show ∃ inc, (fromAdjacencyMatrix M).inEdges _ = .ok inc ∧ _
      rw [hof, inEdges_ofMG ((hmem _).2 hx)]
      refine ⟨_, rfl, ?_⟩
      intro y
      rw [keys_incomingOf, mem_sources_adjMG]
      have hs : entry M y (a * cols + b) = entry M (a * cols + b) y := hsym _ _
      rw [hs]
      exact grid_mem m2 ha hb (cross_lt ha hb) (fun c d _ _ => von_neumann_one ha hb) y

theorem C49_raises (rows cols : Nat) (h9 : rows * cols < 9) : ∃ e, ctrblNetwork rows cols = .error e := by
  obtain ⟨e, he⟩ := (C41_raises_iff rows cols 1 "von Neumann" "periodic").2 (Or.inl h9)
  exact ⟨e, by unfold ctrblNetwork cellularAutomaton2d; rw [he]⟩

example : torusHood 3 4 0 3 = ⟨3, 11, 7, 2, 0⟩ ∧ (ctrblMap 3 4).get? 3 = some ⟨3, 11, 7, 2, 0⟩ := by decide
example : ∃ N rs, ctrblNetwork 3 4 = .ok N ∧ N.rotation = some rs ∧ rs.get? 3 = some [3, 11, 0, 7, 2] := by
  obtain ⟨N, rs, h1, h2, _, h4⟩ := C49_torus 3 4 (by decide)
  exact ⟨N, rs, h1, h2, (h4 0 3 (by decide) (by decide)).2.1⟩

/-! ## C50 -/

section
variable {A V I : Type} [DecidableEq V]

/-- A quarter turn of a neighbourhood listed as centre, top, right, bottom, left: what was on the left comes on top. -/
def turn : List V → List V
  | [c, t, r, b, l] => [c, l, t, r, b]
  | k => k

/-- The four positions of a neighbourhood. -/
def turns (k : List V) : List (List V) := [k, turn k, turn (turn k), turn (turn (turn k))]

omit [DecidableEq V] in
theorem turn_four (k : List V) : turn (turn (turn (turn k))) = k := by
  match k with
  | [] | [_] | [_, _] | [_, _, _] | [_, _, _, _] | [_, _, _, _, _] => rfl
  | _ :: _ :: _ :: _ :: _ :: _ :: _ => rfl

omit [DecidableEq V] in
theorem mem_turns_turn {k p : List V} : turn k ∈ turns p ↔ k ∈ turns p := by
  unfold turns
  simp only [List.mem_cons, List.not_mem_nil, or_false]
  have hinj : ∀ q, turn k = turn q → k = q := by
    intro q h
    have := congrArg (fun z => turn (turn (turn z))) h
    simp only [turn_four] at this
    exact this
  constructor
  · rintro (h | h | h | h)
    · right; right; right; rw [← h, turn_four]
    · left; exact hinj _ h
    · right; left; exact hinj _ h
    · right; right; left; exact hinj _ h
  · rintro (h | h | h | h)
    · right; left; rw [h]
    · right; right; left; rw [h]
    · right; right; right; rw [h]
    · left; rw [h, turn_four]

omit [DecidableEq V] in
theorem rotateOnce_five {k : List V} (h : k.length = 5) : rotateOnce k = .ok (turn k) := by
  match k, h with
  | [c, t, r, b, l], _ => rfl

omit [DecidableEq V] in
theorem turn_length (k : List V) : (turn k).length = k.length := by
  unfold turn; split <;> rfl

/-- One rule of the given table sets its four positions. -/
theorem addRotations_three {k : List V} (h : k.length = 5) (v : V) (table : Dict (List V) V) :
    ∃ t', addRotations v 3 k (table.set k v) = .ok t' ∧
      ∀ q, t'.get? q = if q ∈ turns k then some v else table.get? q := by
  refine ⟨_, by simp only [addRotations, rotateOnce_five h, rotateOnce_five ((turn_length k).trans h),
    rotateOnce_five ((turn_length _).trans ((turn_length k).trans h))]; rfl, ?_⟩
  intro q
  rw [Dict.get?_set, Dict.get?_set, Dict.get?_set, Dict.get?_set]
  unfold turns
  simp only [List.mem_cons, List.not_mem_nil, or_false]
  by_cases h0 : q = k
  · rw [if_pos (c := q = k ∨ _) (Or.inl h0), if_pos h0.symm]; split <;> (try rfl); split <;> (try rfl); split <;> rfl
  by_cases h1 : q = turn k
  · rw [if_pos (c := q = k ∨ _) (by simp [h1]), if_pos h1.symm]; split <;> (try rfl); split <;> rfl
  by_cases h2 : q = turn (turn k)
  · rw [if_pos (c := q = k ∨ _) (by simp [h2]), if_pos h2.symm]; split <;> rfl
  by_cases h3 : q = turn (turn (turn k))
  · rw [if_pos (c := q = k ∨ _) (by simp [h3]), if_pos h3.symm]
  · rw [if_neg (fun h => h3 h.symm), if_neg (fun h => h2 h.symm), if_neg (fun h => h1 h.symm), if_neg (fun h => h0 h.symm),
      if_neg (by simp [h0, h1, h2, h3])]

theorem initRuleTable_get (rules : List (List V × V)) (h5 : ∀ p ∈ rules, p.1.length = 5) (table : Dict (List V) V) :
    ∃ t', initRuleTable true rules table = .ok t' ∧
      ∀ q, t'.get? q = match rules.reverse.find? (fun p => decide (q ∈ turns p.1)) with
        | some p => some p.2
        | none => table.get? q := by
  induction rules generalizing table with
  | nil => exact ⟨table, rfl, fun q => rfl⟩
  | cons p rules ih =>
    obtain ⟨k, v⟩ := p
    obtain ⟨t1, e1, e2⟩ := addRotations_three (h5 (k, v) (List.mem_cons_self ..)) v table
    obtain ⟨t2, f1, f2⟩ := ih (fun p hp => h5 p (List.mem_cons_of_mem _ hp)) t1
    refine ⟨t2, ?_, ?_⟩
    · simp only [initRuleTable, if_true, e1]
      exact f1
    · intro q
      rw [f2, List.reverse_cons, List.find?_append]
      cases hf : rules.reverse.find? (fun p => decide (q ∈ turns p.1)) with
      | some p' => rfl
      | none =>
        simp only [Option.none_or, List.find?_cons, List.find?_nil]
        rw [e2]
        by_cases hq : q ∈ turns k
        · rw [if_pos hq, decide_eq_true hq]
        · rw [if_neg hq, decide_eq_false hq]

/-- C50.  With `add_rotations=True`, for every table whose keys are 5-tuples, with or without conflicting rotations:
the construction returns; the keys of the new table are exactly the rotations of the given ones; the image of a
neighbourhood is that of the last given rule of which it is a rotation; and turning a neighbourhood does not change its
image. -/
theorem C50_rotations (rules : List (List V × V)) (h5 : ∀ p ∈ rules, p.1.length = 5) :
    ∃ table, initRuleTable true rules [] = .ok table ∧
      (∀ q, q ∈ table.keys ↔ ∃ p ∈ rules, q ∈ turns p.1) ∧
      (∀ q, table.get? q = (rules.reverse.find? (fun p => decide (q ∈ turns p.1))).map Prod.snd) ∧
      ∀ q, table.get? (turn q) = table.get? q := by
  obtain ⟨table, e1, e2⟩ := initRuleTable_get rules h5 []
  have e3 : ∀ q, table.get? q = (rules.reverse.find? (fun p => decide (q ∈ turns p.1))).map Prod.snd := by
    intro q
    rw [e2]
    cases rules.reverse.find? (fun p => decide (q ∈ turns p.1)) <;> rfl
  refine ⟨table, e1, ?_, e3, ?_⟩
  · intro q
    rw [← Dict.isSome_get?_iff, e3, Option.isSome_map, List.find?_isSome]
    simp
  · intro q
    rw [e3, e3]
    simp only [mem_turns_turn]

/-- C50, tables without conflicting rotations: every rotation of a rule has that rule's image. -/
theorem C50_no_conflict (rules : List (List V × V)) (h5 : ∀ p ∈ rules, p.1.length = 5)
    (hc : ∀ p ∈ rules, ∀ p' ∈ rules, ∀ q, q ∈ turns p.1 → q ∈ turns p'.1 → p.2 = p'.2) (table : Dict (List V) V)
    (ht : initRuleTable true rules [] = .ok table) : ∀ p ∈ rules, ∀ q ∈ turns p.1, table.get? q = some p.2 := by
  obtain ⟨t, e1, _, e3, _⟩ := C50_rotations rules h5
  rw [ht] at e1
  cases e1
  intro p hp q hq
  rw [e3]
  cases hf : rules.reverse.find? (fun p => decide (q ∈ turns p.1)) with
  | none =>
    rw [List.find?_eq_none] at hf
    have := hf p (List.mem_reverse.2 hp)
    simp [hq] at this
  | some p' =>
    have h1 := List.find?_some hf
    have h2 := List.mem_reverse.1 (List.mem_of_find?_eq_some hf)
    rw [Option.map_some, hc p' h2 p hp q (of_decide_eq_true h1) hq]

/-- C50: the rule raises exactly for the neighbourhoods outside the table (any table), returns the image for the others,
and, when the table was made with `add_rotations=True`, gives the same result for a turned neighbourhood. -/
theorem C50_rule (rules : List (List V × V)) (h5 : ∀ p ∈ rules, p.1.length = 5) (table : Dict (List V) V)
    (ht : initRuleTable true rules [] = .ok table) (c c' : NodeCtx Nat A V I) :
    ((∃ e, ctrblRule table c = .error e) ↔ ¬ ∃ p ∈ rules, c.neighbourActs ∈ turns p.1) ∧
    (∀ v, ctrblRule table c = .ok v ↔ table.get? c.neighbourActs = some v) ∧
    (c'.neighbourActs = turn c.neighbourActs → ctrblRule table c' = ctrblRule table c) := by
  obtain ⟨t, e1, e2, _, e4⟩ := C50_rotations rules h5
  rw [ht] at e1
  cases e1
  refine ⟨?_, ?_, ?_⟩
  · rw [← e2, ← Dict.isSome_get?_iff]
    unfold ctrblRule
    cases table.get? c.neighbourActs with
    | none => simp; split <;> exact ⟨_, rfl⟩
    | some v => simp
  · intro v
    unfold ctrblRule
    cases table.get? c.neighbourActs with
    | none => simp; split <;> simp
    | some v => simp
  · intro h
    unfold ctrblRule
    rw [h, e4, turn_length]

/-- Beyond the claim: with `add_rotations=True` a key with fewer than five entries raises `IndexError`. -/
theorem C50_short_key (k : List V) (v : V) (rest : List (List V × V)) (table : Dict (List V) V) (h : k.length < 5) :
    initRuleTable true ((k, v) :: rest) table = .error .indexError := by
  have : k[4]? = none := by rw [List.getElem?_eq_none_iff]; omega
  simp [initRuleTable, addRotations, rotateOnce, this]

/-- Beyond the claim: without `add_rotations` the table is the given dict. -/
theorem C50_plain (rules : List (List V × V)) (hn : (rules.map Prod.fst).Nodup) :
    initRuleTable false rules [] = .ok rules := by
  have : ∀ (rules : List (List V × V)) (t : Dict (List V) V),
      initRuleTable false rules t = .ok (rules.foldl (fun d p => d.set p.1 p.2) t) := by
    intro rules
    induction rules with
    | nil => intro t; rfl
    | cons p rules ih => intro t; simp only [initRuleTable, Bool.false_eq_true, if_false]; exact ih _
  rw [this]
  exact congrArg Except.ok (ofPairs_nodup rules hn)

end

example : turns [9, 1, 2, 3, 4] = [[9, 1, 2, 3, 4], [9, 4, 1, 2, 3], [9, 3, 4, 1, 2], [9, 2, 3, 4, 1]] := by decide
/-- A table with two conflicting rules: the second wins in all four positions. -/
example : (initRuleTable true [([0, 1, 0, 0, 0], 5), ([0, 0, 0, 1, 0], 6)] []).map (fun t => t.map Prod.snd) =
    .ok [6, 6, 6, 6] := by decide

/-! ## Whole runs (C49 and C50 together) -/

/-- The automaton on the torus: every cell moves to the image of its neighbourhood (centre, top, right, bottom, left).
`f t a b` is the state of cell `(a, b)` after `t` steps. -/
def CtrblRun {V : Type} (rows cols : Nat) (image : List V → Option V) (T : Nat) (f : Nat → Nat → Nat → V) : Prop :=
  ∀ t, t + 1 < T → ∀ a b, a < rows → b < cols →
    image (((a, b) :: cross rows cols a b).map (fun p => f t p.1 p.2)) = some (f (t + 1) a b)

/-- On the network of a CTRBL rule with any table, when every neighbourhood that occurs is in the table, an ordinary call
of `evolve` (with or without memoization) returns and shows the automaton on the torus. -/
theorem C49_run {V I σ κ : Type} [DecidableEq V] [DecidableEq κ] (rows cols : Nat) (h9 : 9 ≤ rows * cols)
    (table : Dict (List V) V) (cfg : Config Nat Int V I σ κ) (T : Nat) (hT : 1 ≤ T) (h : cfg.Ordinary (ctrblRule table) T)
    (N : Net Nat Int) (hN : ctrblNetwork rows cols = .ok N) (r : Nat) (w : World Nat Int σ) (hr : w.heap[r]? = some N)
    (init : Option (Conds Nat V)) (hlen : (initDict cfg init).length = rows * cols) (f : Nat → Nat → Nat → V)
    (h0 : ∀ a b, a < rows → b < cols → (initDict cfg init).get? (a * cols + b) = some (f 0 a b))
    (hf : CtrblRun rows cols (fun k => table.get? k) T f) (fuel : Nat) (hfu : T ≤ fuel) :
    ∃ res, evolve fuel cfg init r w = .ok res ∧
      ShowsRun cfg res T (rows * cols) (fun t x => f t (x / cols) (x % cols)) := by
  obtain ⟨N', rs, e1, e2, e3, e4⟩ := C49_torus rows cols h9
  rw [hN] at e1
  cases e1
  have hnb : ∀ x, x < rows * cols → rs.get? x =
      some (((x / cols, x % cols) :: cross rows cols (x / cols) (x % cols)).map (cellLabel cols)) := by
    intro x hx
    obtain ⟨ha, hb, hab⟩ := split_label hx
    have := (e4 _ _ ha hb).2.1
    rw [hab] at this
    exact this
  have hacts : ∀ t x, x < rows * cols →
      (((x / cols, x % cols) :: cross rows cols (x / cols) (x % cols)).map (cellLabel cols)).map
        (fun y => f t (y / cols) (y % cols)) =
      ((x / cols, x % cols) :: cross rows cols (x / cols) (x % cols)).map (fun p => f t p.1 p.2) := by
    intro t x hx
    obtain ⟨ha, hb, hab⟩ := split_label hx
    rw [List.map_map]
    apply List.map_congr_left
    intro p hp
    obtain ⟨q1, q2⟩ := label_div (a := p.1) (cross_lt ha hb p hp).2
    simp only [Function.comp, cellLabel, q1, q2]
  have hstep : ∀ t x, t + 1 < T → x < rows * cols →
      table.get? ((((x / cols, x % cols) :: cross rows cols (x / cols) (x % cols)).map (cellLabel cols)).map
        (fun y => f t (y / cols) (y % cols))) = some (f (t + 1) (x / cols) (x % cols)) := by
    intro t x ht hx
    obtain ⟨ha, hb, hab⟩ := split_label hx
    rw [hacts t x hx]
    exact hf t ht _ _ ha hb
  refine ca_run h hT (by omega) e3
    (nb := fun x => ((x / cols, x % cols) :: cross rows cols (x / cols) (x % cols)).map (cellLabel cols)) ?_ hlen ?_ ?_ ?_ hr hfu
  · intro x hx
    obtain ⟨ha, hb, hab⟩ := split_label hx
    refine ⟨by simp only [specNbrs, e2]; exact hnb x hx, ?_⟩
    intro y hy
    obtain ⟨p, hp, rfl⟩ := List.mem_map.1 hy
    obtain ⟨p1, p2⟩ := cross_lt ha hb p hp
    exact label_lt p1 p2
  · intro x hx
    obtain ⟨ha, hb, hab⟩ := split_label hx
    have := h0 _ _ ha hb
    rw [hab] at this
    exact this
  · intro t ht x hx
    have := hstep t x ht hx
    unfold ctrblRule
    simp only [plainCtx, runCtx]
    rw [this]
  · intro _
    refine ⟨by rw [e2]; rfl, ?_⟩
    intro t t' x x' ht ht' hx hx' heq
    have q1 := hstep t x ht hx
    have q2 := hstep t' x' ht' hx'
    rw [heq, q2] at q1
    exact (Option.some.inj q1).symm

/-- A table for the example below: a lone 1 stays. -/
def loneTable : Dict (List Int) Int :=
  [([0, 0, 0, 0, 0], 0), ([1, 0, 0, 0, 0], 1), ([0, 1, 0, 0, 0], 0), ([0, 0, 1, 0, 0], 0), ([0, 0, 0, 1, 0], 0),
    ([0, 0, 0, 0, 1], 0)]

/-- A lone 1 on a 3 × 4 torus, memoized: the hypotheses are met. -/
example : ∃ N res, ctrblNetwork 3 4 = .ok N ∧
    evolve 3 ({ Ex.base with rule := some (pureRule (ctrblRule loneTable)), input := .timesteps 3, memoize := true })
      (some (.list [0, 0, 0, 0, 0, 1, 0, 0, 0, 0, 0, 0])) 0 ⟨[N], []⟩ = .ok res ∧
    ShowsRun { Ex.base with rule := some (pureRule (ctrblRule loneTable)), input := .timesteps 3, memoize := true } res 3 12
      (fun _ x => if x / 4 = 1 ∧ x % 4 = 1 then 1 else 0) := by
  obtain ⟨N, _, hN, _⟩ := C49_torus 3 4 (by decide)
  obtain ⟨res, h1, h2⟩ := C49_run 3 4 (by omega) loneTable
    { Ex.base with rule := some (pureRule (ctrblRule loneTable)), input := .timesteps 3, memoize := true }
    3 (by omega) ⟨rfl, rfl, rfl, rfl, rfl, rfl, rfl⟩ N hN 0 ⟨[N], []⟩ rfl
    (some (.list [0, 0, 0, 0, 0, 1, 0, 0, 0, 0, 0, 0])) (by decide) (fun _ a b => if a = 1 ∧ b = 1 then 1 else 0) (by
      intro a b ha hb
      have : ∀ a ∈ List.range 3, ∀ b ∈ List.range 4,
          (initDict Ex.base (some (.list [0, 0, 0, 0, 0, 1, 0, 0, 0, 0, 0, 0]))).get? (a * 4 + b) =
            some (if a = 1 ∧ b = 1 then 1 else 0) := by decide
      exact this a (List.mem_range.2 ha) b (List.mem_range.2 hb)) (by
      intro t _ a b ha hb
      have : ∀ a ∈ List.range 3, ∀ b ∈ List.range 4,
          loneTable.get? (((a, b) :: cross 3 4 a b).map (fun p => if p.1 = 1 ∧ p.2 = 1 then 1 else 0)) =
            some (if a = 1 ∧ b = 1 then 1 else 0) := by decide
      exact this a (List.mem_range.2 ha) b (List.mem_range.2 hb)) 3 (by omega)
  exact ⟨N, res, hN, h1, h2⟩

/-! ## C51 -/

/-- Number with the given base-8 digits; used to compare neighbourhoods quickly. -/
def octal (k : List Nat) : Nat := k.foldl (fun n x => 8 * n + x) 0

/-- Two rules with a common rotation have the same image; checked through `octal`. -/
def agree (rules : List (List Nat × Nat)) : Bool :=
  rules.all (fun p => rules.all (fun p' => Nat.beq p.2 p'.2 || (turns p'.1).all (fun k => !Nat.beq (octal p.1) (octal k))))

theorem turns_trans {V : Type} {k p p' : List V} (h : k ∈ turns p) (h' : k ∈ turns p') : p ∈ turns p' := by
  simp only [turns, List.mem_cons, List.not_mem_nil, or_false] at h
  rcases h with rfl | rfl | rfl | rfl <;> simpa only [mem_turns_turn] using h'

theorem digits_table (rules : List (List Nat × Nat))
    (hd : ∀ p ∈ rules, p.1.length = 5 ∧ (∀ x ∈ p.1, x ≤ 7) ∧ p.2 ≤ 7) (hc : agree rules = true)
    (h0 : ([0, 0, 0, 0, 0], 0) ∈ rules) : ∃ table, initRuleTable true rules [] = .ok table ∧
    (∀ k v, table.get? k = some v → k.length = 5 ∧ (∀ x ∈ k, x ≤ 7) ∧ v ≤ 7) ∧
    (∀ k, ∀ k' ∈ turns k, table.get? k' = table.get? k) ∧
    (∀ p ∈ rules, ∀ k ∈ turns p.1, table.get? k = some p.2) ∧
    table.get? [0, 0, 0, 0, 0] = some 0 := by
  have hturn : ∀ k : List Nat, (∀ x ∈ k, x ≤ 7) → ∀ x ∈ turn k, x ≤ 7 := by
    intro k
    unfold turn
    split
    · intro h x hx
      apply h
      simp only [List.mem_cons, List.not_mem_nil, or_false] at hx ⊢
      rcases hx with h | h | h | h | h <;> simp [h]
    · exact id
  have h5 : ∀ p ∈ rules, p.1.length = 5 := fun p hp => (hd p hp).1
  have hag : ∀ p ∈ rules, ∀ p' ∈ rules, ∀ q, q ∈ turns p.1 → q ∈ turns p'.1 → p.2 = p'.2 := by
    intro p hp p' hp' q hq hq'
    have h := List.all_eq_true.1 (List.all_eq_true.1 hc p hp) p' hp'
    simp only [Bool.or_eq_true, List.all_eq_true] at h
    rcases h with h | h
    · exact Nat.eq_of_beq_eq_true h
    · have := h _ (turns_trans hq hq')
      rw [Nat.beq_refl] at this
      cases this
  obtain ⟨table, e1, e2, e3, e4⟩ := C50_rotations rules h5
  have hall := C50_no_conflict rules h5 hag table e1
  refine ⟨table, e1, ?_, ?_, hall, ?_⟩
  · intro k v hv
    rw [e3] at hv
    cases hf : rules.reverse.find? (fun p => decide (k ∈ turns p.1)) with
    | none => rw [hf] at hv; cases hv
    | some p =>
      rw [hf] at hv
      cases hv
      have h1 := List.find?_some hf
      replace h1 : k ∈ turns p.1 := of_decide_eq_true h1
      obtain ⟨q1, q2, q3⟩ := hd p (List.mem_reverse.1 (List.mem_of_find?_eq_some hf))
      refine ⟨?_, ?_, q3⟩
      · simp only [turns, List.mem_cons, List.not_mem_nil, or_false] at h1
        rcases h1 with rfl | rfl | rfl | rfl <;> simp only [turn_length, q1]
      · simp only [turns, List.mem_cons, List.not_mem_nil, or_false] at h1
        rcases h1 with rfl | rfl | rfl | rfl
        · exact q2
        · exact hturn _ q2
        · exact hturn _ (hturn _ q2)
        · exact hturn _ (hturn _ (hturn _ q2))
  · intro k k' hk'
    simp only [turns, List.mem_cons, List.not_mem_nil, or_false] at hk'
    rcases hk' with rfl | rfl | rfl | rfl <;> simp only [e4]
  · exact hall _ h0 _ (by decide)

/-- C51.  The table of `LangtonsLoop`: it is built, its keys are neighbourhoods over `0 .. 7` and its images are in
`0 .. 7`; the four positions of a neighbourhood have the same image (or all are missing); every listed rule is kept (no two
listed rules contradict each other up to rotation); the empty neighbourhood stays empty. -/
theorem C51_langton : ∃ table, initRuleTable true langtonRules [] = .ok table ∧
    (∀ k v, table.get? k = some v → k.length = 5 ∧ (∀ x ∈ k, x ≤ 7) ∧ v ≤ 7) ∧
    (∀ k, ∀ k' ∈ turns k, table.get? k' = table.get? k) ∧
    (∀ p ∈ langtonRules, ∀ k ∈ turns p.1, table.get? k = some p.2) ∧
    table.get? [0, 0, 0, 0, 0] = some 0 := by
  exact digits_table langtonRules (by decide +kernel) (by decide +kernel) (by decide +kernel)

/-- The table is not total: a neighbourhood over the states `0 .. 7` that is missing (the class comment says so). -/
theorem C51_not_total : ∃ table, initRuleTable true langtonRules [] = .ok table ∧ table.get? [4, 4, 4, 4, 4] = none := by
  have hm : ∀ p ∈ langtonRules, p.1.length = 5 ∧ ([4, 4, 4, 4, 4] : List Nat) ∉ turns p.1 := by decide +kernel
  generalize langtonRules = rules at hm
  obtain ⟨table, e1, e2, _, _⟩ := C50_rotations rules (fun p hp => (hm p hp).1)
  refine ⟨table, e1, ?_⟩
  rw [Dict.get?_eq_none_iff, e2]
  rintro ⟨p, hp, h⟩
  exact (hm p hp).2 h

end Verif
