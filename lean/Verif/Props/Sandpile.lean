import Verif.Proofs.Torus
import Verif.Model.Sandpile
/-! # Property C48: the sandpile -/

namespace Verif
open Spec

/-! ## The rule -/

theorem idxOf?_erase {x : Nat} {l : List Nat} (h : x ∈ l) (f : Nat → Int) :
    ∃ i, l.idxOf? x = some i ∧ i < l.length ∧ (l.map f).eraseIdx i = (l.erase x).map f := by
  induction l with
  | nil => cases h
  | cons y l ih =>
    by_cases hy : y = x
    · subst hy
      exact ⟨0, by simp [List.idxOf?_cons], by simp, by simp⟩
    · obtain ⟨i, h1, h2, h3⟩ := ih (by
        rcases List.mem_cons.1 h with h | h
        · exact absurd h.symm hy
        · exact h)
      refine ⟨i + 1, ?_, by simp; omega, ?_⟩
      · rw [List.idxOf?_cons, h1]
        simp [hy]
      · rw [List.map_cons, List.eraseIdx_cons_succ, h3, List.erase_cons_tail (by simpa using hy), List.map_cons]

theorem toppleIn_eq (acts : List Int) (v : Int) : toppleIn acts v = v + (acts.countP (fun u => decide (u ≥ 4)) : Nat) := by
  unfold toppleIn
  induction acts generalizing v with
  | nil => simp
  | cons u acts ih =>
    rw [List.foldl_cons, ih, List.countP_cons]
    by_cases h : u ≥ 4
    · rw [if_pos h, if_pos (decide_eq_true h)]; omega
    · rw [if_neg h, if_neg (by simpa using h)]; omega

theorem boundary_iff {rows cols a b : Nat} (ha : a < rows) (hb : b < cols) :
    a * cols + b ∈ boundaryIndices rows cols ↔ onEdge rows cols a b = true := by
  unfold boundaryIndices onEdge
  simp only [List.mem_append, List.mem_map, List.mem_range, Bool.or_eq_true, beq_iff_eq]
  constructor
  · rintro (((⟨j, hj, he⟩ | ⟨j, hj, he⟩) | ⟨i, hi, he⟩) | ⟨i, hi, he⟩)
    · have := label_inj hj hb he; omega
    · have := label_inj hj hb he; omega
    · have := label_inj (by omega) hb he; omega
    · have := label_inj (by omega) hb he; omega
  · rintro (((rfl | h) | rfl) | h)
    · exact Or.inl (Or.inl (Or.inl ⟨b, hb, rfl⟩))
    · exact Or.inl (Or.inl (Or.inr ⟨b, hb, by rw [show rows - 1 = a by omega]⟩))
    · exact Or.inl (Or.inr ⟨a, ha, rfl⟩)
    · exact Or.inr ⟨a, ha, by rw [show cols - 1 = b by omega]⟩

section
variable {A I σ κ : Type} [DecidableEq κ]

/-- The rule on a neighbourhood that holds the cell and its four neighbours, in any order. -/
theorem sand_step {rows cols : Nat} {closed : Bool} {f : Nat → Nat → Int} {x : Nat} (hx : x < rows * cols) {l : List Nat}
    (hl : l.Perm (((x / cols, x % cols) :: cross rows cols (x / cols) (x % cols)).map (fun p => p.1 * cols + p.2)))
    (c : NodeCtx Nat A Int I) (h0 : c.node = x) (h1 : c.neighbours = l)
    (h2 : c.neighbourActs = l.map (fun y => f (y / cols) (y % cols))) (h3 : c.current = f (x / cols) (x % cols)) :
    sandpileRule rows cols closed c = .ok (sandStep rows cols closed f (x / cols) (x % cols)) := by
  obtain ⟨ha, hb, hab⟩ := split_label hx
  have hxl : x ∈ l := by rw [hl.mem_iff, List.map_cons, hab]; exact List.mem_cons_self ..
  obtain ⟨i, i1, i2, i3⟩ := idxOf?_erase hxl (fun y => f (y / cols) (y % cols))
  unfold sandpileRule sandStep
  have hbd := boundary_iff ha hb
  rw [hab] at hbd
  rw [h0, h1, i1, h2, h3]
  dsimp only
  rw [i3]
  have hdec : decide (x ∈ boundaryIndices rows cols) = onEdge rows cols (x / cols) (x % cols) := by
    cases h : onEdge rows cols (x / cols) (x % cols) with
    | true => exact decide_eq_true (hbd.2 h)
    | false => exact decide_eq_false (fun hh => by rw [hbd.1 hh] at h; cases h)
  rw [hdec]
  split
  · rfl
  · rw [if_pos (by rw [List.length_map]; exact i2), toppleIn_eq]
    have hp : (l.erase x).Perm ((cross rows cols (x / cols) (x % cols)).map (fun p => p.1 * cols + p.2)) := by
      have := hl.erase x
      rw [List.map_cons, hab, List.erase_cons_head] at this
      exact this
    have hcount : ((l.erase x).map (fun y => f (y / cols) (y % cols))).countP (fun u => decide (u ≥ 4)) =
        (cross rows cols (x / cols) (x % cols)).countP (fun p => decide (f p.1 p.2 ≥ 4)) := by
      rw [(hp.map _).countP_eq, List.countP_map, List.countP_map]
      apply List.countP_congr
      intro p hp
      obtain ⟨q1, q2⟩ := label_div (a := p.1) (cross_lt ha hb p (List.mem_cons_of_mem _ hp)).2
      simp only [Function.comp, q1, q2]
    rw [hcount]
    congr 1
    split <;> omega

/-- C48, run.  With `Sandpile(rows, cols, closed)`, `rows, cols ≥ 3`, and any initial numbers of grains, an ordinary call
of `evolve` returns and its states are those of the toppling rule.  Memoization is allowed with an open boundary (with a
closed one the rule depends on the label of the node, which the memoization key does not contain; see
`C48_memoized_closed`). -/
theorem C48_sandpile_run (rows cols : Nat) (closed : Bool) (hrw : 3 ≤ rows) (hcl : 3 ≤ cols)
    (cfg : Config Nat Int Int I σ κ) (T : Nat) (hT : 1 ≤ T) (h : cfg.Ordinary (sandpileRule rows cols closed) T)
    (hmemo : cfg.memoize = true → closed = false) (N : Net Nat Int) (hN : sandpileNetwork rows cols = .ok N) (r : Nat)
    (w : World Nat Int σ) (hr : w.heap[r]? = some N) (init : Option (Conds Nat Int)) (s : Nat → Nat → Int)
    (hlen : (initDict cfg init).length = rows * cols)
    (h0 : ∀ a b, a < rows → b < cols → (initDict cfg init).get? (a * cols + b) = some (s a b))
    (fuel : Nat) (hf : T ≤ fuel) :
    ∃ res, evolve fuel cfg init r w = .ok res ∧ ShowsRun cfg res T (rows * cols)
      (fun t x => sand rows cols closed s t (x / cols) (x % cols)) := by
  have h9 : 9 ≤ rows * cols := Nat.mul_le_mul hrw hcl
  obtain ⟨N', rs, e1, e2, e3, e4⟩ := von_neumann_network hrw hcl
  unfold sandpileNetwork at hN
  rw [e1] at hN
  cases hN
  have hget : ∀ x, x < rows * cols → rs.get? x = some ((rs.get? x).getD []) ∧
      ((rs.get? x).getD [])[((rs.get? x).getD []).length / 2]? = some x ∧ ((rs.get? x).getD []).Perm
        (((x / cols, x % cols) :: cross rows cols (x / cols) (x % cols)).map (fun p => p.1 * cols + p.2)) := by
    intro x hx
    obtain ⟨l, l1, l2, _, l3⟩ := e4 x hx
    rw [l1]
    exact ⟨rfl, l2, l3⟩
  refine ca_run h hT (by omega) e3 (nb := fun x => (rs.get? x).getD []) ?_ hlen ?_ ?_ ?_ hr hf
  · intro x hx
    obtain ⟨l1, l2, l3⟩ := hget x hx
    obtain ⟨ha, hb, hab⟩ := split_label hx
    refine ⟨by simp only [specNbrs, e2]; exact l1, ?_⟩
    intro y hy
    obtain ⟨p, hp, rfl⟩ := List.mem_map.1 (l3.mem_iff.1 hy)
    obtain ⟨p1, p2⟩ := cross_lt ha hb p hp
    exact label_lt p1 p2
  · intro x hx
    obtain ⟨ha, hb, hab⟩ := split_label hx
    have := h0 _ _ ha hb
    rw [hab] at this
    exact this
  · intro t ht x hx
    exact sand_step hx (hget x hx).2.2 _ rfl rfl rfl rfl
  · intro hm
    have hop := hmemo hm
    subst hop
    refine ⟨by rw [e2]; rfl, ?_⟩
    intro t t' x x' ht ht' hx hx' heq
    -- two contexts with the same neighbourhood have the same centre and the same four neighbours
    have hcen : sand rows cols false s t (x / cols) (x % cols) = sand rows cols false s t' (x' / cols) (x' % cols) := by
      have hlen' : ((rs.get? x).getD []).length = ((rs.get? x').getD []).length := by
        have := congrArg List.length heq
        simpa using this
      have := congrArg (fun l : List Int => l[((rs.get? x).getD []).length / 2]?) heq
      simp only [List.getElem?_map] at this
      rw [(hget x hx).2.1, hlen', (hget x' hx').2.1] at this
      simpa using this
    have hc : ∀ t x, x < rows * cols → (((rs.get? x).getD []).map
        (fun y => sand rows cols false s t (y / cols) (y % cols))).countP (fun u => decide (u ≥ 4)) =
        (cross rows cols (x / cols) (x % cols)).countP (fun p => decide (sand rows cols false s t p.1 p.2 ≥ 4)) +
          (if decide (sand rows cols false s t (x / cols) (x % cols) ≥ 4) = true then 1 else 0) := by
      intro t x hx
      obtain ⟨ha, hb, hab⟩ := split_label hx
      rw [((hget x hx).2.2.map _).countP_eq, List.map_cons, List.map_cons, List.countP_cons, hab, List.countP_map,
        List.countP_map]
      congr 1
      apply List.countP_congr
      intro p hp
      obtain ⟨q1, q2⟩ := label_div (a := p.1) (cross_lt ha hb p (List.mem_cons_of_mem _ hp)).2
      simp only [Function.comp, q1, q2]
    have hcc := congrArg (fun l : List Int => l.countP (fun u => decide (u ≥ 4))) heq
    rw [hc t x hx, hc t' x' hx', hcen] at hcc
    have hcc' := Nat.add_right_cancel hcc
    show sandStep rows cols false (sand rows cols false s t) _ _ = sandStep rows cols false (sand rows cols false s t') _ _
    unfold sandStep
    rw [hcen, hcc']
    rfl
end

/-- Three steps on a 3 × 4 grid, memoized: the hypotheses are met. -/
example : ∃ N res, sandpileNetwork 3 4 = .ok N ∧
    evolve 4 ({ Ex.base with rule := some (pureRule (sandpileRule 3 4 false)), input := .timesteps 4, memoize := true })
      (some (.list [0, 0, 0, 0, 0, 5, 3, 0, 0, 0, 0, 4])) 0 ⟨[N], []⟩ = .ok res ∧
    ShowsRun { Ex.base with rule := some (pureRule (sandpileRule 3 4 false)), input := .timesteps 4, memoize := true } res 4
      12 (fun t x => sand 3 4 false (fun a b => [0, 0, 0, 0, 0, 5, 3, 0, 0, 0, 0, 4].getD (a * 4 + b) 0) t (x / 4) (x % 4)) := by
  obtain ⟨N, _, hN, _⟩ := von_neumann_network (rows := 3) (cols := 4) (by omega) (by omega)
  obtain ⟨res, h1, h2⟩ := C48_sandpile_run 3 4 false (by omega) (by omega)
    { Ex.base with rule := some (pureRule (sandpileRule 3 4 false)), input := .timesteps 4, memoize := true } 4 (by omega)
    ⟨rfl, rfl, rfl, rfl, rfl, rfl, rfl⟩ (by intro _; rfl) N hN 0 ⟨[N], []⟩ rfl
    (some (.list [0, 0, 0, 0, 0, 5, 3, 0, 0, 0, 0, 4])) (fun a b => [0, 0, 0, 0, 0, 5, 3, 0, 0, 0, 0, 4].getD (a * 4 + b) 0)
    (by decide) (by
      intro a b ha hb
      have : ∀ a ∈ List.range 3, ∀ b ∈ List.range 4,
          (initDict { Ex.base with rule := some (pureRule (sandpileRule 3 4 false)), input := .timesteps 4, memoize := true }
            (some (.list [0, 0, 0, 0, 0, 5, 3, 0, 0, 0, 0, 4]))).get? (a * 4 + b) =
          some ([0, 0, 0, 0, 0, 5, 3, 0, 0, 0, 0, 4].getD (a * 4 + b) 0) := by decide
      exact this a (List.mem_range.2 ha) b (List.mem_range.2 hb)) 4 (by omega)
  exact ⟨N, res, hN, h1, h2⟩

/-- With a closed boundary and `memoize=True` the run is wrong: on a 3 × 3 grid with one grain on every cell, nothing
topples and the centre keeps its grain, but the memoized run empties it: the neighbourhood `(1, 1, 1, 1, 1)` was first
seen at a boundary cell. -/
theorem C48_memoized_closed :
    let run (memoize : Bool) := match sandpileNetwork 3 3 with
      | .error e => .error e
      | .ok N => Ex.runActs 2 { Ex.base with rule := some (pureRule (sandpileRule 3 3 true)), input := .timesteps 2,
                                             memoize := memoize } [1, 1, 1, 1, 1, 1, 1, 1, 1] N
    let centre : Except Err (List (Option (Dict Nat Int))) → List (Option Int)
      | .error _ => []
      | .ok ds => ds.map (fun d => d.bind (fun d => d.get? 4))
    sand 3 3 true (fun _ _ => 1) 1 1 1 = 1 ∧ centre (run false) = [some 1, some 1] ∧
      centre (run true) = [some 1, some 0] := by
  decide +kernel

/-! ## The grains -/

theorem sumTo_congr {n : Nat} {f g : Nat → Int} (h : ∀ i, i < n → f i = g i) : sumTo n f = sumTo n g := by
  induction n with
  | zero => rfl
  | succ n ih => simp only [sumTo]; rw [ih (fun i hi => h i (by omega)), h n (by omega)]

theorem sumTo_le {n : Nat} {f g : Nat → Int} (h : ∀ i, i < n → f i ≤ g i) : sumTo n f ≤ sumTo n g := by
  induction n with
  | zero => exact Int.le_refl _
  | succ n ih =>
    have := ih (fun i hi => h i (by omega))
    have := h n (by omega)
    simp only [sumTo]; omega

theorem sumTo_add (n : Nat) (f g : Nat → Int) : sumTo n (fun i => f i + g i) = sumTo n f + sumTo n g := by
  induction n with
  | zero => rfl
  | succ n ih => simp only [sumTo]; omega

theorem sumTo_mul (n : Nat) (k : Int) (f : Nat → Int) : sumTo n (fun i => k * f i) = k * sumTo n f := by
  induction n with
  | zero => simp [sumTo]
  | succ n ih => simp only [sumTo]; rw [ih, Int.mul_add]

theorem sumTo_succ' (n : Nat) (f : Nat → Int) : sumTo (n + 1) f = f 0 + sumTo n (fun i => f (i + 1)) := by
  induction n with
  | zero => simp [sumTo]
  | succ n ih => rw [sumTo, ih]; simp only [sumTo]; omega

/-- A cyclic shift does not change a sum. -/
theorem sumTo_next (n : Nat) (f : Nat → Int) : sumTo n (fun i => f ((i + 1) % n)) = sumTo n f := by
  cases n with
  | zero => rfl
  | succ n =>
    rw [sumTo_succ' n f, sumTo, Nat.mod_self]
    rw [sumTo_congr (g := fun i => f (i + 1)) (fun i hi => by rw [Nat.mod_eq_of_lt (by omega)])]
    omega

theorem sumTo_prev (n : Nat) (f : Nat → Int) : sumTo n (fun i => f ((i + n - 1) % n)) = sumTo n f := by
  rw [← sumTo_next n (fun i => f ((i + n - 1) % n))]
  apply sumTo_congr
  intro i hi
  congr 1
  by_cases h : i + 1 = n
  · rw [h, Nat.mod_self, Nat.mod_eq_of_lt (by omega)]; omega
  · rw [Nat.mod_eq_of_lt (by omega : i + 1 < n), show i + 1 + n - 1 = i + n by omega, Nat.add_mod_right,
      Nat.mod_eq_of_lt hi]

theorem grains_open_step (rows cols : Nat) (f : Nat → Nat → Int) :
    grains rows cols (sandStep rows cols false f) = grains rows cols f := by
  let g : Nat → Nat → Int := fun a b => if f a b ≥ 4 then 1 else 0
  have hstep : ∀ a b, sandStep rows cols false f a b = f a b + (g ((a + rows - 1) % rows) b +
      (g a ((b + 1) % cols) + (g ((a + 1) % rows) b + (g a ((b + cols - 1) % cols) + (-4) * g a b)))) := by
    intro a b
    simp only [sandStep, cross, List.countP_cons, List.countP_nil, Bool.false_and, Bool.false_eq_true, if_false, g,
      decide_eq_true_eq]
    split <;> split <;> split <;> split <;> split <;> simp <;> omega
  have e : grains rows cols (sandStep rows cols false f) = grains rows cols f +
      (sumTo rows (fun a => sumTo cols (fun b => g ((a + rows - 1) % rows) b)) +
      (sumTo rows (fun a => sumTo cols (fun b => g a ((b + 1) % cols))) +
      (sumTo rows (fun a => sumTo cols (fun b => g ((a + 1) % rows) b)) +
      (sumTo rows (fun a => sumTo cols (fun b => g a ((b + cols - 1) % cols))) + (-4) * grains rows cols g)))) := by
    simp only [grains, hstep, sumTo_add, sumTo_mul]
  rw [e, sumTo_prev rows (fun a => sumTo cols (fun b => g a b)), sumTo_next rows (fun a => sumTo cols (fun b => g a b))]
  simp only [fun a => sumTo_next cols (fun b => g a b), fun a => sumTo_prev cols (fun b => g a b)]
  show _ + (grains rows cols g + (grains rows cols g + (grains rows cols g + (grains rows cols g + _)))) = _
  omega

theorem sandStep_edge {rows cols : Nat} {f : Nat → Nat → Int} {a b : Nat} (h : onEdge rows cols a b = true) :
    sandStep rows cols true f a b = 0 := by simp [sandStep, h]

/-- C48, the grains: with an open boundary their number never changes; with a closed one the edge is empty after the
first step and the number never grows from then on (nor before, when the edge is empty to begin with). -/
theorem C48_grains (rows cols : Nat) (s : Nat → Nat → Int) :
    (∀ t, grains rows cols (sand rows cols false s t) = grains rows cols s) ∧
    (∀ t a b, onEdge rows cols a b = true → sand rows cols true s (t + 1) a b = 0) ∧
    (∀ t, (∀ a b, a < rows → b < cols → onEdge rows cols a b = true → sand rows cols true s t a b = 0) →
      grains rows cols (sand rows cols true s (t + 1)) ≤ grains rows cols (sand rows cols true s t)) := by
  refine ⟨?_, fun t a b h => sandStep_edge h, ?_⟩
  · intro t
    induction t with
    | zero => rfl
    | succ t ih => rw [← ih]; exact grains_open_step rows cols _
  · intro t hb
    rw [← grains_open_step rows cols (sand rows cols true s t)]
    refine sumTo_le (fun a ha => sumTo_le (fun b hb' => ?_))
    show sandStep rows cols true _ a b ≤ _
    cases he : onEdge rows cols a b with
    | true =>
      rw [sandStep_edge he]
      have h0 := hb a b ha hb' he
      unfold sandStep
      simp only [Bool.false_and, Bool.false_eq_true, if_false, h0]
      simp
    | false =>
      unfold sandStep
      simp [he]

theorem sumTo_append (m n : Nat) (f : Nat → Int) : sumTo (m + n) f = sumTo m f + sumTo n (fun i => f (m + i)) := by
  induction n with
  | zero => simp [sumTo]
  | succ n ih =>
    show sumTo (m + n) f + f (m + n) = sumTo m f + (sumTo n (fun i => f (m + i)) + f (m + n))
    omega

theorem sumTo_labels (rows cols : Nat) (f : Nat → Nat → Int) :
    sumTo (rows * cols) (fun x => f (x / cols) (x % cols)) = grains rows cols f := by
  unfold grains
  induction rows with
  | zero => simp [sumTo]
  | succ rows ih =>
    rw [Nat.succ_mul, sumTo_append, ih, sumTo]
    congr 1
    apply sumTo_congr
    intro i hi
    obtain ⟨h1, h2⟩ := label_div (a := rows) hi
    rw [h1, h2]

/-- C48, the grains in the states that `evolve` returns, with an open boundary: their sum over all nodes is that of the
initial conditions, in every state. -/
theorem C48_total {I σ κ : Type} [DecidableEq κ] (rows cols : Nat) (hrw : 3 ≤ rows) (hcl : 3 ≤ cols)
    (cfg : Config Nat Int Int I σ κ) (T : Nat) (hT : 1 ≤ T) (h : cfg.Ordinary (sandpileRule rows cols false) T)
    (N : Net Nat Int) (hN : sandpileNetwork rows cols = .ok N) (r : Nat) (w : World Nat Int σ) (hr : w.heap[r]? = some N)
    (init : Option (Conds Nat Int)) (hlen : (initDict cfg init).length = rows * cols)
    (h0 : ∀ x, x < rows * cols → x ∈ (initDict cfg init).keys) (fuel : Nat) (hf : T ≤ fuel) :
    ∃ res, evolve fuel cfg init r w = .ok res ∧ res.states.length = T ∧ ∀ t, t < T → ∃ d, res.acts cfg t = some d ∧
      sumTo (rows * cols) (fun x => (d.get? x).getD 0) =
        sumTo (rows * cols) (fun x => ((initDict cfg init).get? x).getD 0) := by
  obtain ⟨res, e1, e2, e3⟩ := C48_sandpile_run rows cols false hrw hcl cfg T hT h (fun _ => rfl) N hN r w hr init
    (fun a b => ((initDict cfg init).get? (a * cols + b)).getD 0) hlen (by
      intro a b ha hb
      obtain ⟨v, hv⟩ := Dict.exists_get?_of_mem_keys (h0 _ (label_lt ha hb))
      rw [hv]; rfl) fuel hf
  refine ⟨res, e1, e2, ?_⟩
  intro t ht
  obtain ⟨d, d1, _, d3⟩ := e3 t ht
  refine ⟨d, d1, ?_⟩
  rw [sumTo_congr (g := fun x => sand rows cols false (fun a b => ((initDict cfg init).get? (a * cols + b)).getD 0) t
    (x / cols) (x % cols)) (fun x hx => by rw [d3 x hx]; rfl),
    sumTo_labels rows cols (sand rows cols false _ t), (C48_grains rows cols _).1 t, ← sumTo_labels]
  apply sumTo_congr
  intro x hx
  rw [(split_label hx).2.2]

/-- C48: the numbers of grains never become negative. -/
theorem C48_nonneg (rows cols : Nat) (closed : Bool) (s : Nat → Nat → Int) (h : ∀ a b, a < rows → b < cols → 0 ≤ s a b) :
    ∀ t a b, a < rows → b < cols → 0 ≤ sand rows cols closed s t a b := by
  intro t
  induction t with
  | zero => exact h
  | succ t ih =>
    intro a b ha hb
    have := ih a b ha hb
    show 0 ≤ sandStep rows cols closed _ a b
    unfold sandStep
    split
    · exact Int.le_refl _
    · split <;> omega

/-- C48: a pile without unstable cells (and, for a closed boundary, with an empty edge) stays as it is. -/
theorem C48_stable (rows cols : Nat) (closed : Bool) (s : Nat → Nat → Int) (h : ∀ a b, a < rows → b < cols → s a b < 4)
    (hb : closed = true → ∀ a b, onEdge rows cols a b = true → s a b = 0) :
    ∀ t a b, a < rows → b < cols → sand rows cols closed s t a b = s a b := by
  intro t
  induction t with
  | zero => intros; rfl
  | succ t ih =>
    intro a b ha hb'
    show sandStep rows cols closed _ a b = _
    unfold sandStep
    split
    · rename_i he
      simp only [Bool.and_eq_true] at he
      exact (hb he.1 a b he.2).symm
    · have hz : (cross rows cols a b).countP (fun p => decide (sand rows cols closed s t p.1 p.2 ≥ 4)) = 0 := by
        rw [List.countP_eq_zero]
        intro p hp
        obtain ⟨k1, k2⟩ := cross_lt ha hb' p (List.mem_cons_of_mem _ hp)
        have := h p.1 p.2 k1 k2
        rw [ih p.1 p.2 k1 k2]
        simp; omega
      have := h a b ha hb'
      rw [hz, ih a b ha hb', if_neg (by omega)]
      omega

example : sand 3 4 false (fun a b => if a = 1 ∧ b = 1 then 5 else 0) 1 1 1 = 1 ∧
    sand 3 4 false (fun a b => if a = 1 ∧ b = 1 then 5 else 0) 1 0 1 = 1 ∧
    grains 3 4 (sand 3 4 false (fun a b => if a = 1 ∧ b = 1 then 5 else 0) 2) = 5 ∧
    grains 3 4 (sand 3 4 true (fun a b => if a = 1 ∧ b = 1 then 5 else 0) 1) = 2 := by decide

end Verif
