import Verif.Proofs.SandRest
import Verif.Props.Perturb
import Verif.Model.SandDrop
/-! # C111: sandpiles come to rest, and the resting pile does not depend on the order of topplings -/

namespace Verif
open Spec

/-- C111, rest.  A closed pile without negative cells, with fewer than four grains on the cells of the edge, is at rest after at most half its height, and
does not change afterwards. -/
theorem C111_rest (rows cols : Nat) (s : Nat → Nat → Int) (he : ∀ a b, a < rows → b < cols → ¬ Inner rows cols a b → s a b < 4)
    (hs : ∀ a b, Inner rows cols a b → 0 ≤ s a b) (k : Nat) (hk : sandHeight rows cols s ≤ 2 * k + 1) :
    AtRest rows cols (sand rows cols true s k) ∧
      ∀ t, k ≤ t → ∀ a b, Inner rows cols a b → sand rows cols true s t a b = sand rows cols true s k a b := by
  have h := comes_to_rest k s he hs hk
  refine ⟨h, ?_⟩
  intro t ht a b hi
  obtain ⟨m, rfl⟩ := Nat.exists_eq_add_of_le ht
  rw [sand_add]
  exact rest_run (edgeLow_run he k) h m a b hi

/-- C111, order.  There is one resting pile `g`, such that: `g` is reached by toppling one cell after the other; *every* sequence of such topplings can be
continued to reach `g`; every resting pile reached by such a sequence is `g`; and the simultaneous topplings of the rule reach it. -/
theorem C111_order (rows cols : Nat) (s : Nat → Nat → Int) (he : ∀ a b, a < rows → b < cols → ¬ Inner rows cols a b → s a b < 4)
    (hs : ∀ a b, Inner rows cols a b → 0 ≤ s a b) :
    ∃ g, Topples rows cols s g ∧ AtRest rows cols g ∧
      (∀ g', Topples rows cols s g' → ∃ g'', Topples rows cols g' g'' ∧ AtRest rows cols g'' ∧ ∀ a b, Inner rows cols a b → g'' a b = g a b) ∧
      (∀ g', Topples rows cols s g' → AtRest rows cols g' → ∀ a b, Inner rows cols a b → g' a b = g a b) ∧
      ∀ t : Nat, sandHeight rows cols s ≤ 2 * t + 1 → ∀ a b, Inner rows cols a b → sand rows cols true s t a b = g a b := by
  have exist : ∀ s : Nat → Nat → Int, EdgeLow rows cols s → (∀ a b, Inner rows cols a b → 0 ≤ s a b) → ∀ k : Nat, sandHeight rows cols s ≤ 2 * k + 1 →
      ∃ g, Topples rows cols s g ∧ AtRest rows cols g ∧ ∀ a b, Inner rows cols a b → g a b = sand rows cols true s k a b := by
    intro s he hs k hk
    obtain ⟨g, g1, g2⟩ := topples_run he k
    exact ⟨g, g1, fun a b hi => by rw [g2 a b hi]; exact comes_to_rest k s he hs hk a b hi, g2⟩
  obtain ⟨g, g1, g2, g3⟩ := exist s he hs (sandHeight rows cols s).toNat (by have := sandHeight_nonneg hs; omega)
  refine ⟨g, g1, g2, ?_, ?_, ?_⟩
  · intro g' h'
    have hn := topples_nonneg h' hs
    obtain ⟨k, k1, k2, _⟩ := exist g' (fun a b ha hb hab => by rw [topples_outside h' a b hab]; exact he a b ha hb hab) hn
      (sandHeight rows cols g').toNat (by have := sandHeight_nonneg hn; omega)
    exact ⟨k, k1, k2, settle_unique (h'.trans k1) g1 k2 g2⟩
  · intro g' h' hr
    exact settle_unique h' g1 hr g2
  · intro t ht a b hi
    obtain ⟨k, k1, k2, k3⟩ := exist s he hs t ht
    rw [← k3 a b hi]
    exact settle_unique k1 g1 k2 g2 a b hi

theorem height_drops {rows cols : Nat} {s : Nat → Nat → Int} {drop : Nat → Nat → Nat → Nat} (he : EdgeLow rows cols s)
    (hd : ∀ t a b, ¬ Inner rows cols a b → drop t a b = 0) (t : Nat) :
    sandHeight rows cols (sandDrops rows cols s drop t) ≤ sandHeight rows cols (fun a b => s a b + dropped drop t a b) := by
  have hadd : ∀ f g : Nat → Nat → Int, sandHeight rows cols (fun a b => f a b + g a b) = sandHeight rows cols f + sandHeight rows cols g := by
    intro f g
    rw [sandHeight_eq, sandHeight_eq, sandHeight_eq, ← grains_add]
    apply grains_congr
    intro a b _ _
    rw [Int.mul_add]
  induction t with
  | zero => simp [sandDrops, dropped]
  | succ t ih =>
    have h1 := height_step (edgeLow_drops he hd t)
    have h2 : 0 ≤ grains rows cols (unstableAt rows cols (sandDrops rows cols s drop t)) := by
      refine sumTo_nonneg (fun a _ => sumTo_nonneg (fun b _ => ?_))
      simp only [unstableAt]
      split <;> decide
    have e1 : sandHeight rows cols (sandDrops rows cols s drop (t + 1)) =
        sandHeight rows cols (sandStep rows cols true (sandDrops rows cols s drop t)) + sandHeight rows cols (fun a b => (drop (t + 1) a b : Int)) :=
      hadd _ _
    have e2 : sandHeight rows cols (fun a b => s a b + (dropped drop (t + 1) a b : Int)) =
        sandHeight rows cols (fun a b => s a b + dropped drop t a b) + sandHeight rows cols (fun a b => (drop (t + 1) a b : Int)) := by
      rw [← hadd]
      congr 1
      funext a b
      simp only [dropped]
      omega
    omega

/-- C111, dropping.  Grains are dropped on cells off the edge at any timesteps up to `D`.  The pile comes to rest, and the resting pile is the one obtained by
dropping all the grains at the start and toppling one cell after the other in any order: it does not depend on when the grains are dropped. -/
theorem C111_drops (rows cols : Nat) (s : Nat → Nat → Int) (he : ∀ a b, a < rows → b < cols → ¬ Inner rows cols a b → s a b < 4)
    (hs : ∀ a b, Inner rows cols a b → 0 ≤ s a b) (drop : Nat → Nat → Nat → Nat) (hd : ∀ t a b, ¬ Inner rows cols a b → drop t a b = 0) (D : Nat)
    (hD : ∀ t a b, D < t → drop t a b = 0) (k : Nat) (hk : sandHeight rows cols (fun a b => s a b + dropped drop D a b) ≤ 2 * k + 1) :
    (∃ g, Topples rows cols (fun a b => s a b + dropped drop D a b) g ∧ AtRest rows cols g) ∧
    ∀ g, Topples rows cols (fun a b => s a b + dropped drop D a b) g → AtRest rows cols g →
      ∀ t, D + k ≤ t → ∀ a b, Inner rows cols a b → sandDrops rows cols s drop t a b = g a b := by
  let F : Nat → Nat → Int := fun a b => s a b + dropped drop D a b
  have hdz' : ∀ D a b, ¬ Inner rows cols a b → dropped drop D a b = 0 := by
    intro D a b h
    induction D with
    | zero => rfl
    | succ D ih => simp only [dropped, ih, hd _ _ _ h]
  have hdz := hdz' D
  have heF : EdgeLow rows cols F := by
    intro a b ha hb h
    have := he a b ha hb h
    simp only [F, hdz a b h]
    omega
  have hsF : ∀ a b, Inner rows cols a b → 0 ≤ F a b := by
    intro a b h
    have := hs a b h
    simp only [F]
    omega
  refine ⟨by
    obtain ⟨g, g1, g2, _⟩ := C111_order rows cols F heF hsF
    exact ⟨g, g1, g2⟩, ?_⟩
  intro g hg hr t ht a b hi
  -- nothing is dropped after `D`
  have hafter : ∀ m, sandDrops rows cols s drop (D + m) = sand rows cols true (sandDrops rows cols s drop D) m := by
    intro m
    induction m with
    | zero => rfl
    | succ m ih =>
      funext a b
      show sandStep rows cols true (sandDrops rows cols s drop (D + m)) a b + drop (D + m + 1) a b = _
      rw [ih, hD _ _ _ (by omega)]
      simp [sand]
  have hE := edgeLow_drops he hd D
  have hn : ∀ t a b, Inner rows cols a b → 0 ≤ sandDrops rows cols s drop t a b := by
    intro t
    induction t with
    | zero => exact hs
    | succ t ih =>
      intro a b h
      have := nonneg_step (edgeLow_drops he hd t) ih a b h
      show 0 ≤ sandStep rows cols true _ a b + _
      omega
  have hrest : AtRest rows cols (sandDrops rows cols s drop t) := by
    obtain ⟨m, rfl⟩ := Nat.exists_eq_add_of_le (by omega : D ≤ t)
    rw [hafter]
    have hh := height_drops he hd D
    intro i j hij
    obtain ⟨r1, r2⟩ := C111_rest rows cols _ hE (hn D) k (by omega)
    rw [r2 m (by omega) i j hij]
    exact r1 i j hij
  -- least action, both ways
  obtain ⟨u, u1, u2, u3, u4⟩ := topples_count hg
  have hu : Settles rows cols F u := ⟨u1, u2, fun a b hi => by rw [← u3 a b hi]; exact hr a b hi⟩
  let U := topplings rows cols s drop t
  have hval : ∀ a b, Inner rows cols a b → sandDrops rows cols s drop t a b = afterTopplings F U a b := by
    intro a b h
    rw [drops_after he hd t a b h, dropped_eq drop hD (by omega) a b]
    simp only [afterTopplings, F, U]
    omega
  have hU : Settles rows cols F U := ⟨topplings_nonneg rows cols s drop t, topplings_outside rows cols s drop t, fun a b hi => by
    rw [← hval a b hi]; exact hrest a b hi⟩
  have hle := drops_least he hd (F := F) (by
    intro t a b _
    have := dropped_mono drop hD t a b
    simp only [F]
    omega) hu t
  have heq : U = u := by
    funext a b
    have := hle a b
    have := u4 U hU a b
    simp only [U] at this ⊢
    omega
  rw [hval a b hi, heq, u3 a b hi]

/-- C111, the edge.  Cells of the edge that hold four grains or more topple once, at the first timestep, and never again: from state 1 on the pile is the one
that starts with an empty edge and gets one grain from each of them at timestep 1. -/
theorem C111_spill (rows cols : Nat) (s : Nat → Nat → Int) (drop : Nat → Nat → Nat → Nat) (t a b : Nat) (ha : a < rows) (hb : b < cols) :
    sandDrops rows cols s drop (t + 1) a b = sandDrops rows cols (fun a b => if Inner rows cols a b then s a b else 0) (fun t a b =>
      drop t a b + if t = 1 then edgeSpill rows cols s a b else 0) (t + 1) a b := by
  have hpos : 0 < rows ∧ 0 < cols := ⟨by omega, by omega⟩
  have congrStep : ∀ f g : Nat → Nat → Int, (∀ a b, a < rows → b < cols → f a b = g a b) → ∀ a b, a < rows → b < cols →
      sandStep rows cols true f a b = sandStep rows cols true g a b := by
    intro f g hfg a b ha hb
    unfold sandStep
    split
    · rfl
    · rw [hfg a b ha hb]
      have : (cross rows cols a b).countP (fun p => decide (f p.1 p.2 ≥ 4)) = (cross rows cols a b).countP (fun p => decide (g p.1 p.2 ≥ 4)) := by
        apply List.countP_congr
        intro p hp
        obtain ⟨p1, p2⟩ := cross_lt ha hb p (List.mem_cons_of_mem _ hp)
        rw [hfg _ _ p1 p2]
      rw [this]
  induction t generalizing a b with
  | zero =>
    simp only [sandDrops]
    by_cases hi : Inner rows cols a b
    · have hon : onEdge rows cols a b = false := by
        rw [← Bool.not_eq_true, onEdge_iff ha hb]
        exact fun hh => hh hi
      simp only [sandStep, hon, Bool.and_false, Bool.false_eq_true, if_false, edgeSpill, if_pos hi, true_and, Nat.zero_add, if_true]
      have hc : ∀ l : List (Nat × Nat), l.countP (fun p => decide (s p.1 p.2 ≥ 4)) =
          l.countP (fun p => decide ((if Inner rows cols p.1 p.2 then s p.1 p.2 else 0) ≥ 4)) +
            l.countP (fun p => decide (¬ Inner rows cols p.1 p.2 ∧ 4 ≤ s p.1 p.2)) := by
        intro l
        induction l with
        | nil => rfl
        | cons p l ih =>
          simp only [List.countP_cons, ih]
          by_cases h1 : Inner rows cols p.1 p.2
          · simp only [h1, if_true, not_true, false_and, decide_false, Bool.false_eq_true, if_false]
            omega
          · simp only [if_neg h1, h1, not_false_eq_true, true_and, ge_iff_le, show ¬ ((4 : Int) ≤ 0) from by decide, decide_false, Bool.false_eq_true, if_false]
            omega
      rw [hc]
      omega
    · rw [step_edge ha hb hi, step_edge ha hb hi]
      simp only [edgeSpill, if_neg hi, ite_self]
      rfl
  | succ t ih =>
    show sandStep rows cols true _ a b + _ = sandStep rows cols true _ a b + _
    rw [congrStep _ _ (fun i j hi hj => ih i j hi hj) a b ha hb]
    have hne : ¬ (t + 1 + 1 = 1) := by omega
    simp only [if_neg hne]
    rfl

section
variable {I σ κ : Type} [DecidableEq κ]

/-- C111, run.  `evolve` with `Sandpile(rows, cols)` and a perturbation that drops grains. -/
theorem C111_run (rows cols : Nat) (hrw : 3 ≤ rows) (hcl : 3 ≤ cols) (drop : Nat → Nat → Nat → Nat) (P : PertCtx Nat Int I → Except Err Int)
    (hP : ∀ c : PertCtx Nat Int I, P c = .ok (c.activity + drop c.t (c.node / cols) (c.node % cols)))
    (cfg : Config Nat Int Int I σ κ) (T : Nat) (hT : 1 ≤ T) (h : cfg.Perturbed (sandpileRule rows cols true) (some P) T) (hm : cfg.memoize = false)
    (N : Net Nat Int) (hN : sandpileNetwork rows cols = .ok N) (r : Nat) (w : World Nat Int σ) (hr : w.heap[r]? = some N)
    (init : Option (Conds Nat Int)) (s : Nat → Nat → Int) (hlen : (initDict cfg init).length = rows * cols)
    (h0 : ∀ a b, a < rows → b < cols → (initDict cfg init).get? (a * cols + b) = some (s a b)) (fuel : Nat) (hf : T ≤ fuel) :
    ∃ res, evolve fuel cfg init r w = .ok res ∧ ShowsRun cfg res T (rows * cols)
      (fun t x => sandDrops rows cols s drop t (x / cols) (x % cols)) := by
  have h9 : 9 ≤ rows * cols := Nat.mul_le_mul hrw hcl
  obtain ⟨N', rs, e1, e2, e3, e4⟩ := von_neumann_network hrw hcl
  unfold sandpileNetwork at hN
  rw [e1] at hN
  cases hN
  obtain ⟨c1, h1, m1, i1, o1, ev1⟩ := h.ordinary hr (fun hh => by rw [hm] at hh; cases hh)
  have hget : ∀ x, x < rows * cols → rs.get? x = some ((rs.get? x).getD []) ∧ ((rs.get? x).getD []).Perm
        (((x / cols, x % cols) :: cross rows cols (x / cols) (x % cols)).map (fun p => p.1 * cols + p.2)) := by
    intro x hx
    obtain ⟨l, l1, l2, _, l3⟩ := e4 x hx
    rw [l1]
    exact ⟨rfl, l3⟩
  have := ca_run h1 hT (by omega) e3 (nb := fun x => (rs.get? x).getD []) (init := init)
    (f := fun t x => sandDrops rows cols s drop t (x / cols) (x % cols)) (r := r) (w := w) (fuel := fuel) ?_ (by rw [i1]; exact hlen) ?_ ?_
    (fun hm => by rw [m1] at hm; cases hm) hr hf
  · obtain ⟨res, g1, g2, g3⟩ := this
    refine ⟨res, by rw [ev1]; exact g1, g2, ?_⟩
    intro t ht
    obtain ⟨d, d1, d2⟩ := g3 t ht
    exact ⟨d, by rw [← o1]; exact d1, d2⟩
  · intro x hx
    obtain ⟨l1, l3⟩ := hget x hx
    obtain ⟨ha, hb, hab⟩ := split_label hx
    refine ⟨by simp only [specNbrs, e2]; exact l1, ?_⟩
    intro y hy
    obtain ⟨p, hp, rfl⟩ := List.mem_map.1 (l3.mem_iff.1 hy)
    obtain ⟨p1, p2⟩ := cross_lt ha hb p hp
    exact label_lt p1 p2
  · intro x hx
    obtain ⟨ha, hb, hab⟩ := split_label hx
    have := h0 _ _ ha hb
    rw [hab] at this
    rw [i1]
    exact this
  · intro t ht x hx
    unfold thenPert
    rw [sand_step hx (hget x hx).2 (plainCtx c1 _ (fun x => (rs.get? x).getD []) (initDict c1 init)
      (fun t x => sandDrops rows cols s drop t (x / cols) (x % cols)) t x) rfl rfl rfl rfl]
    simp only [pertValue, hP]
    rfl

/-- C111, end.  The demo: from any initial conditions without negative numbers, with one grain dropped on a cell off the edge at timestep `when`, the run comes
to rest at the pile that any order of topplings yields when that grain, and the grains spilled by the edge at timestep 1, are there from the start. -/
theorem C111_demo (rows cols : Nat) (when x y : Nat) (hxy : Inner rows cols x y) (hw : 1 ≤ when)
    (cfg : Config Nat Int Int I σ κ) (T : Nat) (hT : 1 ≤ T) (h : cfg.Perturbed (sandpileRule rows cols true) (some (dropGrain when (x * cols + y))) T)
    (hm : cfg.memoize = false)
    (N : Net Nat Int) (hN : sandpileNetwork rows cols = .ok N) (r : Nat) (w : World Nat Int σ) (hr : w.heap[r]? = some N)
    (init : Option (Conds Nat Int)) (s : Nat → Nat → Int) (hlen : (initDict cfg init).length = rows * cols)
    (h0 : ∀ a b, a < rows → b < cols → (initDict cfg init).get? (a * cols + b) = some (s a b))
    (hs : ∀ a b, Inner rows cols a b → 0 ≤ s a b) (fuel : Nat) (hf : T ≤ fuel)
    (F : Nat → Nat → Int) (hF : ∀ a b, F a b = if Inner rows cols a b then s a b + edgeSpill rows cols s a b + (if a = x ∧ b = y then 1 else 0) else 0)
    (k : Nat) (hk : sandHeight rows cols F ≤ 2 * k + 1) :
    (∃ g, Topples rows cols F g ∧ AtRest rows cols g) ∧
    ∃ res, evolve fuel cfg init r w = .ok res ∧ res.states.length = T ∧ ∀ t, when + k ≤ t → t < T → ∃ d, res.acts cfg t = some d ∧
      ∀ g, Topples rows cols F g → AtRest rows cols g →
        ∀ a b, a < rows → b < cols → d.get? (a * cols + b) = some (if Inner rows cols a b then g a b else 0) := by
  have hi := hxy
  obtain ⟨x1, x2, x3, x4⟩ := hi
  let drop : Nat → Nat → Nat → Nat := fun t a b => if t = when ∧ a = x ∧ b = y then 1 else 0
  obtain ⟨res, e1, e2, e3⟩ := C111_run rows cols (by omega) (by omega) drop (dropGrain when (x * cols + y)) (by
    intro c
    have hc : c.node = x * cols + y ↔ c.node / cols = x ∧ c.node % cols = y := by
      constructor
      · intro e
        rw [e]
        exact label_div (by omega)
      · rintro ⟨h1, h2⟩
        have := Nat.div_add_mod c.node cols
        rw [h1, h2, Nat.mul_comm] at this
        omega
    simp only [dropGrain, drop, hc]
    split
    · rfl
    · simp) cfg T hT h hm N hN r w hr init s hlen h0 fuel hf
  let s0 : Nat → Nat → Int := fun a b => if Inner rows cols a b then s a b else 0
  let drop' : Nat → Nat → Nat → Nat := fun t a b => drop t a b + if t = 1 then edgeSpill rows cols s a b else 0
  have hdrop : ∀ t a b, ¬ Inner rows cols a b → drop' t a b = 0 := by
    intro t a b hab
    have h1 : drop t a b = 0 := by
      refine if_neg ?_
      rintro ⟨_, rfl, rfl⟩
      exact hab hxy
    simp only [drop', h1, edgeSpill, if_neg hab, ite_self]
  have hsum : ∀ t, dropped drop' t = fun a b => (if when ≤ t ∧ a = x ∧ b = y then 1 else 0) + if 1 ≤ t then edgeSpill rows cols s a b else 0 := by
    intro t
    induction t with
    | zero =>
      funext a b
      rw [if_neg (by omega), if_neg (by omega)]
      rfl
    | succ t ih =>
      funext a b
      simp only [dropped, ih, drop', drop]
      have h1 : (if when ≤ t ∧ a = x ∧ b = y then 1 else 0) + (if t + 1 = when ∧ a = x ∧ b = y then 1 else 0) = if when ≤ t + 1 ∧ a = x ∧ b = y then 1 else 0 := by
        by_cases hab : a = x ∧ b = y
        · by_cases h1 : when ≤ t
          · rw [if_pos ⟨h1, hab⟩, if_neg (by omega), if_pos ⟨by omega, hab⟩]
          · by_cases h2 : t + 1 = when
            · rw [if_neg (by omega), if_pos ⟨h2, hab⟩, if_pos ⟨by omega, hab⟩]
            · rw [if_neg (by omega), if_neg (by omega), if_neg (by omega)]
        · rw [if_neg (fun hh => hab hh.2), if_neg (fun hh => hab hh.2), if_neg (fun hh => hab hh.2)]
      have h2 : (if 1 ≤ t then edgeSpill rows cols s a b else 0) + (if t + 1 = 1 then edgeSpill rows cols s a b else 0) =
          if 1 ≤ t + 1 then edgeSpill rows cols s a b else 0 := by
        rw [if_pos (by omega : 1 ≤ t + 1)]
        by_cases h1 : 1 ≤ t
        · rw [if_pos h1, if_neg (by omega)]; rfl
        · rw [if_neg h1, if_pos (by omega), Nat.zero_add]
      omega
  have hFs : (fun a b => s0 a b + (dropped drop' when a b : Int)) = F := by
    funext a b
    rw [hsum, hF]
    simp only [Nat.le_refl, true_and, s0, if_pos hw]
    by_cases hab : Inner rows cols a b
    · rw [if_pos hab, if_pos hab]
      split <;> simp <;> omega
    · rw [if_neg hab, if_neg hab]
      simp only [edgeSpill, if_neg hab]
      rw [if_neg]
      · rfl
      · rintro ⟨rfl, rfl⟩; exact hab hxy
  have hd := C111_drops rows cols s0 (by
    intro a b _ _ hab
    simp only [s0, if_neg hab]
    decide) (by
    intro a b hab
    simp only [s0, if_pos hab]
    exact hs a b hab) drop' hdrop when (by
      intro t a b ht
      simp only [drop', drop]
      rw [if_neg (by omega), if_neg (by omega)]) k (by rw [hFs]; exact hk)
  rw [hFs] at hd
  refine ⟨hd.1, res, e1, e2, ?_⟩
  intro t ht htT
  obtain ⟨d, d1, _, d3⟩ := e3 t htT
  refine ⟨d, d1, ?_⟩
  intro g hg hrest a b ha hb
  obtain ⟨q1, q2⟩ := label_div (a := a) hb
  rw [d3 _ (label_lt ha hb)]
  simp only [q1, q2]
  congr 1
  by_cases hab : Inner rows cols a b
  · rw [if_pos hab, ← hd.2 g hg hrest t ht a b hab]
    obtain ⟨m, rfl⟩ : ∃ m, t = m + 1 := ⟨t - 1, by omega⟩
    exact C111_spill rows cols s drop m a b ha hb
  · rw [if_neg hab]
    obtain ⟨m, rfl⟩ : ∃ m, t = m + 1 := ⟨t - 1, by omega⟩
    rw [C111_spill rows cols s drop m a b ha hb]
    show sandStep rows cols true _ a b + (drop' (m + 1) a b : Int) = _
    rw [step_edge ha hb hab, hdrop _ _ _ hab]
    rfl
end

/-- C111, open boundary: with more than three grains per cell the pile never comes to rest. -/
theorem C111_open (rows cols : Nat) (s : Nat → Nat → Int) (h : 3 * (rows * cols : Int) < grains rows cols s) (t : Nat) :
    ∃ a b, a < rows ∧ b < cols ∧ 4 ≤ sand rows cols false s t a b := by
  apply Classical.byContradiction
  intro hn
  have hle : grains rows cols (sand rows cols false s t) ≤ grains rows cols (fun _ _ => 3) := by
    apply grains_le
    intro a b ha hb
    apply Decidable.byContradiction
    intro hge
    exact hn ⟨a, b, ha, hb, by omega⟩
  have hc : ∀ n (c : Int), sumTo n (fun _ => c) = n * c := by
    intro n c
    induction n with
    | zero => simp [sumTo]
    | succ n ih =>
      simp only [sumTo, ih]
      have : ((n + 1 : Nat) : Int) = (n : Int) + 1 := by omega
      rw [this, Int.add_mul, Int.one_mul]
  have h3 : grains rows cols (fun _ _ => 3) = rows * (cols * 3) := by
    unfold grains
    rw [hc]
    rw [hc]
  rw [h3, (C48_grains rows cols s).1 t] at hle
  have : (rows : Int) * (cols * 3) = 3 * (rows * cols) := by
    rw [Int.mul_comm 3, Int.mul_assoc]
  omega

/-! ## Concrete cases -/

namespace Ex

/-- Eight grains on one cell of a 4 × 4 grid. -/
def sandTower (a b : Nat) : Int := if a = 1 ∧ b = 1 then 8 else if a = 1 ∧ b = 2 then 3 else 0

/-- The hypotheses of `C111_rest` and `C111_order` hold. -/
example : (∀ a b, a < 4 → b < 4 → ¬ Inner 4 4 a b → sandTower a b < 4) ∧ (∀ a b, Inner 4 4 a b → 0 ≤ sandTower a b) ∧
    sandHeight 4 4 sandTower ≤ 2 * (11 : Nat) + 1 := by
  refine ⟨?_, ?_, by decide⟩
  · intro a b _ _ h
    unfold sandTower
    split
    · rename_i hh
      obtain ⟨rfl, rfl⟩ := hh
      exact absurd (by decide) h
    · split <;> decide
  · intro a b _
    unfold sandTower
    split
    · decide
    · split <;> decide

/-- It rests after two steps. -/
example : sand 4 4 true sandTower 1 1 1 = 4 ∧ sand 4 4 true sandTower 1 1 2 = 4 ∧ sand 4 4 true sandTower 2 1 1 = 1 ∧ sand 4 4 true sandTower 2 1 2 = 1 ∧
    sand 4 4 true sandTower 2 2 1 = 2 ∧ sand 4 4 true sandTower 2 2 2 = 1 := by decide

/-- Toppling (1, 1) twice and (1, 2) once, in another order. -/
example : Topples 4 4 sandTower (toppleCell 4 4 (toppleCell 4 4 (toppleCell 4 4 sandTower 1 1) 1 2) 1 1) ∧
    (toppleCell 4 4 (toppleCell 4 4 (toppleCell 4 4 sandTower 1 1) 1 2) 1 1) 1 1 = 1 :=
  ⟨.step (.step (.step .refl (by decide) (by decide)) (by decide) (by decide)) (by decide) (by decide), by decide⟩

/-- A pile on the torus that never rests. -/
example : 3 * ((3 : Nat) * (3 : Nat) : Int) < grains 3 3 (fun a b => if a = 1 ∧ b = 1 then 28 else 0) := by decide

/-- The call of the demo on a small grid meets the hypotheses of `C111_demo`. -/
example : ∃ N res, sandpileNetwork 4 4 = .ok N ∧
    evolve 20 ({ Ex.base with
      rule := some (pureRule (sandpileRule 4 4 true)),
      perturbation := some (Ex.pertOf (dropGrain 3 5)),
      input := .timesteps 20 })
      (some (.list [0, 0, 0, 0, 0, 3, 0, 0, 0, 0, 0, 0, 0, 0, 0, 0])) 0 ⟨[N], []⟩ = .ok res ∧
    ∃ d, res.acts ({ Ex.base with
      rule := some (pureRule (sandpileRule 4 4 true)),
      perturbation := some (Ex.pertOf (dropGrain 3 5)),
      input := .timesteps 20 }) 19 = some d ∧ d.get? 5 = some 0 ∧ d.get? 6 = some 1 ∧ d.get? 9 = some 1 ∧ d.get? 10 = some 0 := by
  obtain ⟨N, _, hN, _⟩ := von_neumann_network (rows := 4) (cols := 4) (by omega) (by omega)
  obtain ⟨_, res, h1, _, h2⟩ := C111_demo 4 4 3 1 1 (by decide) (by omega)
    { Ex.base with rule := some (pureRule (sandpileRule 4 4 true)), perturbation := some (Ex.pertOf (dropGrain 3 5)), input := .timesteps 20 }
    20 (by omega) ⟨rfl, congrArg some (funext fun c => funext fun u => by simp only [Ex.pertOf]; cases dropGrain 3 5 c <;> rfl), rfl, rfl, rfl, rfl, rfl⟩
    rfl N hN 0 ⟨[N], []⟩ rfl (some (.list [0, 0, 0, 0, 0, 3, 0, 0, 0, 0, 0, 0, 0, 0, 0, 0]))
    (fun a b => if a = 1 ∧ b = 1 then 3 else 0) (by decide) (by
      intro a b ha hb
      have : ∀ a ∈ List.range 4, ∀ b ∈ List.range 4, (initDict ({ Ex.base with
          rule := some (pureRule (sandpileRule 4 4 true)), perturbation := some (Ex.pertOf (dropGrain 3 5)), input := .timesteps 20 })
            (some (.list [0, 0, 0, 0, 0, 3, 0, 0, 0, 0, 0, 0, 0, 0, 0, 0]))).get? (a * 4 + b) =
          some (if a = 1 ∧ b = 1 then 3 else 0) := by decide
      exact this a (List.mem_range.2 ha) b (List.mem_range.2 hb))
    (by intro a b _; split <;> decide) 20 (by omega)
    (fun a b => if a = 1 ∧ b = 1 then 4 else 0) (by
      intro a b
      by_cases hi : Inner 4 4 a b
      · obtain ⟨a1, a2, a3, a4⟩ := hi
        have ha : a = 1 ∨ a = 2 := by omega
        have hb : b = 1 ∨ b = 2 := by omega
        rcases ha with rfl | rfl <;> rcases hb with rfl | rfl <;> decide
      · rw [if_neg hi, if_neg]
        rintro ⟨rfl, rfl⟩
        exact hi (by decide)) 4 (by decide)
  obtain ⟨d, d1, d2⟩ := h2 19 (by omega) (by omega)
  have d2 := d2 (toppleCell 4 4 (fun a b => if a = 1 ∧ b = 1 then 4 else 0) 1 1)
    (.step .refl (by decide) (by decide)) (by
      intro a b hab
      obtain ⟨a1, a2, a3, a4⟩ := hab
      have ha : a = 1 ∨ a = 2 := by omega
      have hb : b = 1 ∨ b = 2 := by omega
      rcases ha with rfl | rfl <;> rcases hb with rfl | rfl <;> decide)
  exact ⟨N, res, hN, h1, d, d1, d2 1 1 (by omega) (by omega), d2 1 2 (by omega) (by omega), d2 2 1 (by omega) (by omega), d2 2 2 (by omega) (by omega)⟩

end Ex
end Verif
