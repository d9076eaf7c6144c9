import Verif.Props.Plane
import Verif.Spec.Motions
/-! # Property C157: two-dimensional automata treat all directions alike -/

namespace Verif
open Spec

theorem motion_add (m : Motion) (x y : Int) (d : Int × Int) :
    m.move (x + d.1) (y + d.2) = ((m.move x y).1 + (m.turn d).1, (m.move x y).2 + (m.turn d).2) := by
  unfold Motion.move Motion.turn
  cases m.swap <;> cases m.flipRows <;> cases m.flipCols <;> simp <;> constructor <;> omega

theorem moore_turn (m : Motion) : (moore8.map m.turn).Perm moore8 := by
  have : ∀ a b c : Bool, (moore8.map (Motion.turn ⟨a, b, c, 0, 0⟩)).Perm moore8 := by decide
  have h := this m.swap m.flipRows m.flipCols
  exact h

theorem vonNeumann_turn (m : Motion) : (vonNeumann4.map m.turn).Perm vonNeumann4 := by
  have : ∀ a b c : Bool, (vonNeumann4.map (Motion.turn ⟨a, b, c, 0, 0⟩)).Perm vonNeumann4 := by decide
  have h := this m.swap m.flipRows m.flipCols
  exact h

/-- The automaton on the plane commutes with motions. -/
theorem planeCA_move {V : Type} {D : List (Int × Int)} {F : V → List V → V} (hF : ∀ v l l', l.Perm l' → F v l = F v l') (m : Motion)
    (hD : (D.map m.turn).Perm D) (S : Int → Int → V) (t : Nat) : ∀ x y,
    planeCA (fun _ => D) F (fun x y => S (m.move x y).1 (m.move x y).2) t x y = planeCA (fun _ => D) F S t (m.move x y).1 (m.move x y).2 := by
  induction t with
  | zero => intro x y; rfl
  | succ t ih =>
    intro x y
    rw [planeCA, planeCA, ih x y]
    apply hF
    unfold planeNbrs
    have h1 : D.map (fun d => planeCA (fun _ => D) F (fun x y => S (m.move x y).1 (m.move x y).2) t (x + d.1) (y + d.2)) =
        (D.map m.turn).map (fun d => planeCA (fun _ => D) F S t ((m.move x y).1 + d.1) ((m.move x y).2 + d.2)) := by
      rw [List.map_map]
      apply List.map_congr_left
      intro d _
      simp only [Function.comp_apply]
      rw [ih, motion_add]
    rw [h1]
    exact hD.map _

/-- The cell of the torus. -/
theorem move_mod (m : Motion) (rows cols : Nat) (x y : Int) :
    (m.move (x % ((if m.swap then cols else rows : Nat) : Int)) (y % ((if m.swap then rows else cols : Nat) : Int))).1 % (rows : Int) =
      (m.move x y).1 % (rows : Int) ∧
    (m.move (x % ((if m.swap then cols else rows : Nat) : Int)) (y % ((if m.swap then rows else cols : Nat) : Int))).2 % (cols : Int) =
      (m.move x y).2 % (cols : Int) := by
  have hneg : ∀ a n p : Int, (-(a % n) + p) % n = (-a + p) % n := by
    intro a n p
    rw [Int.emod_def a n, show -(a - n * (a / n)) + p = (-a + p) + n * (a / n) by omega, Int.add_mul_emod_self_left]
  have hpos : ∀ a n p : Int, (a % n + p) % n = (a + p) % n := fun a n p => Int.emod_add_emod ..
  unfold Motion.move Motion.turn
  cases m.swap <;> cases m.flipRows <;> cases m.flipCols <;>
    simp only [Bool.false_eq_true, if_true, if_false] <;> constructor <;> first | exact hneg .. | exact hpos ..

theorem tiled_move {V : Type} (m : Motion) {rows cols : Nat} (hr : 0 < rows) (hc : 0 < cols) (s : Nat → Nat → V) (x y : Int) :
    tiled (if m.swap then cols else rows) (if m.swap then rows else cols)
      (fun a b => tiled rows cols s (m.move (a : Int) (b : Int)).1 (m.move (a : Int) (b : Int)).2) x y =
    tiled rows cols s (m.move x y).1 (m.move x y).2 := by
  have h1 : (0 : Int) ≤ x % ((if m.swap then cols else rows : Nat) : Int) := Int.emod_nonneg _ (by split <;> omega)
  have h2 : (0 : Int) ≤ y % ((if m.swap then rows else cols : Nat) : Int) := Int.emod_nonneg _ (by split <;> omega)
  have h := move_mod m rows cols x y
  unfold tiled
  show s ((m.move _ _).1 % (rows : Int)).toNat ((m.move _ _).2 % (cols : Int)).toNat = _
  rw [Int.toNat_of_nonneg h1, Int.toNat_of_nonneg h2, h.1, h.2]

theorem label_parts {cols a b : Nat} (hb : b < cols) : (a * cols + b) / cols = a ∧ (a * cols + b) % cols = b := by
  refine ⟨?_, ?_⟩
  · rw [Nat.mul_comm, Nat.mul_add_div (by omega), Nat.div_eq_of_lt hb, Nat.add_zero]
  · rw [Nat.mul_comm, Nat.mul_add_mod, Nat.mod_eq_of_lt hb]

theorem tiled_mod {V : Type} {rows cols : Nat} (s : Nat → Nat → V) (x y : Int) (i j : Int) :
    tiled rows cols s (x % rows + i) (y % cols + j) = tiled rows cols s (x + i) (y + j) := by
  unfold tiled
  rw [Int.emod_add_emod, Int.emod_add_emod]

theorem planeCA_periodic {V : Type} {D : List (Int × Int)} {F : V → List V → V} {rows cols : Nat}
    (s : Nat → Nat → V) (t : Nat) : ∀ x y i j : Int,
    planeCA (fun _ => D) F (tiled rows cols s) t (x % rows + i) (y % cols + j) = planeCA (fun _ => D) F (tiled rows cols s) t (x + i) (y + j) := by
  induction t with
  | zero => intro x y i j; exact tiled_mod s x y i j
  | succ t ih =>
    intro x y i j
    rw [planeCA, planeCA, ih]
    congr 1
    unfold planeNbrs
    apply List.map_congr_left
    intro d _
    rw [Int.add_assoc, Int.add_assoc, ih, Int.add_assoc, Int.add_assoc]

theorem square_move {V : Type} {D : List (Int × Int)} {F : V → List V → V} {m : Motion} (hD : (D.map m.turn).Perm D)
    (hF : ∀ v l l', l.Perm l' → F v l = F v l') {rows cols : Nat} (hr : 0 < rows) (hc : 0 < cols) (s : Nat → Nat → V) (t : Nat) {a b : Nat}
    (_ha : a < (if m.swap then cols else rows)) (hb : b < (if m.swap then rows else cols)) :
    planeCA (fun _ => D) F (tiled (if m.swap then cols else rows) (if m.swap then rows else cols)
      (fun a b => tiled rows cols s (m.move (a : Int) (b : Int)).1 (m.move (a : Int) (b : Int)).2)) t
      (((a * (if m.swap then rows else cols) + b) / (if m.swap then rows else cols) : Nat) : Int)
      (((a * (if m.swap then rows else cols) + b) % (if m.swap then rows else cols) : Nat) : Int) =
    planeCA (fun _ => D) F (tiled rows cols s) t
      (((((m.move a b).1 % (rows : Int)).toNat * cols + ((m.move a b).2 % (cols : Int)).toNat) / cols : Nat) : Int)
      (((((m.move a b).1 % (rows : Int)).toNat * cols + ((m.move a b).2 % (cols : Int)).toNat) % cols : Nat) : Int) := by
  have hlt : ((m.move a b).2 % (cols : Int)).toNat < cols := emod_toNat_lt _ (by omega)
  rw [(label_parts (a := a) hb).1, (label_parts (a := a) hb).2, (label_parts (a := ((m.move a b).1 % (rows : Int)).toNat) hlt).1,
    (label_parts (a := ((m.move a b).1 % (rows : Int)).toNat) hlt).2,
    Int.toNat_of_nonneg (Int.emod_nonneg _ (by omega)), Int.toNat_of_nonneg (Int.emod_nonneg _ (by omega))]
  have hper := planeCA_periodic (D := D) (F := F) (rows := rows) (cols := cols) s t (m.move a b).1 (m.move a b).2 0 0
  simp only [Int.add_zero] at hper
  rw [hper, ← planeCA_move hF m hD]
  congr 1
  funext x y
  exact tiled_move m hr hc s x y

section
variable {V I σ κ : Type} [DecidableEq V] [DecidableEq κ]

/-- The offsets of the neighbours, by the name of the neighbourhood. -/
def squareHood : String → List (Int × Int)
  | "Moore" => moore8
  | _ => vonNeumann4

theorem square_run_plane (rows cols : Nat) (hrw : 3 ≤ rows) (hcl : 3 ≤ cols) {hood : String} (hh : hood = "Moore" ∨ hood = "von Neumann")
    {Good : V → Prop} {G : NodeCtx Nat Int V I → Except Err V} {F : V → List V → V} (hG : OrderFree (squareHood hood).length Good G F)
    (cfg : Config Nat Int V I σ κ) (T : Nat) (hT : 1 ≤ T) (h : cfg.Ordinary G T) (N : Net Nat Int)
    (hN : cellularAutomaton2d rows cols 1 hood true = .ok N) (r : Nat) (w : World Nat Int σ)
    (hr : w.heap[r]? = some N) (init : Option (Conds Nat V)) (s : Nat → Nat → V) (hs : ∀ a b, a < rows → b < cols → Good (s a b))
    (hlen : (initDict cfg init).length = rows * cols)
    (h0 : ∀ a b, a < rows → b < cols → (initDict cfg init).get? (a * cols + b) = some (s a b)) (fuel : Nat) (hf : T ≤ fuel) :
    ∃ res, evolve fuel cfg init r w = .ok res ∧ ShowsRun cfg res T (rows * cols)
      (fun t x => planeCA (fun _ => squareHood hood) F (tiled rows cols s) t ((x / cols : Nat) : Int) ((x % cols : Nat) : Int)) := by
  have hrule : ∀ (c : NodeCtx Nat Int V I) (g : Nat → V) ys, (∀ y, Good (g y)) → (∃ x : Int, ys.length = ((fun _ => squareHood hood) x).length) →
      c.neighbours.Perm (c.node :: ys) → c.node ∉ ys → c.neighbourActs = c.neighbours.map g → c.current = g c.node →
      G c = .ok (F c.current (ys.map g)) := by
    intro c g ys hg hl hp _ ha hcur
    obtain ⟨_, hl⟩ := hl
    refine hG.rule c (ys.map g) ?_ (by rw [List.length_map]; exact hl) (by rw [hcur]; exact hg _) ?_
    · rw [ha, hcur]; exact hp.map g
    · intro u hu
      obtain ⟨y, _, rfl⟩ := List.mem_map.1 hu
      exact hg y
  rcases hh with rfl | rfl
  · obtain ⟨M, m1, m2⟩ := C41_moore rows cols 1 (Nat.mul_le_mul hrw hcl)
    exact plane_run_good hrw hcl (moore_directions.row rows) m1 m2 hG.keeps hG.perm hrule cfg T hT h N hN r w hr init s hs hlen h0 fuel hf
  · obtain ⟨M, m1, m2⟩ := C41_von_neumann rows cols 1 (Nat.mul_le_mul hrw hcl)
    exact plane_run_good hrw hcl (vonNeumann_directions.row rows) m1 m2 hG.keeps hG.perm hrule cfg T hT h N hN r w hr init s hs hlen h0 fuel hf

/-- C157: turning, mirroring or shifting the initial conditions turns, mirrors or shifts the whole evolution, on the Moore and on the von
Neumann neighbourhood and for every rule that does not look at the order of the neighbours.  (If rows and columns change places the second
torus has `cols` rows and `rows` columns.) -/
theorem C157_motion (rows cols : Nat) (hrw : 3 ≤ rows) (hcl : 3 ≤ cols) {hood : String} (hh : hood = "Moore" ∨ hood = "von Neumann")
    {Good : V → Prop} {G : NodeCtx Nat Int V I → Except Err V} {F : V → List V → V}
    (hG : OrderFree (if hood = "Moore" then 8 else 4) Good G F) (m : Motion)
    (cfg : Config Nat Int V I σ κ) (T : Nat) (hT : 1 ≤ T) (h : cfg.Ordinary G T) (N N' : Net Nat Int)
    (hN : cellularAutomaton2d rows cols 1 hood true = .ok N)
    (hN' : cellularAutomaton2d ((if m.swap then cols else rows : Nat) : Nat) ((if m.swap then rows else cols : Nat) : Nat) 1 hood true = .ok N')
    (r r' : Nat) (w w' : World Nat Int σ) (hr : w.heap[r]? = some N) (hr' : w'.heap[r']? = some N')
    (init init' : Option (Conds Nat V)) (s : Nat → Nat → V) (hs : ∀ a b, a < rows → b < cols → Good (s a b))
    (hlen : (initDict cfg init).length = rows * cols) (hlen' : (initDict cfg init').length = rows * cols)
    (h0 : ∀ a b, a < rows → b < cols → (initDict cfg init).get? (a * cols + b) = some (s a b))
    (h0' : ∀ a b, a < (if m.swap then cols else rows) → b < (if m.swap then rows else cols) →
      (initDict cfg init').get? (a * (if m.swap then rows else cols) + b) =
        some (s ((m.move a b).1 % (rows : Int)).toNat ((m.move a b).2 % (cols : Int)).toNat)) (fuel : Nat) (hf : T ≤ fuel) :
    ∃ res res' f f', evolve fuel cfg init r w = .ok res ∧ evolve fuel cfg init' r' w' = .ok res' ∧
      ShowsRun cfg res T (rows * cols) f ∧ ShowsRun cfg res' T (rows * cols) f' ∧
      ∀ t a b, a < (if m.swap then cols else rows) → b < (if m.swap then rows else cols) →
        f' t (a * (if m.swap then rows else cols) + b) =
          f t (((m.move a b).1 % (rows : Int)).toNat * cols + ((m.move a b).2 % (cols : Int)).toNat) := by
  have hk : (if hood = "Moore" then 8 else 4) = (squareHood hood).length := by rcases hh with rfl | rfl <;> rfl
  rw [hk] at hG
  have hmul : (if m.swap then cols else rows) * (if m.swap then rows else cols) = rows * cols := by
    split
    · exact Nat.mul_comm ..
    · rfl
  obtain ⟨res, e1, e2⟩ := square_run_plane rows cols hrw hcl hh hG cfg T hT h N hN r w hr init s hs hlen h0 fuel hf
  obtain ⟨res', e1', e2'⟩ := square_run_plane (if m.swap then cols else rows) (if m.swap then rows else cols) (by split <;> omega)
    (by split <;> omega) hh hG cfg T hT h N' hN' r' w' hr' init'
    (fun a b => tiled rows cols s (m.move (a : Int) (b : Int)).1 (m.move (a : Int) (b : Int)).2)
    (fun a b _ _ => hs _ _ (emod_toNat_lt _ (by omega)) (emod_toNat_lt _ (by omega))) (by rw [hmul]; exact hlen') h0' fuel hf
  rw [hmul] at e2'
  refine ⟨res, res', _, _, e1, e1', e2, e2', ?_⟩
  intro t a b ha hb
  have hD : ((squareHood hood).map m.turn).Perm (squareHood hood) := by
    rcases hh with rfl | rfl
    · exact moore_turn m
    · exact vonNeumann_turn m
  exact square_move hD hG.perm (rows := rows) (cols := cols) (by omega) (by omega) s t ha hb

/-- C157: initial conditions with a symmetry keep it for ever. -/
theorem C157_symmetric (rows cols : Nat) (hrw : 3 ≤ rows) (hcl : 3 ≤ cols) {hood : String} (hh : hood = "Moore" ∨ hood = "von Neumann")
    {Good : V → Prop} {G : NodeCtx Nat Int V I → Except Err V} {F : V → List V → V}
    (hG : OrderFree (if hood = "Moore" then 8 else 4) Good G F) (m : Motion) (hm : m.swap = true → rows = cols)
    (cfg : Config Nat Int V I σ κ) (T : Nat) (hT : 1 ≤ T) (h : cfg.Ordinary G T) (N : Net Nat Int)
    (hN : cellularAutomaton2d rows cols 1 hood true = .ok N)
    (r : Nat) (w : World Nat Int σ) (hr : w.heap[r]? = some N)
    (init : Option (Conds Nat V)) (s : Nat → Nat → V) (hs : ∀ a b, a < rows → b < cols → Good (s a b))
    (hlen : (initDict cfg init).length = rows * cols)
    (h0 : ∀ a b, a < rows → b < cols → (initDict cfg init).get? (a * cols + b) = some (s a b))
    (hsym : ∀ a b : Nat, a < rows → b < cols → s ((m.move a b).1 % (rows : Int)).toNat ((m.move a b).2 % (cols : Int)).toNat = s a b)
    (fuel : Nat) (hf : T ≤ fuel) :
    ∃ res f, evolve fuel cfg init r w = .ok res ∧ ShowsRun cfg res T (rows * cols) f ∧
      ∀ t a b, a < rows → b < cols →
        f t (((m.move a b).1 % (rows : Int)).toNat * cols + ((m.move a b).2 % (cols : Int)).toNat) = f t (a * cols + b) := by
  have hk : (if hood = "Moore" then 8 else 4) = (squareHood hood).length := by rcases hh with rfl | rfl <;> rfl
  rw [hk] at hG
  obtain ⟨res, e1, e2⟩ := square_run_plane rows cols hrw hcl hh hG cfg T hT h N hN r w hr init s hs hlen h0 fuel hf
  refine ⟨res, _, e1, e2, ?_⟩
  intro t a b ha hb
  have hD : ((squareHood hood).map m.turn).Perm (squareHood hood) := by
    rcases hh with rfl | rfl
    · exact moore_turn m
    · exact vonNeumann_turn m
  have hrows : (if m.swap then cols else rows) = rows := by split <;> simp_all
  have hcols : (if m.swap then rows else cols) = cols := by split <;> simp_all
  have hmv := square_move hD hG.perm (rows := rows) (cols := cols) (by omega) (by omega) s t (m := m) (a := a) (b := b) (by rw [hrows]; exact ha) (by rw [hcols]; exact hb)
  have htl : tiled (if m.swap then cols else rows) (if m.swap then rows else cols)
      (fun a b => tiled rows cols s (m.move (a : Int) (b : Int)).1 (m.move (a : Int) (b : Int)).2) = tiled rows cols s := by
    rw [hrows, hcols]
    funext x y
    exact hsym _ _ (emod_toNat_lt _ (by omega)) (emod_toNat_lt _ (by omega))
  rw [htl, hcols] at hmv
  exact hmv.symm

/-- C157: three rules of the library treat all directions alike: the Game of Life and Wireworld on the Moore neighbourhood, and every
totalistic rule of two colours on either neighbourhood. -/
theorem C157_rules :
    OrderFree (I := I) 8 (fun v => v = 0 ∨ v = 1) (orNone gameOfLife?) (fun v l => if conway (v == 1) (l.count 1) then 1 else 0) ∧
    OrderFree (I := I) 8 (fun v => v = 0 ∨ v = 1 ∨ v = 2 ∨ v = 3) (orNone wireworld?)
      (fun v l => if v = 0 then 0 else if v = 1 then 2 else if v = 2 then 3 else if l.count 1 = 1 ∨ l.count 1 = 2 then 1 else 3) ∧
    (∀ R, R < 2 ^ 10 → OrderFree (I := I) 8 (fun v => v = 0 ∨ v = 1) (totalisticCa 2 R) (totalOf R)) ∧
    (∀ R, R < 2 ^ 6 → OrderFree (I := I) 4 (fun v => v = 0 ∨ v = 1) (totalisticCa 2 R) (totalOf R)) := by
  have htot : ∀ k R, R < 2 ^ (k + 2) → OrderFree (I := I) k (fun v => v = 0 ∨ v = 1) (totalisticCa 2 R) (totalOf R) := by
    intro k R hR
    refine ⟨?_, ?_, ?_⟩
    · intro v l _ _
      unfold totalOf
      omega
    · intro v l l' hl
      unfold totalOf
      rw [int_sum_perm hl]
    · intro c l hperm hlen hg hgl
      have hcol : Colours 2 c.neighbourActs := by
        intro v hv
        rcases List.mem_cons.1 (hperm.mem_iff.1 hv) with e | e
        · rw [e]; omega
        · have := hgl v e
          omega
      have hl : c.neighbourActs.length = k + 1 := by rw [hperm.length_eq, List.length_cons, hlen]
      obtain ⟨s, s1, _, s3, _⟩ := C30_totalistic (k := 2) (by omega) (by omega) R c hcol (by
        rw [hl, show (k + 1) * (2 - 1) + 1 = k + 2 by omega]; exact hR)
      rw [s3]
      unfold totalOf
      rw [← List.sum_cons, ← int_sum_perm hperm, s1]
      rfl
  refine ⟨⟨?_, ?_, ?_⟩, ⟨?_, ?_, ?_⟩, fun R hR => htot 8 R hR, fun R hR => htot 4 R hR⟩
  · intro v l _ _
    by_cases h : conway (v == 1) (l.count 1) = true
    · exact .inr (if_pos h)
    · exact .inl (if_neg h)
  · intro v l l' hl
    simp only [hl.count_eq]
  · intro c l hperm _ hg hgl
    exact C32_life c l hperm (fun v hv => by
      rcases List.mem_cons.1 hv with e | e
      · rw [e]; exact hg
      · exact hgl v e)
  · intro v l _ _
    by_cases h0 : v = 0
    · simp [h0]
    · by_cases h1 : v = 1
      · simp [h1]
      · by_cases h2 : v = 2
        · simp [h2]
        · by_cases hc : l.count 1 = 1 ∨ l.count 1 = 2
          · simp [h0, h1, h2, hc]
          · simp [h0, h1, h2, hc]
  · intro v l l' hl
    simp only [hl.count_eq]
  · intro c l hperm _ hg hgl
    have hcnt : c.current ≠ 1 → c.neighbourActs.count 1 = l.count 1 := by
      intro hne
      rw [hperm.count_eq, List.count_cons_of_ne hne]
    unfold orNone wireworld?
    rcases hg with h | h | h | h
    · simp [h]
    · simp [h]
    · simp [h]
    · rw [hcnt (by omega)]
      by_cases hc : l.count 1 = 1 ∨ l.count 1 = 2
      · simp [h, hc]
      · simp [h, hc]

end

/-- Some rules look at the order of the neighbours: one that copies the first of its neighbours is not order free. -/
example : ¬ ∃ F, OrderFree (I := Unit) 4 (fun v : Int => v = 0 ∨ v = 1) (fun c => .ok (c.neighbourActs.headD 0)) F := by
  rintro ⟨F, h⟩
  have h1 := h.rule ⟨0, 0, [], [], [1, 0, 0, 0, 0], [], 0, none, none⟩ [1, 0, 0, 0] (by decide) rfl (.inl rfl) (by simp)
  have h2 := h.rule ⟨0, 0, [], [], [0, 1, 0, 0, 0], [], 0, none, none⟩ [1, 0, 0, 0] (by decide) rfl (.inl rfl) (by simp)
  rw [← h1] at h2
  simp at h2

/-- A motion: a quarter turn of the 60 × 60 torus (row `a`, column `b` to row `b`, column `59 - a`). -/
def quarterTurn : Motion := ⟨true, false, true, 0, 59⟩
example : quarterTurn.move 2 5 = (5, 57) := by decide

/-- The lone cell in the middle of a 61 × 61 torus has the symmetries of the square, so rule 126 of the
two-dimensional totalistic demo keeps them; here a quarter turn. -/
example : ∃ N res f, cellularAutomaton2d 61 61 1 "Moore" true = .ok N ∧
    evolve 30 ({ Ex.base with rule := some (pureRule (totalisticCa 2 126)), input := .timesteps 30 })
      (some (.list ((List.range (61 * 61)).map (fun x => if x = 30 * 61 + 30 then 1 else 0)))) 0 ⟨[N], []⟩ = .ok res ∧
    ShowsRun { Ex.base with rule := some (pureRule (totalisticCa 2 126)), input := .timesteps 30 } res 30 (61 * 61) f ∧
    ∀ t a b, a < 61 → b < 61 → f t (b * 61 + (60 - a)) = f t (a * 61 + b) := by
  obtain ⟨N, hN, _⟩ := C44_centre_partial.2 61 61 1 "Moore" (by decide) (by decide)
  obtain ⟨i1, _, i3⟩ := initDict_list (cfg := { Ex.base with rule := some (pureRule (totalisticCa 2 126)), input := .timesteps 30 }) rfl
    ((List.range (61 * 61)).map (fun x => if x = 30 * 61 + 30 then 1 else 0))
  obtain ⟨res, f, h1, h2, h3⟩ := C157_symmetric 61 61 (by omega) (by omega) (.inl rfl) (C157_rules.2.2.1 126 (by decide))
    ⟨true, false, true, 0, 60⟩ (fun _ => rfl) { Ex.base with rule := some (pureRule (totalisticCa 2 126)), input := .timesteps 30 } 30 (by omega) ⟨rfl, rfl, rfl, rfl, rfl, rfl, rfl⟩ N hN 0 ⟨[N], []⟩ rfl
    (some (.list ((List.range (61 * 61)).map (fun x => if x = 30 * 61 + 30 then 1 else 0))))
    (fun a b => if a = 30 ∧ b = 30 then 1 else 0) (by
      intro a b _ _
      show (if a = 30 ∧ b = 30 then (1 : Int) else 0) = 0 ∨ (if a = 30 ∧ b = 30 then (1 : Int) else 0) = 1
      split <;> simp) (by rw [i1, List.length_map, List.length_range]) (by
      intro a b ha hb
      have hlt : a * 61 + b < 61 * 61 := by omega
      rw [i3 _ (by rw [List.length_map, List.length_range]; exact hlt), List.getElem?_map, List.getElem?_range hlt]
      simp only [Option.map_some]
      by_cases hab : a = 30 ∧ b = 30
      · rw [if_pos hab, if_pos (by omega)]
      · rw [if_neg hab, if_neg (by omega)]) (by
      intro a b ha hb
      have e1 : (((Motion.mk true false true 0 60).move a b).1 % ((61 : Nat) : Int)).toNat = b := by
        simp only [Motion.move, Motion.turn]
        simp
        omega
      have e2 : (((Motion.mk true false true 0 60).move a b).2 % ((61 : Nat) : Int)).toNat = 60 - a := by
        simp only [Motion.move, Motion.turn]
        simp
        omega
      simp only [e1, e2]
      by_cases hab : a = 30 ∧ b = 30
      · rw [if_pos hab, if_pos (by omega)]
      · rw [if_neg hab, if_neg (by omega)]) 30 (by omega)
  refine ⟨N, res, f, hN, h1, h2, ?_⟩
  intro t a b ha hb
  have := h3 t a b ha hb
  have e1 : (((Motion.mk true false true 0 60).move a b).1 % ((61 : Nat) : Int)).toNat = b := by
    simp only [Motion.move, Motion.turn]
    simp
    omega
  have e2 : (((Motion.mk true false true 0 60).move a b).2 % ((61 : Nat) : Int)).toNat = 60 - a := by
    simp only [Motion.move, Motion.turn]
    simp
    omega
  rw [e1, e2] at this
  exact this

end Verif
