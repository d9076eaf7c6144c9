import Verif.Proofs.LifePlane
import Verif.Model.LifeDemo
import Verif.Props.EndToEnd
import Verif.Props.Utils
/-! # C116: patterns of the Game of Life on a torus -/

namespace Verif
open Spec

theorem onTorus_iff {rows cols : Nat} {L : List (Int × Int)} {s : Nat → Nat → Bool} :
    OnTorus rows cols L s ↔ ∀ a b, a < rows → b < cols → s a b = covers rows cols L a b := by
  unfold OnTorus covers
  refine forall_congr' fun a => forall_congr' fun b => forall_congr' fun _ => forall_congr' fun _ => ?_
  rw [Bool.eq_iff_iff (a := s a b) (b := L.any _), List.any_eq_true]
  simp

theorem sameCells_of {L L' : List (Int × Int)} (h : (L.all (fun p => decide (p ∈ L')) && L'.all (fun p => decide (p ∈ L))) = true) :
    SameCells L L' := by
  rw [Bool.and_eq_true, List.all_eq_true, List.all_eq_true] at h
  intro p
  exact ⟨fun hp => by simpa using h.1 p hp, fun hp => by simpa using h.2 p hp⟩

theorem planeLife_moved (k : Int) (v : Int × Int) (L : List (Int × Int)) : ∀ t : Nat,
    SameCells (planeLife (movedBy k v L) t) (movedBy k v (planeLife L t))
  | 0 => fun _ => Iff.rfl
  | t + 1 => fun p => (planeStep_congr (planeLife_moved k v L t) p).trans (planeStep_moved k v (planeLife L t) p)

theorem movedBy_comm (k l : Int) (v w : Int × Int) (L : List (Int × Int)) :
    SameCells (movedBy k v (movedBy l w L)) (movedBy l w (movedBy k v L)) := by
  intro p
  rw [mem_movedBy, mem_movedBy, mem_movedBy, mem_movedBy]
  simp only
  rw [show p.1 - k * v.1 - l * w.1 = p.1 - l * w.1 - k * v.1 by omega, show p.2 - k * v.2 - l * w.2 = p.2 - l * w.2 - k * v.2 by omega]

/-- C116.  A finite set of cells that comes back, moved by `v`, after `p` steps on the plane, and whose `p` generations each
leave two rows and two columns of the torus free: for ever, generation `t` on the torus is generation `t % p`, moved
`t / p` times. -/
theorem C116_ship {rows cols : Nat} (hr : 3 ≤ rows) (hc : 3 ≤ cols) {L : List (Int × Int)} {p : Nat} (hp : 0 < p) {v : Int × Int}
    (hback : SameCells (planeLife L p) (movedBy 1 v L)) (hf : ∀ q, q < p → FitsIn rows cols (planeLife L q))
    {s : Nat → Nat → Bool} (hs : ∀ a b, a < rows → b < cols → s a b = covers rows cols L a b) :
    ∀ t a b : Nat, a < rows → b < cols → life rows cols s t a b = covers rows cols (shipAt L p v t) a b :=
  fun t => onTorus_iff.1 (pattern_run hr hc hp hback hf (onTorus_iff.2 hs) t)

/-- C116.  The step of the plane is Conway's rule for every cell. -/
theorem C116_plane (L : List (Int × Int)) (p : Int × Int) :
    p ∈ planeStep L ↔ (p ∈ L ∧ (aliveAround L p = 2 ∨ aliveAround L p = 3)) ∨ (p ∉ L ∧ aliveAround L p = 3) := by
  rw [mem_planeStep]
  unfold aliveNext conway
  by_cases h : p ∈ L <;> simp [h]

/-- The pattern at another place. -/
theorem ship_placed {rows cols : Nat} (hr : 3 ≤ rows) (hc : 3 ≤ cols) {L : List (Int × Int)} {p : Nat} (hp : 0 < p) {v : Int × Int}
    (hback : SameCells (planeLife L p) (movedBy 1 v L)) (hf : ∀ q, q < p → FitsIn rows cols (planeLife L q)) (o : Int × Int)
    {s : Nat → Nat → Bool} (hs : ∀ a b, a < rows → b < cols → s a b = covers rows cols (movedBy 1 o L) a b) :
    ∀ t a b : Nat, a < rows → b < cols → life rows cols s t a b = covers rows cols (movedBy 1 o (shipAt L p v t)) a b := by
  intro t
  have h := pattern_run hr hc (L := movedBy 1 o L) hp (v := v)
    (fun q => ((planeLife_moved 1 o L p q).trans (movedBy_congr hback 1 o q)).trans (movedBy_comm 1 1 o v L q))
    (fun q hq => fitsIn_congr (fun x => (planeLife_moved 1 o L q x).symm) (fitsIn_moved (hf q hq) 1 o)) (onTorus_iff.2 hs) t
  refine onTorus_iff.1 (onTorus_congr ?_ h)
  intro q
  unfold shipAt
  exact (movedBy_congr (planeLife_moved 1 o L (t % p)) _ v q).trans (movedBy_comm _ 1 v o _ q)

/-- Every cell lies in the given rectangle. -/
def inBox (i j h w : Int) (L : List (Int × Int)) : Bool :=
  L.all (fun c => decide (i ≤ c.1) && decide (c.1 < i + h) && decide (j ≤ c.2) && decide (c.2 < j + w))

theorem fits_of_box {rows cols : Nat} {L : List (Int × Int)} (i j h w : Int) (hb : inBox i j h w L = true) (h1 : h + 2 ≤ rows)
    (h2 : w + 2 ≤ cols) : FitsIn rows cols L := by
  unfold inBox at hb
  rw [List.all_eq_true] at hb
  refine ⟨i, j, fun c hc => ?_⟩
  have := hb c hc
  simp only [Bool.and_eq_true, decide_eq_true_iff] at this
  omega

theorem glider_back : SameCells (planeLife glider 4) (movedBy 1 (1, 1) glider) := sameCells_of (by decide +kernel)
theorem lwss_back : SameCells (planeLife lwss 4) (movedBy 1 (0, -2) lwss) := sameCells_of (by decide +kernel)
theorem blinker_back : SameCells (planeLife blinker 2) (movedBy 1 (0, 0) blinker) := sameCells_of (by decide +kernel)

theorem glider_fits {rows cols : Nat} (hr : 5 ≤ rows) (hc : 5 ≤ cols) : ∀ q, q < 4 → FitsIn rows cols (planeLife glider q) := by
  intro q hq
  match q, hq with
  | 0, _ => exact fits_of_box 0 0 3 3 (by decide +kernel) (by omega) (by omega)
  | 1, _ => exact fits_of_box 1 0 3 3 (by decide +kernel) (by omega) (by omega)
  | 2, _ => exact fits_of_box 1 0 3 3 (by decide +kernel) (by omega) (by omega)
  | 3, _ => exact fits_of_box 1 1 3 3 (by decide +kernel) (by omega) (by omega)

theorem lwss_fits {rows cols : Nat} (hr : 6 ≤ rows) (hc : 7 ≤ cols) : ∀ q, q < 4 → FitsIn rows cols (planeLife lwss q) := by
  intro q hq
  match q, hq with
  | 0, _ => exact fits_of_box 0 0 4 5 (by decide +kernel) (by omega) (by omega)
  | 1, _ => exact fits_of_box 1 (-1) 4 5 (by decide +kernel) (by omega) (by omega)
  | 2, _ => exact fits_of_box 1 (-1) 4 5 (by decide +kernel) (by omega) (by omega)
  | 3, _ => exact fits_of_box 0 (-2) 4 5 (by decide +kernel) (by omega) (by omega)

theorem blinker_fits {rows cols : Nat} (hr : 5 ≤ rows) (hc : 5 ≤ cols) : ∀ q, q < 2 → FitsIn rows cols (planeLife blinker q) := by
  intro q hq
  match q, hq with
  | 0, _ => exact fits_of_box 0 0 3 3 (by decide +kernel) (by omega) (by omega)
  | 1, _ => exact fits_of_box (-1) 0 3 3 (by decide +kernel) (by omega) (by omega)

/-- The live cells of the two patterns do not touch: a step of both is a step of each. -/
theorem apart_step {rows cols : Nat} (hr : 3 ≤ rows) (hc : 3 ≤ cols) {L L' : List (Int × Int)} (hap : apart rows cols L L' = true)
    {s s' : Nat → Nat → Bool} (hs : OnTorus rows cols L s) (hs' : OnTorus rows cols L' s') {a b : Nat} (ha : a < rows) (hb : b < cols) :
    conway (s a b || s' a b) ((around rows cols a b).countP (fun p => s p.1 p.2 || s' p.1 p.2)) =
      (conway (s a b) ((around rows cols a b).countP (fun p => s p.1 p.2)) ||
        conway (s' a b) ((around rows cols a b).countP (fun p => s' p.1 p.2))) := by
  have harr := around_rep hr hc (a := a) (b := b) (p := ((a : Int), (b : Int))) (Int.emod_eq_of_lt (by omega) (by simp only; omega))
    (Int.emod_eq_of_lt (by omega) (by simp only; omega))
  -- the cell and the cells around it
  have hpt : ∀ q, q ∈ (a, b) :: around rows cols a b → q.1 < rows ∧ q.2 < cols ∧ ∃ d : Int × Int,
      -1 ≤ d.1 ∧ d.1 ≤ 1 ∧ -1 ≤ d.2 ∧ d.2 ≤ 1 ∧ (q.1 : Int) = ((a : Int) + d.1) % rows ∧ (q.2 : Int) = ((b : Int) + d.2) % cols := by
    intro q hq
    rcases List.mem_cons.1 hq with rfl | hq
    · refine ⟨ha, hb, (0, 0), by decide, by decide, by decide, by decide, ?_, ?_⟩
      · simp only [Int.add_zero]
        exact (Int.emod_eq_of_lt (by omega) (by omega)).symm
      · simp only [Int.add_zero]
        exact (Int.emod_eq_of_lt (by omega) (by omega)).symm
    · rw [harr] at hq
      obtain ⟨d, hd, rfl⟩ := List.mem_map.1 hq
      have hd' : -1 ≤ d.1 ∧ d.1 ≤ 1 ∧ -1 ≤ d.2 ∧ d.2 ≤ 1 := by
        simp only [moore8, List.mem_cons, List.not_mem_nil, or_false] at hd
        rcases hd with rfl | rfl | rfl | rfl | rfl | rfl | rfl | rfl <;> decide
      have e1 := Int.emod_nonneg ((a : Int) + d.1) (by omega : (rows : Int) ≠ 0)
      have e2 := Int.emod_lt_of_pos ((a : Int) + d.1) (by omega : (0 : Int) < rows)
      have e3 := Int.emod_nonneg ((b : Int) + d.2) (by omega : (cols : Int) ≠ 0)
      have e4 := Int.emod_lt_of_pos ((b : Int) + d.2) (by omega : (0 : Int) < cols)
      exact ⟨by simp only; omega, by simp only; omega, d, hd'.1, hd'.2.1, hd'.2.2.1, hd'.2.2.2, by simp only; omega, by simp only; omega⟩
  -- two points of the neighbourhood are near each other on each ring
  have hnear : ∀ (n : Nat) (x : Int) (d d' c c' : Int), 3 ≤ n → -1 ≤ d → d ≤ 1 → -1 ≤ d' → d' ≤ 1 → c % (n : Int) = (x + d) % n →
      c' % (n : Int) = (x + d') % n → nearOnRing n c c' = true := by
    intro n x d d' c c' hn g1 g2 g3 g4 hcc hcc'
    have e : (c - c') % (n : Int) = (d - d') % n := by
      rw [Int.sub_emod, hcc, hcc', ← Int.sub_emod, show x + d - (x + d') = d - d' by omega]
    unfold nearOnRing
    rw [e, Bool.or_eq_true, decide_eq_true_iff, decide_eq_true_iff]
    rcases Int.lt_or_le (d - d') 0 with h | h
    · right
      rw [← Int.add_emod_right, Int.emod_eq_of_lt (by omega) (by omega)]
      omega
    · left
      rw [Int.emod_eq_of_lt h (by omega)]
      omega
  have hquiet : (∀ q ∈ (a, b) :: around rows cols a b, s q.1 q.2 = false) ∨ (∀ q ∈ (a, b) :: around rows cols a b, s' q.1 q.2 = false) := by
    apply Classical.byContradiction
    intro hno
    rw [not_or] at hno
    obtain ⟨h1, h2⟩ := hno
    have h1 : ∃ q ∈ (a, b) :: around rows cols a b, s q.1 q.2 = true := by
      apply Classical.byContradiction; intro hx; exact h1 (fun q hq => by
        cases hsq : s q.1 q.2
        · rfl
        · exact absurd ⟨q, hq, hsq⟩ hx)
    have h2 : ∃ q ∈ (a, b) :: around rows cols a b, s' q.1 q.2 = true := by
      apply Classical.byContradiction; intro hx; exact h2 (fun q hq => by
        cases hsq : s' q.1 q.2
        · rfl
        · exact absurd ⟨q, hq, hsq⟩ hx)
    obtain ⟨q, hq, hsq⟩ := h1
    obtain ⟨q', hq', hsq'⟩ := h2
    obtain ⟨l1, l2, d, x1, x2, x3, x4, x5, x6⟩ := hpt q hq
    obtain ⟨l1', l2', d', y1, y2, y3, y4, y5, y6⟩ := hpt q' hq'
    obtain ⟨c, hcL, c1, c2⟩ := (hs _ _ l1 l2).1 hsq
    obtain ⟨c', hcL', c1', c2'⟩ := (hs' _ _ l1' l2').1 hsq'
    unfold apart at hap
    rw [List.all_eq_true] at hap
    have := hap c hcL
    rw [List.all_eq_true] at this
    have := this c' hcL'
    rw [hnear rows a d.1 d'.1 c.1 c'.1 hr x1 x2 y1 y2 (by omega) (by omega),
      hnear cols b d.2 d'.2 c.2 c'.2 hc x3 x4 y3 y4 (by omega) (by omega)] at this
    simp at this
  have hdead : conway false 0 = false := rfl
  rcases hquiet with h | h
  · have h0 : s a b = false := h (a, b) (List.mem_cons_self ..)
    have hz : (around rows cols a b).countP (fun p => s p.1 p.2) = 0 := by
      rw [List.countP_eq_zero]
      intro q hq
      rw [h q (List.mem_cons_of_mem _ hq)]
      decide
    have he : (around rows cols a b).countP (fun p => s p.1 p.2 || s' p.1 p.2) = (around rows cols a b).countP (fun p => s' p.1 p.2) := by
      apply List.countP_congr
      intro q hq
      rw [h q (List.mem_cons_of_mem _ hq), Bool.false_or]
    rw [he, hz, h0, hdead, Bool.false_or, Bool.false_or]
  · have h0 : s' a b = false := h (a, b) (List.mem_cons_self ..)
    have hz : (around rows cols a b).countP (fun p => s' p.1 p.2) = 0 := by
      rw [List.countP_eq_zero]
      intro q hq
      rw [h q (List.mem_cons_of_mem _ hq)]
      decide
    have he : (around rows cols a b).countP (fun p => s p.1 p.2 || s' p.1 p.2) = (around rows cols a b).countP (fun p => s p.1 p.2) := by
      apply List.countP_congr
      intro q hq
      rw [h q (List.mem_cons_of_mem _ hq), Bool.or_false]
    rw [he, hz, h0, hdead, Bool.or_false, Bool.or_false]

theorem around_bound {rows cols : Nat} (hr : 0 < rows) (hc : 0 < cols) {a b : Nat} (ha : a < rows) (hb : b < cols) :
    ∀ q ∈ around rows cols a b, q.1 < rows ∧ q.2 < cols := by
  intro q hq
  have h1 := Nat.mod_lt (a + rows - 1) hr
  have h2 := Nat.mod_lt (a + 1) hr
  have h3 := Nat.mod_lt (b + cols - 1) hc
  have h4 := Nat.mod_lt (b + 1) hc
  simp only [around, List.mem_cons, List.not_mem_nil, or_false] at hq
  rcases hq with rfl | rfl | rfl | rfl | rfl | rfl | rfl | rfl <;> exact ⟨by simp only; omega, by simp only; omega⟩

/-- C116.  As long as two sets of patterns stay apart (no cell of the torus touches both), the run from both is the union of
the runs from each. -/
theorem C116_apart {rows cols : Nat} (hr : 3 ≤ rows) (hc : 3 ≤ cols) {P P' : Nat → List (Int × Int)} {s s' s'' : Nat → Nat → Bool} {n : Nat}
    (h : ∀ t a b : Nat, t ≤ n → a < rows → b < cols → life rows cols s t a b = covers rows cols (P t) a b)
    (h' : ∀ t a b : Nat, t ≤ n → a < rows → b < cols → life rows cols s' t a b = covers rows cols (P' t) a b)
    (hap : ∀ t : Nat, t < n → apart rows cols (P t) (P' t) = true)
    (h0 : ∀ a b, a < rows → b < cols → s'' a b = covers rows cols (P 0 ++ P' 0) a b) :
    ∀ t a b : Nat, t ≤ n → a < rows → b < cols → life rows cols s'' t a b = covers rows cols (P t ++ P' t) a b := by
  have hap' : ∀ (L L' : List (Int × Int)) a b, covers rows cols (L ++ L') a b = (covers rows cols L a b || covers rows cols L' a b) := by
    intro L L' a b
    unfold covers
    rw [List.any_append]
  intro t
  induction t with
  | zero => intro a b _ ha hb; exact h0 a b ha hb
  | succ t ih =>
    intro a b ht ha hb
    have hcell : ∀ a b, a < rows → b < cols → life rows cols s'' t a b = (life rows cols s t a b || life rows cols s' t a b) := by
      intro a b ha hb
      rw [ih a b (by omega) ha hb, hap', h t a b (by omega) ha hb, h' t a b (by omega) ha hb]
    have hcnt : (around rows cols a b).countP (fun p => life rows cols s'' t p.1 p.2) =
        (around rows cols a b).countP (fun p => life rows cols s t p.1 p.2 || life rows cols s' t p.1 p.2) := by
      apply List.countP_congr
      intro q hq
      obtain ⟨q1, q2⟩ := around_bound (by omega) (by omega) ha hb q hq
      rw [hcell q.1 q.2 q1 q2]
    have hstep := apart_step hr hc (hap t (by omega)) (onTorus_iff.2 (fun a b => h t a b (by omega))) (onTorus_iff.2 (fun a b => h' t a b (by omega))) ha hb
    rw [hap', ← h (t + 1) a b ht ha hb, ← h' (t + 1) a b ht ha hb]
    show conway (life rows cols s'' t a b) ((around rows cols a b).countP (fun p => life rows cols s'' t p.1 p.2)) = _
    rw [hcnt, hcell a b ha hb, hstep]
    rfl

section
variable {I σ κ : Type} [DecidableEq κ]

/-- C116.  The demo's call on any torus: a set of cells that comes back, moved by `v`, after `p` steps of the plane, placed
anywhere. -/
theorem C116_evolve (rows cols : Nat) (hrw : 3 ≤ rows) (hcl : 3 ≤ cols) (L : List (Int × Int)) (p : Nat) (hp : 0 < p) (v o : Int × Int)
    (hback : SameCells (planeLife L p) (movedBy 1 v L)) (hfit : ∀ q, q < p → FitsIn rows cols (planeLife L q))
    (cfg : Config Nat Int Int I σ κ) (T : Nat) (hT : 1 ≤ T) (h : cfg.Ordinary (orNone gameOfLife?) T) (N : Net Nat Int)
    (hN : cellularAutomaton2d rows cols 1 "Moore" true = .ok N) (r : Nat) (w : World Nat Int σ) (hr : w.heap[r]? = some N)
    (init : Option (Conds Nat Int)) (hlen : (initDict cfg init).length = rows * cols)
    (h0 : ∀ a b, a < rows → b < cols → (initDict cfg init).get? (a * cols + b) = some (if covers rows cols (movedBy 1 o L) a b then 1 else 0))
    (fuel : Nat) (hf : T ≤ fuel) :
    ∃ res, evolve fuel cfg init r w = .ok res ∧ ShowsRun cfg res T (rows * cols)
      (fun t x => if covers rows cols (movedBy 1 o (shipAt L p v t)) (x / cols) (x % cols) then 1 else 0) := by
  obtain ⟨res, e, h1, h2⟩ := C47_game_of_life rows cols hrw hcl cfg T hT h N hN r w hr init (covers rows cols (movedBy 1 o L)) hlen h0 fuel hf
  refine ⟨res, e, h1, fun t ht => ?_⟩
  obtain ⟨d, d1, d2, d3⟩ := h2 t ht
  refine ⟨d, d1, d2, fun x hx => ?_⟩
  obtain ⟨ha, hb, _⟩ := split_label hx
  rw [d3 x hx]
  simp only [ship_placed hrw hcl hp hback hfit o (s := covers rows cols (movedBy 1 o L)) (fun _ _ _ _ => rfl) t _ _ ha hb]

/-- C116.  A glider anywhere on a torus of at least five rows and columns moves one row down and one column to the right every
four steps, for ever. -/
theorem C116_glider (rows cols : Nat) (hrw : 5 ≤ rows) (hcl : 5 ≤ cols) (o : Int × Int)
    (cfg : Config Nat Int Int I σ κ) (T : Nat) (hT : 1 ≤ T) (h : cfg.Ordinary (orNone gameOfLife?) T) (N : Net Nat Int)
    (hN : cellularAutomaton2d rows cols 1 "Moore" true = .ok N) (r : Nat) (w : World Nat Int σ) (hr : w.heap[r]? = some N)
    (init : Option (Conds Nat Int)) (hlen : (initDict cfg init).length = rows * cols)
    (h0 : ∀ a b, a < rows → b < cols → (initDict cfg init).get? (a * cols + b) = some (if covers rows cols (movedBy 1 o glider) a b then 1 else 0))
    (fuel : Nat) (hf : T ≤ fuel) :
    ∃ res, evolve fuel cfg init r w = .ok res ∧ ShowsRun cfg res T (rows * cols)
      (fun t x => if covers rows cols (movedBy 1 o (shipAt glider 4 (1, 1) t)) (x / cols) (x % cols) then 1 else 0) :=
  C116_evolve rows cols (by omega) (by omega) glider 4 (by omega) (1, 1) o glider_back (glider_fits hrw hcl) cfg T hT h N hN r w hr init hlen h0 fuel hf

/-- The cells of the demo at time `t`: the spaceship moves two columns to the left and the glider one row down and one column
to the right every four steps; the blinker stays. -/
def lifeDemoAt (t : Nat) : List (Int × Int) :=
  movedBy 1 (18, 44) (shipAt lwss 4 (0, -2) t) ++ movedBy 1 (28, 29) (shipAt glider 4 (1, 1) t) ++ movedBy 1 (40, 15) (shipAt blinker 2 (0, 0) t)

theorem lifeDemo_init : lifeDemoInit = .ok ((List.range 3600).map (fun x => if covers 60 60 (lifeDemoAt 0) (x / 60) (x % 60) then 1 else 0)) := by
  decide +kernel

theorem lifeDemo_apart : ∀ t : Nat, t < 183 →
    apart 60 60 (movedBy 1 (18, 44) (shipAt lwss 4 (0, -2) t)) (movedBy 1 (28, 29) (shipAt glider 4 (1, 1) t)) = true ∧
    apart 60 60 (movedBy 1 (18, 44) (shipAt lwss 4 (0, -2) t) ++ movedBy 1 (28, 29) (shipAt glider 4 (1, 1) t))
      (movedBy 1 (40, 15) (shipAt blinker 2 (0, 0) t)) = true := by
  decide +kernel

/-- C116.  The demo, for up to 184 timesteps (it asks for 60): the three patterns never disturb each other. -/
theorem C116_demo (cfg : Config Nat Int Int I σ κ) (T : Nat) (hT : 1 ≤ T) (hT' : T ≤ 184) (h : cfg.Ordinary (orNone gameOfLife?) T)
    (hnat : cfg.natLabel = id) (N : Net Nat Int) (hN : cellularAutomaton2d 60 60 1 "Moore" true = .ok N) (r : Nat) (w : World Nat Int σ)
    (hr : w.heap[r]? = some N) (fuel : Nat) (hf : T ≤ fuel) :
    ∃ l res, lifeDemoInit = .ok l ∧ evolve fuel cfg (some (.list l)) r w = .ok res ∧ ShowsRun cfg res T 3600
      (fun t x => if covers 60 60 (lifeDemoAt t) (x / 60) (x % 60) then 1 else 0) := by
  refine ⟨(List.range 3600).map (fun x => if covers 60 60 (lifeDemoAt 0) (x / 60) (x % 60) then 1 else 0), ?_⟩
  obtain ⟨i1, i2, i3⟩ := initDict_list hnat ((List.range 3600).map (fun x => if covers 60 60 (lifeDemoAt 0) (x / 60) (x % 60) then (1 : Int) else 0))
  obtain ⟨res, e, h1, h2⟩ := C47_game_of_life 60 60 (by omega) (by omega) cfg T hT h N hN r w hr _ (covers 60 60 (lifeDemoAt 0))
    (by rw [i1, List.length_map, List.length_range]) (by
      intro a b ha hb
      have hx : a * 60 + b < 3600 := by omega
      rw [i3 _ (by rw [List.length_map, List.length_range]; exact hx), List.getElem?_map, List.getElem?_range hx]
      rw [Option.map_some, show (a * 60 + b) / 60 = a by omega, show (a * 60 + b) % 60 = b by omega]) fuel hf
  refine ⟨res, lifeDemo_init, e, h1, fun t ht => ?_⟩
  obtain ⟨d, d1, d2, d3⟩ := h2 t ht
  refine ⟨d, d1, d2, fun x hx => ?_⟩
  obtain ⟨ha, hb, _⟩ := split_label (rows := 60) (cols := 60) hx
  rw [d3 x hx]
  have hL := ship_placed (rows := 60) (cols := 60) (by omega) (by omega) (by omega) lwss_back (lwss_fits (by omega) (by omega)) (18, 44)
    (s := covers 60 60 (movedBy 1 (18, 44) lwss)) (fun _ _ _ _ => rfl)
  have hG := ship_placed (rows := 60) (cols := 60) (by omega) (by omega) (by omega) glider_back (glider_fits (by omega) (by omega)) (28, 29)
    (s := covers 60 60 (movedBy 1 (28, 29) glider)) (fun _ _ _ _ => rfl)
  have hB := ship_placed (rows := 60) (cols := 60) (by omega) (by omega) (by omega) blinker_back (blinker_fits (by omega) (by omega)) (40, 15)
    (s := covers 60 60 (movedBy 1 (40, 15) blinker)) (fun _ _ _ _ => rfl)
  have hLG := C116_apart (rows := 60) (cols := 60) (by omega) (by omega) (n := 183) (fun t a b _ => hL t a b) (fun t a b _ => hG t a b)
    (fun t ht => (lifeDemo_apart t ht).1) (fun _ _ _ _ => rfl)
  have hLGB := C116_apart (rows := 60) (cols := 60) (by omega) (by omega) (n := 183) hLG (fun t a b _ => hB t a b)
    (fun t ht => (lifeDemo_apart t ht).2) (fun _ _ _ _ => rfl)
  have hend : life 60 60 (covers 60 60 (lifeDemoAt 0)) t (x / 60) (x % 60) = covers 60 60 (lifeDemoAt t) (x / 60) (x % 60) :=
    hLGB t (x / 60) (x % 60) (by omega) ha hb
  simp only [hend]

end

/-- The demo's call: the hypotheses are met. -/
example : ∃ N l res, cellularAutomaton2d 60 60 1 "Moore" true = .ok N ∧ lifeDemoInit = .ok l ∧
    evolve 60 ({ Ex.base with rule := some (pureRule (orNone gameOfLife?)), input := .timesteps 60 }) (some (.list l)) 0 ⟨[N], []⟩ = .ok res ∧
    ShowsRun { Ex.base with rule := some (pureRule (orNone gameOfLife?)), input := .timesteps 60 } res 60 3600
      (fun t x => if covers 60 60 (lifeDemoAt t) (x / 60) (x % 60) then 1 else 0) := by
  obtain ⟨N, hN, _⟩ := C44_centre_partial.2 60 60 1 "Moore" (by decide) (by decide)
  obtain ⟨l, res, h1, h2, h3⟩ := C116_demo { Ex.base with rule := some (pureRule (orNone gameOfLife?)), input := .timesteps 60 } 60 (by omega)
    (by omega) ⟨rfl, rfl, rfl, rfl, rfl, rfl, rfl⟩ rfl N hN 0 ⟨[N], []⟩ rfl 60 (by omega)
  exact ⟨N, l, res, hN, h1, h2, h3⟩
/-- A glider across the corner of a 5 × 7 torus, for a million steps. -/
example : ∃ N res, cellularAutomaton2d 5 7 1 "Moore" true = .ok N ∧
    evolve 1000000 ({ Ex.base with rule := some (pureRule (orNone gameOfLife?)), input := .timesteps 1000000 })
      (some (.dict (Dict.ofKeys (List.range 35) (fun x => if covers 5 7 (movedBy 1 (3, -1) glider) (x / 7) (x % 7) then 1 else 0)))) 0 ⟨[N], []⟩ = .ok res ∧
    ShowsRun { Ex.base with rule := some (pureRule (orNone gameOfLife?)), input := .timesteps 1000000 } res 1000000 35
      (fun t x => if covers 5 7 (movedBy 1 (3, -1) (shipAt glider 4 (1, 1) t)) (x / 7) (x % 7) then 1 else 0) := by
  obtain ⟨N, hN, _⟩ := C44_centre_partial.2 5 7 1 "Moore" (by decide) (by decide)
  obtain ⟨res, h1, h2⟩ := C116_glider 5 7 (by omega) (by omega) (3, -1)
    { Ex.base with rule := some (pureRule (orNone gameOfLife?)), input := .timesteps 1000000 } 1000000 (by omega)
    ⟨rfl, rfl, rfl, rfl, rfl, rfl, rfl⟩ N hN 0 ⟨[N], []⟩ rfl
    (some (.dict (Dict.ofKeys (List.range 35) (fun x => if covers 5 7 (movedBy 1 (3, -1) glider) (x / 7) (x % 7) then 1 else 0)))) (by decide)
    (by
      intro a b ha hb
      simp only [initDict, Conds.toDict, Dict.get?_ofKeys]
      rw [if_pos (List.mem_range.2 (label_lt ha hb)), show (a * 7 + b) / 7 = a by omega, show (a * 7 + b) % 7 = b by omega]) 1000000 (by omega)
  exact ⟨N, res, hN, h1, h2⟩
/-- Four rows are too few: there the glider is not the glider moved after four steps. -/
example : ∃ a < 4, ∃ b < 6, life 4 6 (covers 4 6 glider) 4 a b ≠ covers 4 6 (shipAt glider 4 (1, 1) 4) a b := by decide +kernel
/-- The block rests. -/
example : SameCells (planeLife [(0, 0), (0, 1), (1, 0), (1, 1)] 1) (movedBy 1 (0, 0) [(0, 0), (0, 1), (1, 0), (1, 1)]) := sameCells_of (by decide +kernel)
/-- Two blinkers next to each other are not apart, and their run is not the union of the two runs. -/
example : apart 9 9 blinker (movedBy 1 (0, 3) blinker) = false ∧
    life 9 9 (covers 9 9 (blinker ++ movedBy 1 (0, 3) blinker)) 2 0 2 ≠ covers 9 9 (shipAt blinker 2 (0, 0) 2 ++ movedBy 1 (0, 3) (shipAt blinker 2 (0, 0) 2)) 0 2 := by
  decide +kernel

end Verif
