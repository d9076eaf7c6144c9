import Verif.Props.Sandpile
import Verif.Spec.SandRest
import Verif.Proofs.Families
/-! # Lemmas on the stabilisation of sandpiles -/

namespace Verif
open Spec

/-- Sum over the four cells beside a cell off the edge. -/
def besideSum (g : Nat → Nat → Int) (a b : Nat) : Int := g (a - 1) b + g a (b + 1) + g (a + 1) b + g a (b - 1)

/-- Whether a cell topples. -/
def unstableAt (rows cols : Nat) (f : Nat → Nat → Int) (a b : Nat) : Int := if Inner rows cols a b ∧ 4 ≤ f a b then 1 else 0

/-- No cell outside the inner grid has four grains. -/
def EdgeLow (rows cols : Nat) (f : Nat → Nat → Int) : Prop := ∀ a b, a < rows → b < cols → ¬ Inner rows cols a b → f a b < 4

theorem onEdge_iff {rows cols a b : Nat} (ha : a < rows) (hb : b < cols) : onEdge rows cols a b = true ↔ ¬ Inner rows cols a b := by
  unfold onEdge Inner
  simp only [Bool.or_eq_true, beq_iff_eq]
  omega

/-- One step of the closed pile on a cell off the edge. -/
theorem step_inner {rows cols : Nat} {f : Nat → Nat → Int} (he : EdgeLow rows cols f) {a b : Nat} (h : Inner rows cols a b) :
    sandStep rows cols true f a b = f a b + besideSum (unstableAt rows cols f) a b - 4 * unstableAt rows cols f a b := by
  have hi := h
  obtain ⟨h1, h2, h3, h4⟩ := h
  have hon : onEdge rows cols a b = false := by
    rw [← Bool.not_eq_true, onEdge_iff (by omega) (by omega)]
    exact fun hh => hh hi
  have e1 : (a + rows - 1) % rows = a - 1 := by
    rw [show a + rows - 1 = (a - 1) + rows from by omega, Nat.add_mod_right, Nat.mod_eq_of_lt (by omega)]
  have e2 : (b + cols - 1) % cols = b - 1 := by
    rw [show b + cols - 1 = (b - 1) + cols from by omega, Nat.add_mod_right, Nat.mod_eq_of_lt (by omega)]
  have e3 : (a + 1) % rows = a + 1 := Nat.mod_eq_of_lt h2
  have e4 : (b + 1) % cols = b + 1 := Nat.mod_eq_of_lt h4
  have ind : ∀ i j, i < rows → j < cols → unstableAt rows cols f i j = if 4 ≤ f i j then 1 else 0 := by
    intro i j hi hj
    unfold unstableAt
    by_cases hin : Inner rows cols i j
    · simp [hin]
    · have := he i j hi hj hin
      rw [if_neg (fun hh => hin hh.1), if_neg (by omega)]
  unfold sandStep besideSum
  simp only [hon, Bool.and_false, Bool.false_eq_true, if_false, cross, e1, e2, e3, e4, List.countP_cons, List.countP_nil, decide_eq_true_eq]
  rw [ind _ _ (by omega) (by omega), ind _ _ (by omega) (by omega), ind _ _ (by omega) (by omega), ind _ _ (by omega) (by omega),
    ind a b (by omega) (by omega)]
  simp only [ge_iff_le]
  split <;> split <;> split <;> split <;> split <;> simp <;> omega

theorem step_edge {rows cols : Nat} {f : Nat → Nat → Int} {a b : Nat} (ha : a < rows) (hb : b < cols) (h : ¬ Inner rows cols a b) :
    sandStep rows cols true f a b = 0 := sandStep_edge ((onEdge_iff ha hb).2 h)

theorem edgeLow_step (rows cols : Nat) (f : Nat → Nat → Int) : EdgeLow rows cols (sandStep rows cols true f) := by
  intro a b ha hb h
  rw [step_edge ha hb h]
  decide

/-! ## Least action -/

/-- The pile after toppling every cell `(a, b)` off the edge `u a b` times. -/
def afterTopplings (f u : Nat → Nat → Int) (a b : Nat) : Int := f a b + besideSum u a b - 4 * u a b

/-- `v` says how often each cell topples such that the pile comes to rest. -/
structure Settles (rows cols : Nat) (f v : Nat → Nat → Int) : Prop where
  nonneg : ∀ a b, 0 ≤ v a b
  outside : ∀ a b, ¬ Inner rows cols a b → v a b = 0
  rest : AtRest rows cols (afterTopplings f v)

theorem besideSum_mono {u v : Nat → Nat → Int} (h : ∀ i j, u i j ≤ v i j) (a b : Nat) : besideSum u a b ≤ besideSum v a b := by
  have h1 := h (a - 1) b
  have h2 := h a (b + 1)
  have h3 := h (a + 1) b
  have h4 := h a (b - 1)
  unfold besideSum
  omega

/-- A cell that is unstable after toppling `u ≤ v` has toppled less often than in `v`. -/
theorem least_action {rows cols : Nat} {f u v : Nat → Nat → Int} (hv : Settles rows cols f v) (h : ∀ i j, u i j ≤ v i j) {a b : Nat}
    (hi : Inner rows cols a b) (hu : 4 ≤ afterTopplings f u a b) : u a b + 1 ≤ v a b := by
  have h1 := h a b
  by_cases he : u a b = v a b
  · have h2 := hv.rest a b hi
    have h3 := besideSum_mono h a b
    unfold afterTopplings at hu h2
    omega
  · omega

/-- What one toppling adds. -/
theorem toppleCell_after {rows cols : Nat} {f u : Nat → Nat → Int} {g : Nat → Nat → Int} {a b : Nat} (hi : Inner rows cols a b)
    (hg : ∀ i j, Inner rows cols i j → g i j = afterTopplings f u i j) {i j : Nat} (h : Inner rows cols i j) :
    toppleCell rows cols g a b i j = afterTopplings f (fun i j => u i j + if i = a ∧ j = b then 1 else 0) i j := by
  have ha := hi
  have hb := h
  obtain ⟨h1, h2, h3, h4⟩ := hi
  obtain ⟨k1, k2, k3, k4⟩ := h
  unfold toppleCell
  rw [if_pos hb, hg i j hb]
  unfold afterTopplings besideSum
  have : (if Beside a b i j then (1 : Int) else 0) = (if i - 1 = a ∧ j = b then 1 else 0) + (if i = a ∧ j + 1 = b then 1 else 0) +
      (if i + 1 = a ∧ j = b then 1 else 0) + (if i = a ∧ j - 1 = b then 1 else 0) := by
    by_cases hB : Beside a b i j
    · rw [if_pos hB]
      unfold Beside at hB
      split <;> split <;> split <;> split <;> omega
    · rw [if_neg hB]
      unfold Beside at hB
      split <;> split <;> split <;> split <;> omega
  rw [this]
  simp only
  by_cases hij : i = a ∧ j = b
  · simp only [if_pos hij]; omega
  · simp only [if_neg hij]; omega

/-- Toppling one cell after the other: how often each one topples. -/
theorem topples_count {rows cols : Nat} {f g : Nat → Nat → Int} (h : Topples rows cols f g) :
    ∃ u : Nat → Nat → Int, (∀ a b, 0 ≤ u a b) ∧ (∀ a b, ¬ Inner rows cols a b → u a b = 0) ∧
      (∀ a b, Inner rows cols a b → g a b = afterTopplings f u a b) ∧
      ∀ v, Settles rows cols f v → ∀ a b, u a b ≤ v a b := by
  induction h with
  | refl =>
    refine ⟨fun _ _ => 0, fun _ _ => Int.le_refl _, fun _ _ _ => rfl, ?_, fun v hv a b => hv.nonneg a b⟩
    intro a b _
    simp [afterTopplings, besideSum]
  | @step g a b _ hi h4 ih =>
    obtain ⟨u, u1, u2, u3, u4⟩ := ih
    refine ⟨fun i j => u i j + if i = a ∧ j = b then 1 else 0, ?_, ?_, ?_, ?_⟩
    · intro i j
      have := u1 i j
      simp only
      split <;> omega
    · intro i j hij
      simp only
      rw [u2 i j hij, if_neg]
      · rfl
      · rintro ⟨rfl, rfl⟩; exact hij hi
    · intro i j hij
      exact toppleCell_after hi u3 hij
    · intro v hv i j
      have h1 := u4 v hv i j
      simp only
      split
      · rename_i hab
        obtain ⟨rfl, rfl⟩ := hab
        exact least_action hv (u4 v hv) hi (by rw [← u3 _ _ hi]; exact h4)
      · omega

/-- How often each cell topples up to timestep `t`. -/
def topplings (rows cols : Nat) (s : Nat → Nat → Int) (drop : Nat → Nat → Nat → Nat) : Nat → Nat → Nat → Int
  | 0, _, _ => 0
  | t + 1, a, b => topplings rows cols s drop t a b + unstableAt rows cols (sandDrops rows cols s drop t) a b

theorem edgeLow_drops {rows cols : Nat} {s : Nat → Nat → Int} {drop : Nat → Nat → Nat → Nat} (he : EdgeLow rows cols s)
    (hd : ∀ t a b, ¬ Inner rows cols a b → drop t a b = 0) : ∀ t, EdgeLow rows cols (sandDrops rows cols s drop t) := by
  intro t
  cases t with
  | zero => exact he
  | succ t =>
    intro a b ha hb h
    show sandStep rows cols true _ a b + _ < _
    rw [step_edge ha hb h, hd _ _ _ h]
    decide

theorem drops_after {rows cols : Nat} {s : Nat → Nat → Int} {drop : Nat → Nat → Nat → Nat} (he : EdgeLow rows cols s)
    (hd : ∀ t a b, ¬ Inner rows cols a b → drop t a b = 0) : ∀ t a b, Inner rows cols a b →
      sandDrops rows cols s drop t a b = afterTopplings s (topplings rows cols s drop t) a b + dropped drop t a b := by
  intro t
  induction t with
  | zero =>
    intro a b _
    simp [sandDrops, afterTopplings, besideSum, topplings, dropped]
  | succ t ih =>
    intro a b h
    show sandStep rows cols true _ a b + _ = _
    rw [step_inner (edgeLow_drops he hd t) h, ih a b h]
    simp only [afterTopplings, besideSum, topplings, dropped]
    omega

/-- The parallel pile topples no cell more often than any settling does. -/
theorem drops_least {rows cols : Nat} {s : Nat → Nat → Int} {drop : Nat → Nat → Nat → Nat} (he : EdgeLow rows cols s)
    (hd : ∀ t a b, ¬ Inner rows cols a b → drop t a b = 0) {F : Nat → Nat → Int} (hF : ∀ t a b, Inner rows cols a b → s a b + dropped drop t a b ≤ F a b)
    {v : Nat → Nat → Int} (hv : Settles rows cols F v) : ∀ t a b, topplings rows cols s drop t a b ≤ v a b := by
  intro t
  induction t with
  | zero => exact fun a b => hv.nonneg a b
  | succ t ih =>
    intro a b
    simp only [topplings]
    unfold unstableAt
    split
    · rename_i hu
      refine least_action hv ih hu.1 ?_
      have h1 := drops_after he hd t a b hu.1
      have h2 := hF t a b hu.1
      have h3 := hu.2
      rw [h1] at h3
      unfold afterTopplings at h3 ⊢
      omega
    · have := ih a b
      omega

theorem topplings_nonneg (rows cols : Nat) (s : Nat → Nat → Int) (drop : Nat → Nat → Nat → Nat) : ∀ t a b, 0 ≤ topplings rows cols s drop t a b := by
  intro t
  induction t with
  | zero => intros; exact Int.le_refl _
  | succ t ih =>
    intro a b
    have := ih a b
    simp only [topplings, unstableAt]
    split <;> omega

theorem topplings_outside (rows cols : Nat) (s : Nat → Nat → Int) (drop : Nat → Nat → Nat → Nat) :
    ∀ t a b, ¬ Inner rows cols a b → topplings rows cols s drop t a b = 0 := by
  intro t
  induction t with
  | zero => intros; rfl
  | succ t ih =>
    intro a b h
    simp only [topplings, ih a b h, unstableAt]
    rw [if_neg (fun hh => h hh.1)]
    rfl

theorem dropped_mono (drop : Nat → Nat → Nat → Nat) {D : Nat} (hD : ∀ t a b, D < t → drop t a b = 0) : ∀ t a b, dropped drop t a b ≤ dropped drop D a b := by
  have up : ∀ t k a b, dropped drop t a b ≤ dropped drop (t + k) a b := by
    intro t k a b
    induction k with
    | zero => exact Nat.le_refl _
    | succ k ih => rw [← Nat.add_assoc]; simp only [dropped]; omega
  have fix : ∀ k a b, dropped drop (D + k) a b = dropped drop D a b := by
    intro k a b
    induction k with
    | zero => rfl
    | succ k ih => rw [← Nat.add_assoc]; simp only [dropped]; rw [ih, hD _ _ _ (by omega)]; rfl
  intro t a b
  by_cases h : t ≤ D
  · obtain ⟨k, rfl⟩ := Nat.exists_eq_add_of_le h
    exact up t k a b
  · obtain ⟨k, rfl⟩ := Nat.exists_eq_add_of_le (by omega : D ≤ t)
    rw [fix]
    exact Nat.le_refl _

theorem dropped_eq (drop : Nat → Nat → Nat → Nat) {D : Nat} (hD : ∀ t a b, D < t → drop t a b = 0) {t : Nat} (ht : D ≤ t) (a b : Nat) :
    dropped drop t a b = dropped drop D a b := by
  obtain ⟨k, rfl⟩ := Nat.exists_eq_add_of_le ht
  induction k with
  | zero => rfl
  | succ k ih => rw [← Nat.add_assoc]; simp only [dropped]; rw [ih (by omega), hD _ _ _ (by omega)]; rfl

/-! ## Coming to rest -/

theorem grains_congr {rows cols : Nat} {f g : Nat → Nat → Int} (h : ∀ a b, a < rows → b < cols → f a b = g a b) :
    grains rows cols f = grains rows cols g := sumTo_congr (fun a ha => sumTo_congr (fun b hb => h a b ha hb))

theorem grains_le {rows cols : Nat} {f g : Nat → Nat → Int} (h : ∀ a b, a < rows → b < cols → f a b ≤ g a b) :
    grains rows cols f ≤ grains rows cols g := sumTo_le (fun a ha => sumTo_le (fun b hb => h a b ha hb))

theorem grains_add (rows cols : Nat) (f g : Nat → Nat → Int) :
    grains rows cols (fun a b => f a b + g a b) = grains rows cols f + grains rows cols g := by
  simp only [grains, sumTo_add]

theorem grains_mul (rows cols : Nat) (k : Int) (f : Nat → Nat → Int) :
    grains rows cols (fun a b => k * f a b) = k * grains rows cols f := by
  simp only [grains, sumTo_mul]

theorem sumTo_nonneg {n : Nat} {f : Nat → Int} (h : ∀ i, i < n → 0 ≤ f i) : 0 ≤ sumTo n f := by
  have := sumTo_le (f := fun _ => 0) h
  have hz : sumTo n (fun _ => 0) = 0 := by
    clear this h
    induction n with
    | zero => rfl
    | succ n ih => simp only [sumTo]; omega
  omega

theorem sumTo_member {n : Nat} {f : Nat → Int} (h : ∀ i, i < n → 0 ≤ f i) {i : Nat} (hi : i < n) : f i ≤ sumTo n f := by
  induction n with
  | zero => omega
  | succ n ih =>
    simp only [sumTo]
    by_cases he : i = n
    · subst he
      have := sumTo_nonneg (fun j hj => h j (by omega) : ∀ j, j < i → 0 ≤ f j)
      omega
    · have := ih (fun j hj => h j (by omega)) (by omega)
      have := h n (by omega)
      omega

theorem grains_member {rows cols : Nat} {f : Nat → Nat → Int} (h : ∀ a b, a < rows → b < cols → 0 ≤ f a b) {a b : Nat} (ha : a < rows) (hb : b < cols) :
    f a b ≤ grains rows cols f := by
  have h1 := sumTo_member (n := rows) (f := fun a => sumTo cols (fun b => f a b)) (fun i hi => sumTo_nonneg (fun j hj => h i j hi hj)) ha
  have h2 := sumTo_member (n := cols) (f := fun b => f a b) (fun j hj => h a j ha hj) hb
  exact Int.le_trans h2 h1

/-- The weight of a cell in `sandHeight`. -/
def sandWeight (rows cols a b : Nat) : Int := if Inner rows cols a b then (a : Int) * ((rows : Int) - 1 - a) else 0

theorem sandHeight_eq (rows cols : Nat) (f : Nat → Nat → Int) :
    sandHeight rows cols f = grains rows cols (fun a b => sandWeight rows cols a b * f a b) := by
  apply grains_congr
  intro a b _ _
  unfold sandWeight
  split
  · rfl
  · rw [Int.zero_mul]

theorem prev_next {n i : Nat} (h : i < n) : ((i + n - 1) % n + 1) % n = i ∧ ((i + 1) % n + n - 1) % n = i := by
  by_cases h0 : i = 0
  · subst h0
    have e1 : (0 + n - 1) % n = n - 1 := by rw [Nat.zero_add]; exact Nat.mod_eq_of_lt (by omega)
    rw [e1, show n - 1 + 1 = n from by omega, Nat.mod_self]
    refine ⟨rfl, ?_⟩
    by_cases hn : n = 1
    · subst hn; rfl
    · rw [Nat.mod_eq_of_lt (by omega : 0 + 1 < n), show 0 + 1 + n - 1 = n from by omega, Nat.mod_self]
  · have e1 : (i + n - 1) % n = i - 1 := by rw [show i + n - 1 = i - 1 + n from by omega, Nat.add_mod_right, Nat.mod_eq_of_lt (by omega)]
    rw [e1, show i - 1 + 1 = i from by omega, Nat.mod_eq_of_lt h]
    refine ⟨rfl, ?_⟩
    by_cases hn : i + 1 = n
    · rw [hn, Nat.mod_self, show 0 + n - 1 = i from by omega, Nat.mod_eq_of_lt h]
    · rw [Nat.mod_eq_of_lt (by omega : i + 1 < n), show i + 1 + n - 1 = i + n from by omega, Nat.add_mod_right, Nat.mod_eq_of_lt h]

theorem sumTo_shift_prev (n : Nat) (w g : Nat → Int) : sumTo n (fun i => w i * g ((i + n - 1) % n)) = sumTo n (fun i => w ((i + 1) % n) * g i) := by
  rw [← sumTo_prev n (fun i => w ((i + 1) % n) * g i)]
  apply sumTo_congr
  intro i hi
  rw [(prev_next hi).1]

theorem sumTo_shift_next (n : Nat) (w g : Nat → Int) : sumTo n (fun i => w i * g ((i + 1) % n)) = sumTo n (fun i => w ((i + n - 1) % n) * g i) := by
  rw [← sumTo_next n (fun i => w ((i + n - 1) % n) * g i)]
  apply sumTo_congr
  intro i hi
  rw [(prev_next hi).2]

theorem sumTo_comm (m n : Nat) (f : Nat → Nat → Int) : sumTo m (fun a => sumTo n (fun b => f a b)) = sumTo n (fun b => sumTo m (fun a => f a b)) := by
  induction m with
  | zero =>
    have : ∀ n, sumTo n (fun _ => 0) = 0 := by
      intro n
      induction n with
      | zero => rfl
      | succ n ih => simp only [sumTo]; omega
    simp only [sumTo, this]
  | succ m ih => simp only [sumTo, sumTo_add]; rw [ih]

theorem sandWeight_le (rows cols a b : Nat) (ha : a < rows) : sandWeight rows cols a b ≤ (a : Int) * ((rows : Int) - 1 - a) := by
  unfold sandWeight
  split
  · exact Int.le_refl _
  · exact Int.mul_nonneg (by omega) (by omega)

/-- Each toppling lowers the height by at least two. -/
theorem height_step {rows cols : Nat} {f : Nat → Nat → Int} (he : EdgeLow rows cols f) :
    sandHeight rows cols (sandStep rows cols true f) ≤ sandHeight rows cols f - 2 * grains rows cols (unstableAt rows cols f) := by
  let w := sandWeight rows cols
  let g := unstableAt rows cols f
  have e1 : sandHeight rows cols (sandStep rows cols true f) = grains rows cols (fun a b => w a b * f a b + (w a b * g ((a + rows - 1) % rows) b +
      (w a b * g ((a + 1) % rows) b + (w a b * g a ((b + cols - 1) % cols) + (w a b * g a ((b + 1) % cols) + (-4) * (w a b * g a b)))))) := by
    rw [sandHeight_eq]
    apply grains_congr
    intro a b ha hb
    by_cases hi : Inner rows cols a b
    · have hi' := hi
      obtain ⟨h1, h2, h3, h4⟩ := hi'
      have e1 : (a + rows - 1) % rows = a - 1 := by
        rw [show a + rows - 1 = (a - 1) + rows from by omega, Nat.add_mod_right, Nat.mod_eq_of_lt (by omega)]
      have e2 : (b + cols - 1) % cols = b - 1 := by
        rw [show b + cols - 1 = (b - 1) + cols from by omega, Nat.add_mod_right, Nat.mod_eq_of_lt (by omega)]
      have e3 : (a + 1) % rows = a + 1 := Nat.mod_eq_of_lt h2
      have e4 : (b + 1) % cols = b + 1 := Nat.mod_eq_of_lt h4
      simp only [e1, e2, e3, e4]
      rw [step_inner he hi]
      unfold besideSum
      show w a b * (f a b + (g (a - 1) b + g a (b + 1) + g (a + 1) b + g a (b - 1)) - 4 * g a b) = _
      grind
    · have hw : sandWeight rows cols a b = 0 := if_neg hi
      show w a b * _ = _
      have hw' : w a b = 0 := hw
      simp only [hw', Int.zero_mul]
      rfl
  have e2 : sandHeight rows cols (sandStep rows cols true f) = sandHeight rows cols f + grains rows cols (fun a b =>
      w ((a + 1) % rows) b * g a b + (w ((a + rows - 1) % rows) b * g a b + (w a ((b + 1) % cols) * g a b + (w a ((b + cols - 1) % cols) * g a b +
        (-4) * (w a b * g a b))))) := by
    rw [e1, sandHeight_eq]
    simp only [grains_add, grains_mul]
    have r1 : grains rows cols (fun a b => w a b * g ((a + rows - 1) % rows) b) = grains rows cols (fun a b => w ((a + 1) % rows) b * g a b) := by
      unfold grains
      rw [sumTo_comm, sumTo_comm rows cols (fun a b => w ((a + 1) % rows) b * g a b)]
      exact sumTo_congr (fun b _ => sumTo_shift_prev rows (fun a => w a b) (fun a => g a b))
    have r2 : grains rows cols (fun a b => w a b * g ((a + 1) % rows) b) = grains rows cols (fun a b => w ((a + rows - 1) % rows) b * g a b) := by
      unfold grains
      rw [sumTo_comm, sumTo_comm rows cols (fun a b => w ((a + rows - 1) % rows) b * g a b)]
      exact sumTo_congr (fun b _ => sumTo_shift_next rows (fun a => w a b) (fun a => g a b))
    have r3 : grains rows cols (fun a b => w a b * g a ((b + cols - 1) % cols)) = grains rows cols (fun a b => w a ((b + 1) % cols) * g a b) :=
      sumTo_congr (fun a _ => sumTo_shift_prev cols (fun b => w a b) (fun b => g a b))
    have r4 : grains rows cols (fun a b => w a b * g a ((b + 1) % cols)) = grains rows cols (fun a b => w a ((b + cols - 1) % cols) * g a b) :=
      sumTo_congr (fun a _ => sumTo_shift_next cols (fun b => w a b) (fun b => g a b))
    rw [r1, r2, r3, r4]
  have e3 : grains rows cols (fun a b =>
      w ((a + 1) % rows) b * g a b + (w ((a + rows - 1) % rows) b * g a b + (w a ((b + 1) % cols) * g a b + (w a ((b + cols - 1) % cols) * g a b +
        (-4) * (w a b * g a b))))) ≤ grains rows cols (fun a b => (-2) * g a b) := by
    apply grains_le
    intro a b ha hb
    by_cases hu : Inner rows cols a b ∧ 4 ≤ f a b
    · have hg : g a b = 1 := if_pos hu
      obtain ⟨⟨h1, h2, h3, h4⟩, _⟩ := hu
      have e1 : (a + rows - 1) % rows = a - 1 := by
        rw [show a + rows - 1 = (a - 1) + rows from by omega, Nat.add_mod_right, Nat.mod_eq_of_lt (by omega)]
      have e3 : (a + 1) % rows = a + 1 := Nat.mod_eq_of_lt h2
      have e4 : (b + 1) % cols = b + 1 := Nat.mod_eq_of_lt h4
      have hw : w a b = (a : Int) * ((rows : Int) - 1 - a) := if_pos ⟨h1, h2, h3, h4⟩
      have w1 := sandWeight_le rows cols (a + 1) b h2
      have w2 := sandWeight_le rows cols (a - 1) b (by omega)
      have w3 := sandWeight_le rows cols a (b + 1) ha
      have w4 := sandWeight_le rows cols a ((b + cols - 1) % cols) ha
      have c1 : ((a + 1 : Nat) : Int) = (a : Int) + 1 := by omega
      have c2 : ((a - 1 : Nat) : Int) = (a : Int) - 1 := by omega
      simp only [hg, e1, e3, e4, hw]
      rw [c1] at w1
      rw [c2] at w2
      show sandWeight rows cols (a + 1) b * 1 + (sandWeight rows cols (a - 1) b * 1 + (sandWeight rows cols a (b + 1) * 1 +
        (sandWeight rows cols a ((b + cols - 1) % cols) * 1 + _))) ≤ _
      grind
    · have hg : g a b = 0 := if_neg hu
      simp [hg]
  rw [grains_mul] at e3
  have e4 : grains rows cols g = grains rows cols (unstableAt rows cols f) := rfl
  omega

theorem nonneg_step {rows cols : Nat} {f : Nat → Nat → Int} (he : EdgeLow rows cols f) (hf : ∀ a b, Inner rows cols a b → 0 ≤ f a b) :
    ∀ a b, Inner rows cols a b → 0 ≤ sandStep rows cols true f a b := by
  intro a b h
  rw [step_inner he h]
  have h0 := hf a b h
  have hu : ∀ i j, 0 ≤ unstableAt rows cols f i j := by
    intro i j
    unfold unstableAt
    split <;> omega
  have h1 := hu (a - 1) b
  have h2 := hu a (b + 1)
  have h3 := hu (a + 1) b
  have h4 := hu a (b - 1)
  have h5 : 4 * unstableAt rows cols f a b ≤ f a b := by
    unfold unstableAt
    split <;> omega
  unfold besideSum
  omega

theorem sandHeight_nonneg {rows cols : Nat} {f : Nat → Nat → Int} (hf : ∀ a b, Inner rows cols a b → 0 ≤ f a b) : 0 ≤ sandHeight rows cols f := by
  refine sumTo_nonneg (fun a ha => sumTo_nonneg (fun b hb => ?_))
  simp only
  split
  · exact Int.mul_nonneg (Int.mul_nonneg (by omega) (by omega)) (hf a b ‹_›)
  · exact Int.le_refl _

/-- At rest nothing changes off the edge. -/
theorem step_rest {rows cols : Nat} {f : Nat → Nat → Int} (he : EdgeLow rows cols f) (hr : AtRest rows cols f) {a b : Nat} (h : Inner rows cols a b) :
    sandStep rows cols true f a b = f a b := by
  have hz : ∀ i j, unstableAt rows cols f i j = 0 := by
    intro i j
    refine if_neg (fun hh => ?_)
    have := hr i j hh.1
    have := hh.2
    omega
  rw [step_inner he h]
  unfold besideSum
  simp only [hz]
  omega

theorem rest_run {rows cols : Nat} {s : Nat → Nat → Int} (he : EdgeLow rows cols s) (hr : AtRest rows cols s) :
    ∀ t a b, Inner rows cols a b → sand rows cols true s t a b = s a b := by
  have hE : ∀ t, EdgeLow rows cols (sand rows cols true s t) := by
    intro t
    cases t with
    | zero => exact he
    | succ t => exact edgeLow_step rows cols _
  intro t
  induction t with
  | zero => intros; rfl
  | succ t ih =>
    intro a b h
    show sandStep rows cols true _ a b = _
    rw [step_rest (hE t) (fun i j hij => by rw [ih i j hij]; exact hr i j hij) h, ih a b h]

theorem sand_add (rows cols : Nat) (closed : Bool) (s : Nat → Nat → Int) (m : Nat) :
    ∀ t, sand rows cols closed s (m + t) = sand rows cols closed (sand rows cols closed s m) t := by
  intro t
  induction t with
  | zero => rfl
  | succ t ih =>
    funext a b
    show sandStep rows cols closed (sand rows cols closed s (m + t)) a b = _
    rw [ih]
    rfl

/-- A closed pile comes to rest after at most half its height. -/
theorem comes_to_rest {rows cols : Nat} : ∀ (k : Nat) (s : Nat → Nat → Int), EdgeLow rows cols s → (∀ a b, Inner rows cols a b → 0 ≤ s a b) →
    sandHeight rows cols s ≤ 2 * k + 1 → AtRest rows cols (sand rows cols true s k) := by
  intro k
  induction k with
  | zero =>
    intro s he hs hh a b hi
    apply Decidable.byContradiction
    intro hge
    have h1 := height_step he
    have h2 := sandHeight_nonneg (nonneg_step he hs)
    have h3 : unstableAt rows cols s a b ≤ _ := grains_member (rows := rows) (cols := cols) (f := unstableAt rows cols s) (by
      intro i j _ _
      unfold unstableAt
      split <;> omega) (by have := hi.2.1; omega) (by have := hi.2.2.2; omega)
    rw [unstableAt, if_pos ⟨hi, by simp only [sand] at hge; omega⟩] at h3
    omega
  | succ k ih =>
    intro s he hs hh
    by_cases hr : AtRest rows cols s
    · intro a b hi
      rw [rest_run he hr _ a b hi]
      exact hr a b hi
    · have : ∃ a b, Inner rows cols a b ∧ 4 ≤ s a b := by
        apply Classical.byContradiction
        intro hn
        apply hr
        intro a b hi
        apply Decidable.byContradiction
        intro hge
        exact hn ⟨a, b, hi, by omega⟩
      obtain ⟨a, b, hi, h4⟩ := this
      have h1 := height_step he
      have h3 : unstableAt rows cols s a b ≤ _ := grains_member (rows := rows) (cols := cols) (f := unstableAt rows cols s) (by
        intro i j _ _
        unfold unstableAt
        split <;> omega) (by have := hi.2.1; omega) (by have := hi.2.2.2; omega)
      rw [unstableAt, if_pos ⟨hi, h4⟩] at h3
      rw [Nat.add_comm k 1, sand_add]
      refine ih _ (edgeLow_step rows cols s) (nonneg_step he hs) ?_
      show sandHeight rows cols (sandStep rows cols true s) ≤ _
      omega

/-! ## One cell after the other -/

theorem Topples.trans {rows cols : Nat} {f g h : Nat → Nat → Int} (h1 : Topples rows cols f g) (h2 : Topples rows cols g h) : Topples rows cols f h := by
  induction h2 with
  | refl => exact h1
  | step _ hi h4 ih => exact .step ih hi h4

theorem topples_congr {rows cols : Nat} {f f' g : Nat → Nat → Int} (h : Topples rows cols f g) (he : ∀ a b, Inner rows cols a b → f a b = f' a b) :
    ∃ g', Topples rows cols f' g' ∧ ∀ a b, Inner rows cols a b → g a b = g' a b := by
  induction h with
  | refl => exact ⟨f', .refl, he⟩
  | @step g a b _ hi h4 ih =>
    obtain ⟨g', h1, h2⟩ := ih
    refine ⟨_, .step h1 hi (by rw [← h2 a b hi]; exact h4), ?_⟩
    intro i j hij
    unfold toppleCell
    rw [if_pos hij, if_pos hij, h2 i j hij]

/-- Toppling the cells of a list. -/
theorem topples_list {rows cols : Nat} {f : Nat → Nat → Int} (l : List (Nat × Nat)) (hn : l.Nodup)
    (hl : ∀ p ∈ l, Inner rows cols p.1 p.2 ∧ 4 ≤ f p.1 p.2) :
    ∃ g, Topples rows cols f g ∧ ∀ a b, Inner rows cols a b → g a b = afterTopplings f (fun a b => if (a, b) ∈ l then 1 else 0) a b := by
  induction l with
  | nil =>
    refine ⟨f, .refl, ?_⟩
    intro a b _
    simp [afterTopplings, besideSum]
  | cons p l ih =>
    obtain ⟨hp, hn'⟩ := List.nodup_cons.1 hn
    obtain ⟨g, g1, g2⟩ := ih hn' (fun q hq => hl q (List.mem_cons_of_mem _ hq))
    obtain ⟨q1, q2⟩ := hl p (List.mem_cons_self ..)
    obtain ⟨x, y⟩ := p
    refine ⟨_, .step g1 q1 ?_, ?_⟩
    · rw [g2 _ _ q1]
      unfold afterTopplings besideSum
      simp only [if_neg hp]
      have : ∀ c : Prop, [Decidable c] → (0 : Int) ≤ if c then 1 else 0 := by
        intro c _
        split <;> decide
      have t1 := this ((x - 1, y) ∈ l)
      have t2 := this ((x, y + 1) ∈ l)
      have t3 := this ((x + 1, y) ∈ l)
      have t4 := this ((x, y - 1) ∈ l)
      simp only at q2
      omega
    · intro a b hab
      rw [toppleCell_after q1 g2 hab]
      congr 1
      funext i j
      by_cases hij : i = x ∧ j = y
      · obtain ⟨rfl, rfl⟩ := hij
        simp [hp]
      · have : (i, j) ∈ (x, y) :: l ↔ (i, j) ∈ l := by
          rw [List.mem_cons, Prod.mk.injEq]
          exact ⟨fun hh => hh.resolve_left hij, Or.inr⟩
        simp only [this, if_neg hij]
        omega

/-- A simultaneous step is a sequence of topplings. -/
theorem topples_step {rows cols : Nat} {f : Nat → Nat → Int} (he : EdgeLow rows cols f) :
    ∃ g, Topples rows cols f g ∧ ∀ a b, Inner rows cols a b → g a b = sandStep rows cols true f a b := by
  let l := ((List.range rows).flatMap (fun a => (List.range cols).map (fun b => (a, b)))).filter
    (fun p => decide (Inner rows cols p.1 p.2 ∧ 4 ≤ f p.1 p.2))
  have hmem : ∀ a b, (a, b) ∈ l ↔ Inner rows cols a b ∧ 4 ≤ f a b := by
    intro a b
    simp only [l, List.mem_filter, decide_eq_true_eq]
    rw [mem_pairs, List.mem_range, List.mem_range]
    constructor
    · exact fun h => h.2
    · intro h
      have := h.1.2.1
      have := h.1.2.2.2
      exact ⟨⟨by omega, by omega⟩, h⟩
  obtain ⟨g, g1, g2⟩ := topples_list (rows := rows) (cols := cols) (f := f) l ((nodup_pairs List.nodup_range List.nodup_range).filter _)
    (fun p hp => (hmem p.1 p.2).1 hp)
  refine ⟨g, g1, ?_⟩
  intro a b hab
  have : (fun a b => if (a, b) ∈ l then (1 : Int) else 0) = unstableAt rows cols f := by
    funext i j
    unfold unstableAt
    simp only [hmem]
  rw [g2 a b hab, this, step_inner he hab]
  rfl

theorem edgeLow_run {rows cols : Nat} {s : Nat → Nat → Int} (he : EdgeLow rows cols s) : ∀ t, EdgeLow rows cols (sand rows cols true s t) := by
  intro t
  cases t with
  | zero => exact he
  | succ t => exact edgeLow_step rows cols _

theorem topples_run {rows cols : Nat} {s : Nat → Nat → Int} (he : EdgeLow rows cols s) : ∀ t,
    ∃ g, Topples rows cols s g ∧ ∀ a b, Inner rows cols a b → g a b = sand rows cols true s t a b := by
  intro t
  induction t with
  | zero => exact ⟨s, .refl, fun _ _ _ => rfl⟩
  | succ t ih =>
    obtain ⟨g, g1, g2⟩ := ih
    obtain ⟨k, k1, k2⟩ := topples_step (edgeLow_run he t)
    obtain ⟨k', m1, m2⟩ := topples_congr k1 (fun a b h => (g2 a b h).symm)
    refine ⟨k', g1.trans m1, ?_⟩
    intro a b h
    rw [← m2 a b h, k2 a b h]
    rfl

/-- Two settlings lead to the same pile. -/
theorem settle_unique {rows cols : Nat} {f g g' : Nat → Nat → Int} (h : Topples rows cols f g) (h' : Topples rows cols f g')
    (hr : AtRest rows cols g) (hr' : AtRest rows cols g') : ∀ a b, Inner rows cols a b → g a b = g' a b := by
  obtain ⟨u, u1, u2, u3, u4⟩ := topples_count h
  obtain ⟨v, v1, v2, v3, v4⟩ := topples_count h'
  have hu : Settles rows cols f u := ⟨u1, u2, fun a b hi => by rw [← u3 a b hi]; exact hr a b hi⟩
  have hv : Settles rows cols f v := ⟨v1, v2, fun a b hi => by rw [← v3 a b hi]; exact hr' a b hi⟩
  have huv : u = v := by
    funext a b
    have := u4 v hv a b
    have := v4 u hu a b
    omega
  intro a b hi
  rw [u3 a b hi, v3 a b hi, huv]

theorem topples_nonneg {rows cols : Nat} {f g : Nat → Nat → Int} (h : Topples rows cols f g) (hf : ∀ a b, Inner rows cols a b → 0 ≤ f a b) :
    ∀ a b, Inner rows cols a b → 0 ≤ g a b := by
  induction h with
  | refl => exact hf
  | step _ hi h4 ih =>
    intro i j hij
    have := ih i j hij
    unfold toppleCell
    rw [if_pos hij]
    split <;> split
    · rename_i h; obtain ⟨rfl, rfl⟩ := h; omega
    · omega
    · rename_i h; obtain ⟨rfl, rfl⟩ := h; omega
    · omega

theorem topples_outside {rows cols : Nat} {f g : Nat → Nat → Int} (h : Topples rows cols f g) : ∀ a b, ¬ Inner rows cols a b → g a b = f a b := by
  induction h with
  | refl => exact fun _ _ _ => rfl
  | step _ hi h4 ih =>
    intro i j hij
    unfold toppleCell
    rw [if_neg hij, ih i j hij]

end Verif
