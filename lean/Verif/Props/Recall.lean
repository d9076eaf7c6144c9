import Verif.Spec.Recall
import Verif.Model.HopfieldDemo
import Verif.Props.Hopfield
/-! # Properties C135 and C136: Hopfield nets complete patterns, and come to rest -/

namespace Verif
open Spec

theorem isum_le {n : Nat} {f g : Nat → Int} (h : ∀ i, i < n → f i ≤ g i) : isum n f ≤ isum n g := by
  induction n with
  | zero => exact Int.le_refl _
  | succ n ih =>
    simp only [isum]
    have := ih (fun i hi => h i (by omega))
    have := h n (by omega)
    omega

/-! ## C135 -/

/-- In every state that agrees with `p` where `good` holds, the field has the sign of `p`. -/
theorem field_margin {n : Nat} {W : Nat → Nat → Int} {p s : Nat → Int} {good : Nat → Bool} (hp : ∀ x, x < n → p x = 1 ∨ p x = -1)
    (hs : ∀ x, x < n → s x = 1 ∨ s x = -1) (hg : ∀ x, x < n → good x = true → s x = p x) {i : Nat} (hi : i < n) (hm : 0 < margin n W p good i) :
    (if field n W s i ≥ 0 then 1 else -1) = p i := by
  have hle : margin n W p good i ≤ p i * field n W s i := by
    unfold margin field
    rw [← isum_mul]
    refine isum_le (fun j hj => ?_)
    by_cases h : good j = true
    · rw [if_pos h, hg j hj h]
      have : W i j * p j * p i = p i * (W i j * p j) := by grind
      omega
    · rw [if_neg h]
      have h1 : p i * (W i j * s j) = W i j ∨ p i * (W i j * s j) = - W i j := by
        rcases hp i hi with h1 | h1 <;> rcases hs j hj with h2 | h2 <;> rw [h1, h2] <;> simp
      omega
  rcases hp i hi with h | h
  · rw [h] at hle ⊢
    rw [if_pos (by omega)]
  · rw [h] at hle ⊢
    rw [if_neg (by omega)]

theorem recall_core {n : Nat} {W : Nat → Nat → Int} {pick : Nat → Nat} {p s : Nat → Int} (hp : ∀ x, x < n → p x = 1 ∨ p x = -1)
    (hs : ∀ x, x < n → s x = 1 ∨ s x = -1) (hm : ∀ i, i < n → 0 < margin n W p (fun x => decide (s x = p x)) i) (t : Nat) :
    ∀ x, x < n → hopfield n W pick s t x = if s x = p x ∨ ∃ u, u < t ∧ pick u = x then p x else s x := by
  induction t with
  | zero =>
    intro x _
    show s x = _
    by_cases h : s x = p x
    · rw [if_pos (Or.inl h), h]
    · rw [if_neg]
      rintro (h' | ⟨u, hu, _⟩)
      · exact h h'
      · omega
  | succ t ih =>
    intro x hx
    show (if x = pick t then (if field n W (hopfield n W pick s t) x ≥ 0 then 1 else -1) else hopfield n W pick s t x) = _
    by_cases h : x = pick t
    · rw [if_pos h, if_pos (Or.inr ⟨t, by omega, h.symm⟩)]
      refine field_margin hp (fun y hy => hopfield_bipolar hs t y hy) (good := fun x => decide (s x = p x)) ?_ hx (hm x hx)
      intro y hy hg
      rw [ih y hy, if_pos (Or.inl (by simpa using hg))]
    · rw [if_neg h, ih x hx]
      have : (s x = p x ∨ ∃ u, u < t ∧ pick u = x) ↔ (s x = p x ∨ ∃ u, u < t + 1 ∧ pick u = x) := by
        constructor
        · rintro (h' | ⟨u, hu, h'⟩)
          · exact Or.inl h'
          · exact Or.inr ⟨u, by omega, h'⟩
        · rintro (h' | ⟨u, hu, h'⟩)
          · exact Or.inl h'
          · refine Or.inr ⟨u, ?_, h'⟩
            rcases Nat.lt_succ_iff_lt_or_eq.1 hu with hu | hu
            · exact hu
            · subst hu
              exact absurd h'.symm h
      simp only [this]

/-- With a positive margin no unit is isolated. -/
theorem margin_connected {n : Nat} {W : Nat → Nat → Int} {p : Nat → Int} {good : Nat → Bool} {i : Nat} (hm : 0 < margin n W p good i) :
    ∃ y, y < n ∧ W i y ≠ 0 := by
  apply Classical.byContradiction
  intro h
  have : margin n W p good i = 0 := by
    unfold margin
    rw [← isum_zero n]
    refine isum_congr (fun j hj => ?_)
    have h0 : W i j = 0 := Classical.byContradiction (fun h0 => h ⟨j, hj, h0⟩)
    rw [h0]
    simp
  omega

section
variable {I τ κ : Type} [DecidableEq κ]

/-- C135.  A net trained on `P`, a pattern `p` (usually one of `P`), and initial conditions `s` such that for every unit the field of the
units where `s` has the values of `p` cannot be outvoted by the others: then, whatever the shuffles, at every timestep the units that
have been chosen have the value of `p`, those with the right value keep it, and all others have their initial value. -/
theorem C135_recall (n : Nat) (hn : 1 ≤ n) (P : List (List Int)) (hP0 : P ≠ []) (hP : ∀ p ∈ P, p.length = n)
    (N : Net Nat Int) (hN : hopfieldNetwork P = .ok N) (p s : List Int) (hpl : p.length = n) (hpb : ∀ v ∈ p, v = 1 ∨ v = -1)
    (hs : s.length = n) (hb : ∀ v ∈ s, v = 1 ∨ v = -1)
    (hm : ∀ i, i < n → 0 < margin n (hebb P) (fun x => p.getD x 0) (fun x => decide (s.getD x 0 = p.getD x 0)) i)
    (sh : Nat → Nat → List Nat) (hsh : ∀ i, (sh i n).Perm (List.range n)) (a : Async Nat)
    (ha : asyncInit sh none (some n) = .ok a) (cfg : Config Nat Int Int I τ κ) (T : Nat) (hT : 1 ≤ T)
    (hin : cfg.input = .timesteps T) (hp : cfg.perturbation = none) (htop : cfg.topology = none) (hme : cfg.memoize = false)
    (hk : cfg.key = none) (hpa : cfg.persistActs = true) (hco : cfg.compression = false) (hnat : cfg.natLabel = id)
    (heap : List (Net Nat Int)) (r : Nat) (hr : heap[r]? = some N) (u : τ) (fuel : Nat) (hf : T ≤ fuel) :
    ∃ (res : Evolved Nat Int Int (Async Nat × τ)) (f : Nat → Nat → Int),
      evolve fuel (cfg.withRule (hopfieldActivityRule sh)) (some (.list s)) r ⟨heap, (a, u)⟩ = .ok res ∧
      ShowsRun (cfg.withRule (α := Async Nat) (hopfieldActivityRule sh)) res T n f ∧
      (∀ t x, x < n → f t x = if s.getD x 0 = p.getD x 0 ∨ ∃ k, k < t ∧ (sh k n).getD (k % n) 0 = x then p.getD x 0 else s.getD x 0) ∧
      ∀ t, (∀ x, x < n → s.getD x 0 ≠ p.getD x 0 → ∃ k, k < t ∧ (sh k n).getD (k % n) 0 = x) → ∀ t', t ≤ t' → ∀ x, x < n → f t' x = p.getD x 0 := by
  rw [hopfieldNetwork_eq hP0 hP] at hN
  cases hN
  have hget : ∀ (l : List Int), l.length = n → (∀ v ∈ l, v = 1 ∨ v = -1) → ∀ x, x < n → l.getD x 0 = 1 ∨ l.getD x 0 = -1 := by
    intro l hl hb x hx
    apply hb
    rw [List.getD_eq_getElem?_getD, List.getElem?_eq_getElem (show x < l.length by omega)]
    exact List.getElem_mem _
  obtain ⟨hil, _, hiv⟩ := initDict_list (cfg := cfg) hnat s
  rw [hs] at hil hiv
  obtain ⟨res, e1, e2⟩ := hopfield_run hn (fun i j _ _ => hebb_symm P i j) (fun x hx => margin_connected (hm x hx)) cfg T hT hin hp htop hme hk hpa hco
    sh hsh a ha heap r hr u (some (.list s)) (fun x => s.getD x 0) hil (fun x hx => by
      rw [hiv x hx, List.getD_eq_getElem?_getD, List.getElem?_eq_getElem (by omega)]
      rfl) fuel hf
  have hcore := recall_core (n := n) (W := hebb P) (pick := hopfieldPick sh n) (p := fun x => p.getD x 0) (s := fun x => s.getD x 0)
    (hget p hpl hpb) (hget s hs hb) hm
  refine ⟨res, _, e1, e2, fun t x hx => hcore t x hx, ?_⟩
  intro t h t' ht x hx
  rw [hcore t' x hx]
  by_cases hw : s.getD x 0 = p.getD x 0
  · rw [if_pos (Or.inl hw)]
  · obtain ⟨k, hk', he⟩ := h x hx hw
    rw [if_pos (Or.inr ⟨k, by omega, he⟩)]

/-- The halves of the demo satisfy the condition. -/
theorem demo_margins : ∀ q ∈ [(demoHalfZero, demoZero), (demoHalfOne, demoOne), (demoHalfTwo, demoTwo)], ∀ i, i < 30 →
    0 < margin 30 (hebb demoPatterns) (fun x => q.2.getD x 0) (fun x => decide (q.1.getD x 0 = q.2.getD x 0)) i := by
  decide +kernel

theorem demo_shapes : demoPatterns ≠ [] ∧ (∀ p ∈ demoPatterns, p.length = 30) ∧
    ∀ q ∈ [(demoHalfZero, demoZero), (demoHalfOne, demoOne), (demoHalfTwo, demoTwo)], q.1.length = 30 ∧ q.2.length = 30 ∧
      (∀ v ∈ q.1, v = 1 ∨ v = -1) ∧ ∀ v ∈ q.2, v = 1 ∨ v = -1 := by
  decide +kernel

/-- C135: the patterns of the demo: the cells that are 1, numbered row by row from 0; all others are -1.  (The patterns and their halves
are six different lists.) -/
theorem C135_patterns :
    demoZero = (List.range 30).map (fun x => if x ∈ [1, 2, 3, 5, 9, 10, 14, 15, 19, 20, 24, 26, 27, 28] then 1 else -1) ∧
    demoOne = (List.range 30).map (fun x => if x ∈ [1, 2, 7, 12, 17, 22, 27] then 1 else -1) ∧
    demoTwo = (List.range 30).map (fun x => if x ∈ [0, 1, 2, 8, 13, 16, 17, 20, 25, 26, 27, 28, 29] then 1 else -1) ∧
    demoHalfZero = (List.range 30).map (fun x => if x ∈ [1, 2, 3, 5, 9, 10, 14] then 1 else -1) ∧
    demoHalfOne = (List.range 30).map (fun x => if x ∈ [2, 7, 12, 17] then 1 else -1) ∧
    demoHalfTwo = (List.range 30).map (fun x => if x ∈ [16, 17, 20, 25, 26, 27, 28, 29] then 1 else -1) ∧
    [demoZero, demoOne, demoTwo, demoHalfZero, demoHalfOne, demoHalfTwo].Nodup ∧ demoPatterns = [demoZero, demoOne, demoTwo] := by
  decide +kernel

/-- C135.  The demo: each of the three halves is completed to its pattern by every sequence of shuffles that chooses its wrong units;
nothing else can happen. -/
theorem C135_demo (half whole : List Int) (hq : (half, whole) ∈ [(demoHalfZero, demoZero), (demoHalfOne, demoOne), (demoHalfTwo, demoTwo)])
    (N : Net Nat Int) (hN : hopfieldNetwork demoPatterns = .ok N)
    (sh : Nat → Nat → List Nat) (hsh : ∀ i, (sh i 30).Perm (List.range 30)) (a : Async Nat)
    (ha : asyncInit sh none (some 30) = .ok a) (cfg : Config Nat Int Int I τ κ) (T : Nat) (hT : 1 ≤ T)
    (hin : cfg.input = .timesteps T) (hp : cfg.perturbation = none) (htop : cfg.topology = none) (hme : cfg.memoize = false)
    (hk : cfg.key = none) (hpa : cfg.persistActs = true) (hco : cfg.compression = false) (hnat : cfg.natLabel = id)
    (heap : List (Net Nat Int)) (r : Nat) (hr : heap[r]? = some N) (u : τ) (fuel : Nat) (hf : T ≤ fuel) :
    ∃ (res : Evolved Nat Int Int (Async Nat × τ)) (f : Nat → Nat → Int),
      evolve fuel (cfg.withRule (hopfieldActivityRule sh)) (some (.list half)) r ⟨heap, (a, u)⟩ = .ok res ∧
      ShowsRun (cfg.withRule (α := Async Nat) (hopfieldActivityRule sh)) res T 30 f ∧
      (∀ t x, x < 30 → f t x = if half.getD x 0 = whole.getD x 0 ∨ ∃ k, k < t ∧ (sh k 30).getD (k % 30) 0 = x then whole.getD x 0 else half.getD x 0) ∧
      ∀ t, (∀ x, x < 30 → half.getD x 0 ≠ whole.getD x 0 → ∃ k, k < t ∧ (sh k 30).getD (k % 30) 0 = x) →
        ∀ t', t ≤ t' → ∀ x, x < 30 → f t' x = whole.getD x 0 := by
  obtain ⟨h1, h2, h3⟩ := demo_shapes
  obtain ⟨g1, g2, g3, g4⟩ := h3 _ hq
  have hm := demo_margins _ hq
  clear hq h3
  generalize demoPatterns = P at *
  generalize hn : 30 = n at *
  exact C135_recall n (by omega) P h1 h2 N hN whole half g2 g4 g1 g3 hm sh hsh a ha cfg T hT hin hp htop hme hk hpa hco
    hnat heap r hr u fuel hf

end

/-- C135, the limit.  As the order is shuffled after every timestep (C39), no number of timesteps is enough for certain: there are shuffles
with which the demo shows the half pattern for ever. -/
theorem C135_no_guarantee : ∃ sh : Nat → Nat → List Nat, (∀ i, (sh i 30).Perm (List.range 30)) ∧
    ∀ t x, x < 30 → hopfield 30 (hebb demoPatterns) (hopfieldPick sh 30) (fun x => demoHalfZero.getD x 0) t x = demoHalfZero.getD x 0 := by
  refine ⟨fun i n => turnBy (n - i % n) n, ?_, ?_⟩
  · intro i
    have hlt := Nat.mod_lt i (show 0 < 30 by decide)
    have key : ∀ j, j < 30 → (turnBy (30 - j) 30).Perm (List.range 30) := by
      intro j hj
      apply List.isPerm_iff.1
      revert j
      decide +kernel
    exact key _ hlt
  · intro t x hx
    obtain ⟨_, _, h3⟩ := demo_shapes
    obtain ⟨g1, g2, g3, g4⟩ := h3 (demoHalfZero, demoZero) (by simp)
    have hget : ∀ (l : List Int), l.length = 30 → (∀ v ∈ l, v = 1 ∨ v = -1) → ∀ x, x < 30 → l.getD x 0 = 1 ∨ l.getD x 0 = -1 := by
      intro l hl hb x hx
      apply hb
      rw [List.getD_eq_getElem?_getD, List.getElem?_eq_getElem (show x < l.length by omega)]
      exact List.getElem_mem _
    rw [recall_core (n := 30) (p := fun x => demoZero.getD x 0) (s := fun x => demoHalfZero.getD x 0) (hget _ g2 g4) (hget _ g1 g3)
      (demo_margins (demoHalfZero, demoZero) (by simp)) t x hx]
    have hpick : ∀ k, hopfieldPick (fun i n => turnBy (n - i % n) n) 30 k = 0 := by
      intro k
      have hlt := Nat.mod_lt k (show 0 < 30 by decide)
      unfold hopfieldPick
      have key : ∀ j, j < 30 → (turnBy (30 - j) 30).getD j 0 = 0 := by decide +kernel
      exact key _ hlt
    have h00 : demoHalfZero.getD 0 0 = demoZero.getD 0 0 := by decide +kernel
    by_cases h : demoHalfZero.getD x 0 = demoZero.getD x 0 ∨ ∃ u, u < t ∧ hopfieldPick (fun i n => turnBy (n - i % n) n) 30 u = x
    · rw [if_pos h]
      rcases h with h | ⟨u, _, h⟩
      · exact h.symm
      · rw [hpick] at h
        subst h
        exact h00.symm
    · rw [if_neg h]

/-! ## C136 -/

theorem changesUpTo_succ (n : Nat) (f : Nat → Nat → Int) (T : Nat) :
    changesUpTo n f (T + 1) = changesUpTo n f T + (if sameState n (f (T + 1)) (f T) then 0 else 1) := by
  unfold changesUpTo
  rw [List.range_succ, List.filter_append, List.length_append]
  congr 1
  cases h : sameState n (f (T + 1)) (f T) <;> simp [h]

theorem sameState_iff {n : Nat} {a b : Nat → Int} : sameState n a b = true ↔ ∀ x, x < n → a x = b x := by
  unfold sameState
  rw [List.all_eq_true]
  simp [List.mem_range]

theorem isum_change {n k : Nat} (hk : k < n) {s s' : Nat → Int} (ho : ∀ i, i < n → i ≠ k → s' i = s i) :
    isum n s' = isum n s + (s' k - s k) := by
  rw [← isum_single hk (s' k - s k), ← isum_add]
  refine isum_congr (fun i hi => ?_)
  by_cases h : i = k
  · subst h; simp; omega
  · rw [if_neg h, ho i hi h]; omega

theorem energy_bounds {n : Nat} {W : Nat → Nat → Int} {s : Nat → Int} (hs : ∀ x, x < n → s x = 1 ∨ s x = -1) :
    -weightSum n W ≤ energy2 n W s ∧ energy2 n W s ≤ weightSum n W ∧ -(n : Int) ≤ isum n s ∧ isum n s ≤ n := by
  have hterm : ∀ i j, i < n → j < n → -((W i j).natAbs : Int) ≤ W i j * s i * s j ∧ W i j * s i * s j ≤ ((W i j).natAbs : Int) := by
    intro i j hi hj
    have h1 : W i j * s i * s j = W i j ∨ W i j * s i * s j = - W i j := by
      rcases hs i hi with h1 | h1 <;> rcases hs j hj with h2 | h2 <;> rw [h1, h2] <;> simp
    omega
  have hneg : ∀ f : Nat → Int, isum n (fun i => - f i) = - isum n f := by
    intro f
    have := isum_mul n (-1) f
    rw [isum_congr (g := fun i => -1 * f i) (fun i _ => by omega), this]
    omega
  have hup : isum n (fun i => isum n (fun j => W i j * s i * s j)) ≤ weightSum n W :=
    isum_le (fun i hi => isum_le (fun j hj => (hterm i j hi hj).2))
  have hdown : -weightSum n W ≤ isum n (fun i => isum n (fun j => W i j * s i * s j)) := by
    unfold weightSum
    rw [← hneg]
    refine isum_le (fun i hi => ?_)
    rw [← hneg]
    exact isum_le (fun j hj => (hterm i j hi hj).1)
  have hconst : ∀ c : Int, isum n (fun _ => c) = n * c := by
    intro c
    have h := isum_range n (fun _ => c)
    rw [← h]
    simp [List.map_const', List.sum_replicate_int]
  refine ⟨by unfold energy2; omega, by unfold energy2; omega, ?_, ?_⟩
  · have := isum_le (n := n) (f := fun _ => -1) (g := s) (fun i hi => by rcases hs i hi with h | h <;> rw [h] <;> decide)
    rw [hconst] at this
    omega
  · have := isum_le (n := n) (f := s) (g := fun _ => 1) (fun i hi => by rcases hs i hi with h | h <;> rw [h] <;> decide)
    rw [hconst] at this
    omega

/-- C136.  In every net with symmetric weights without self-weights, whatever units are chosen, at most `n + Σ |W i j|` steps change
the state, however many there are; so there is a step after which nothing changes; and if every unit is chosen after it, every unit has
the sign of its field. -/
theorem C136_comes_to_rest (n : Nat) (W : Nat → Nat → Int) (hsym : ∀ i j, i < n → j < n → W i j = W j i) (hd : ∀ i, i < n → W i i = 0)
    (pick : Nat → Nat) (hpick : ∀ t, pick t < n) (s : Nat → Int) (hs : ∀ x, x < n → s x = 1 ∨ s x = -1) :
    (∀ T, (changesUpTo n (hopfield n W pick s) T : Int) ≤ n + weightSum n W) ∧
    ∃ t0, (∀ t, t0 ≤ t → ∀ x, x < n → hopfield n W pick s t x = hopfield n W pick s t0 x) ∧
      ((∀ x, x < n → ∃ t, t0 ≤ t ∧ pick t = x) →
        ∀ x, x < n → hopfield n W pick s t0 x = if field n W (hopfield n W pick s t0) x ≥ 0 then 1 else -1) := by
  have hbip := fun t => hopfield_bipolar (n := n) (W := W) (pick := pick) hs t
  -- every change lowers the potential by at least 2
  have hpot : ∀ T, (energy2 n W (hopfield n W pick s T) - isum n (hopfield n W pick s T)) + 2 * (changesUpTo n (hopfield n W pick s) T : Int) ≤
      energy2 n W s - isum n s := by
    intro T
    induction T with
    | zero => simp [changesUpTo, hopfield]
    | succ T ih =>
      have ho : ∀ i, i < n → i ≠ pick T → hopfield n W pick s (T + 1) i = hopfield n W pick s T i := by
        intro i _ hi
        show (if i = pick T then _ else _) = _
        rw [if_neg hi]
      have hk : hopfield n W pick s (T + 1) (pick T) = if field n W (hopfield n W pick s T) (pick T) ≥ 0 then 1 else -1 := by
        show (if pick T = pick T then _ else _) = _
        rw [if_pos rfl]
      rw [changesUpTo_succ]
      by_cases hsame : sameState n (hopfield n W pick s (T + 1)) (hopfield n W pick s T) = true
      · rw [if_pos hsame]
        have h := sameState_iff.1 hsame
        have e1 : isum n (hopfield n W pick s (T + 1)) = isum n (hopfield n W pick s T) := isum_congr h
        have e2 : energy2 n W (hopfield n W pick s (T + 1)) = energy2 n W (hopfield n W pick s T) := by
          unfold energy2
          congr 1
          exact isum_congr (fun i hi => isum_congr (fun j hj => by rw [h i hi, h j hj]))
        rw [e1, e2]
        exact ih
      · rw [if_neg hsame]
        have e1 := isum_change (hpick T) ho
        have e2 := energy_change (hpick T) hsym (hd _ (hpick T)) ho
        have hne : hopfield n W pick s (T + 1) (pick T) ≠ hopfield n W pick s T (pick T) := by
          intro h
          apply hsame
          rw [sameState_iff]
          intro x hx
          by_cases hxp : x = pick T
          · rw [hxp, h]
          · exact ho x hx hxp
        have hb := hbip T (pick T) (hpick T)
        generalize hF : field n W (hopfield n W pick s T) (pick T) = F at hk e2
        generalize hopfield n W pick s (T + 1) (pick T) = a at hk hne e1 e2
        generalize hopfield n W pick s T (pick T) = b at hb hne e1 e2
        have hdrop : energy2 n W (hopfield n W pick s (T + 1)) - isum n (hopfield n W pick s (T + 1)) + 2 ≤
            energy2 n W (hopfield n W pick s T) - isum n (hopfield n W pick s T) := by
          by_cases hF0 : F ≥ 0
          · rw [if_pos hF0] at hk
            have hb' : b = -1 := by
              rcases hb with h | h
              · exact absurd (hk.trans h.symm) hne
              · exact h
            rw [e1, e2, hk, hb']
            omega
          · rw [if_neg hF0] at hk
            have hb' : b = 1 := by
              rcases hb with h | h
              · exact h
              · exact absurd (hk.trans h.symm) hne
            rw [e1, e2, hk, hb']
            omega
        push_cast
        omega
  have hbound : ∀ T, (changesUpTo n (hopfield n W pick s) T : Int) ≤ n + weightSum n W := by
    intro T
    obtain ⟨a1, a2, a3, a4⟩ := energy_bounds (W := W) hs
    obtain ⟨b1, b2, b3, b4⟩ := energy_bounds (W := W) (hbip T)
    have := hpot T
    omega
  refine ⟨hbound, ?_⟩
  -- the number of changes is bounded and grows, so it is constant from some step on
  have hmono : ∀ T k, changesUpTo n (hopfield n W pick s) T ≤ changesUpTo n (hopfield n W pick s) (T + k) := by
    intro T k
    induction k with
    | zero => exact Nat.le_refl _
    | succ k ih =>
      rw [show T + (k + 1) = (T + k) + 1 from rfl, changesUpTo_succ]
      omega
  have hex : ∃ t0, ∀ k, changesUpTo n (hopfield n W pick s) (t0 + k) = changesUpTo n (hopfield n W pick s) t0 := by
    apply Classical.byContradiction
    intro hno
    have hgrow : ∀ m : Nat, ∃ T, m ≤ changesUpTo n (hopfield n W pick s) T := by
      intro m
      induction m with
      | zero => exact ⟨0, Nat.zero_le _⟩
      | succ m ih =>
        obtain ⟨T, hT⟩ := ih
        apply Classical.byContradiction
        intro hno'
        apply hno
        refine ⟨T, fun k => ?_⟩
        have h1 := hmono T k
        have h2 : ¬ (m + 1 ≤ changesUpTo n (hopfield n W pick s) (T + k)) := fun h => hno' ⟨_, h⟩
        omega
    obtain ⟨T, hT⟩ := hgrow ((n + weightSum n W).toNat + 1)
    have := hbound T
    omega
  obtain ⟨t0, ht0⟩ := hex
  have hsame : ∀ k x, x < n → hopfield n W pick s (t0 + k) x = hopfield n W pick s t0 x := by
    intro k
    induction k with
    | zero => intro x _; rfl
    | succ k ih =>
      intro x hx
      have h1 := ht0 (k + 1)
      have h2 := ht0 k
      rw [show t0 + (k + 1) = (t0 + k) + 1 from rfl, changesUpTo_succ, h2] at h1
      have h3 : sameState n (hopfield n W pick s (t0 + k + 1)) (hopfield n W pick s (t0 + k)) = true := by
        by_cases h : sameState n (hopfield n W pick s (t0 + k + 1)) (hopfield n W pick s (t0 + k)) = true
        · exact h
        · rw [if_neg h] at h1; omega
      rw [show t0 + (k + 1) = (t0 + k) + 1 from rfl, sameState_iff.1 h3 x hx, ih x hx]
  have hall : ∀ t, t0 ≤ t → ∀ x, x < n → hopfield n W pick s t x = hopfield n W pick s t0 x := by
    intro t ht x hx
    have := hsame (t - t0) x hx
    rwa [show t0 + (t - t0) = t by omega] at this
  refine ⟨t0, hall, ?_⟩
  intro hp x hx
  obtain ⟨t, ht, he⟩ := hp x hx
  have h1 := hall (t + 1) (by omega) x hx
  rw [← h1]
  show (if x = pick t then _ else _) = _
  rw [if_pos he.symm]
  have : field n W (hopfield n W pick s t) x = field n W (hopfield n W pick s t0) x := isum_congr (fun j hj => by rw [hall t ht j hj])
  rw [this]

section
variable {I τ κ : Type} [DecidableEq κ]

/-- C136, for the runs of `evolve`.  For every training set, initial pattern and sequence of shuffles there is a timestep `t0`, the same
for runs of all lengths, after which no run changes; and each unit that is chosen after it has the sign of its field. -/
theorem C136_evolve (n : Nat) (hn : 1 ≤ n) (P : List (List Int)) (hP0 : P ≠ []) (hP : ∀ p ∈ P, p.length = n)
    (N : Net Nat Int) (hN : hopfieldNetwork P = .ok N) (hcon : ∀ x, x < n → ∃ y, y < n ∧ hebb P x y ≠ 0)
    (s : List Int) (hs : s.length = n) (hb : ∀ v ∈ s, v = 1 ∨ v = -1)
    (sh : Nat → Nat → List Nat) (hsh : ∀ i, (sh i n).Perm (List.range n)) (a : Async Nat) (ha : asyncInit sh none (some n) = .ok a) :
    ∃ (f : Nat → Nat → Int) (t0 : Nat),
      (∀ (cfg : Config Nat Int Int I τ κ) (T : Nat), 1 ≤ T → cfg.input = .timesteps T → cfg.perturbation = none → cfg.topology = none →
        cfg.memoize = false → cfg.key = none → cfg.persistActs = true → cfg.compression = false → cfg.natLabel = id →
        ∀ (heap : List (Net Nat Int)) (r : Nat), heap[r]? = some N → ∀ (u : τ) (fuel : Nat), T ≤ fuel →
        ∃ res, evolve fuel (cfg.withRule (hopfieldActivityRule sh)) (some (.list s)) r ⟨heap, (a, u)⟩ = .ok res ∧
          ShowsRun (cfg.withRule (α := Async Nat) (hopfieldActivityRule sh)) res T n f) ∧
      (∀ T, (changesUpTo n f T : Int) ≤ n + weightSum n (hebb P)) ∧
      (∀ t, t0 ≤ t → ∀ x, x < n → f t x = f t0 x) ∧
      ((∀ x, x < n → ∃ t, t0 ≤ t ∧ (sh t n).getD (t % n) 0 = x) → ∀ x, x < n → f t0 x = if field n (hebb P) (f t0) x ≥ 0 then 1 else -1) := by
  rw [hopfieldNetwork_eq hP0 hP] at hN
  cases hN
  have hval : ∀ x, x < n → s[x]? = some (s.getD x 0) := by
    intro x hx
    rw [List.getD_eq_getElem?_getD, List.getElem?_eq_getElem (by omega)]
    rfl
  obtain ⟨h1, t0, h2, h3⟩ := C136_comes_to_rest n (hebb P) (fun i j _ _ => hebb_symm P i j) (by intro i _; simp [hebb]) (hopfieldPick sh n)
    (hopfieldPick_lt hn hsh) (fun x => s.getD x 0) (fun x hx => hb _ (List.mem_of_getElem? (hval x hx)))
  refine ⟨_, t0, ?_, h1, h2, h3⟩
  intro cfg T hT hin hp htop hm hk hpa hco hnat heap r hr u fuel hf
  obtain ⟨hil, _, hiv⟩ := initDict_list (cfg := cfg) hnat s
  rw [hs] at hil hiv
  exact hopfield_run hn (fun i j _ _ => hebb_symm P i j) hcon cfg T hT hin hp htop hm hk hpa hco sh hsh a ha heap r hr u
    (some (.list s)) (fun x => s.getD x 0) hil (fun x hx => by rw [hiv x hx, hval x hx]) fuel hf

end

/-- The demo net has no isolated units, so that `C136_evolve` applies to it. -/
example : ∀ x, x < 30 → ∃ y, y < 30 ∧ hebb demoPatterns x y ≠ 0 :=
  fun x hx => margin_connected (demo_margins (demoHalfZero, demoZero) (by simp) x hx)

/-- "The final state of the network should settle into one of the training patterns" (`hopfield_net.py:11-12`) is false, even if all of
them are at rest: with these three, another state, which is none of them nor the inverse of one, is shown for ever. -/
theorem C136_spurious {I τ κ : Type} [DecidableEq κ] (P : List (List Int)) (s : List Int)
    (hP : P = [[1, 1, 1, 1, 1, 1, 1, 1], [1, 1, 1, 1, -1, -1, -1, -1], [1, 1, -1, -1, 1, 1, -1, -1]]) (hs : s = [1, 1, 1, 1, 1, 1, -1, -1])
    (q : List Int) (hq : q ∈ s :: P) (N : Net Nat Int) (hN : hopfieldNetwork P = .ok N)
    (sh : Nat → Nat → List Nat) (hsh : ∀ i, (sh i 8).Perm (List.range 8)) (a : Async Nat)
    (ha : asyncInit sh none (some 8) = .ok a) (cfg : Config Nat Int Int I τ κ) (T : Nat) (hT : 1 ≤ T)
    (hin : cfg.input = .timesteps T) (hp : cfg.perturbation = none) (htop : cfg.topology = none) (hme : cfg.memoize = false)
    (hk : cfg.key = none) (hpa : cfg.persistActs = true) (hco : cfg.compression = false) (hnat : cfg.natLabel = id)
    (heap : List (Net Nat Int)) (r : Nat) (hr : heap[r]? = some N) (u : τ) (fuel : Nat) (hf : T ≤ fuel) :
    s ∉ P ∧ s.map (fun v => -v) ∉ P ∧
    ∃ (res : Evolved Nat Int Int (Async Nat × τ)) (f : Nat → Nat → Int),
      evolve fuel (cfg.withRule (hopfieldActivityRule sh)) (some (.list q)) r ⟨heap, (a, u)⟩ = .ok res ∧
      ShowsRun (cfg.withRule (α := Async Nat) (hopfieldActivityRule sh)) res T 8 f ∧ ∀ t x, x < 8 → f t x = q.getD x 0 := by
  have h0 : P ≠ [] ∧ (∀ p ∈ P, p.length = 8) ∧ s ∉ P ∧ s.map (fun v => -v) ∉ P ∧ ∀ q ∈ s :: P, q.length = 8 ∧ (∀ v ∈ q, v = 1 ∨ v = -1) ∧
      ∀ i, i < 8 → 0 < margin 8 (hebb P) (fun x => q.getD x 0) (fun x => decide (q.getD x 0 = q.getD x 0)) i := by
    rw [hP, hs]
    decide +kernel
  obtain ⟨h1, h2, h3, h4, h5⟩ := h0
  obtain ⟨g1, g2, g3⟩ := h5 q hq
  clear hP hs h5
  generalize hn : 8 = n at *
  obtain ⟨res, f, e1, e2, e3, _⟩ := C135_recall n (by omega) P h1 h2 N hN q q g1 g2 g1 g2 g3 sh hsh a ha cfg T hT hin hp htop hme hk hpa hco
    hnat heap r hr u fuel hf
  refine ⟨h3, h4, res, f, e1, e2, fun t x hx => ?_⟩
  rw [e3 t x hx, if_pos (Or.inl rfl)]

end Verif
