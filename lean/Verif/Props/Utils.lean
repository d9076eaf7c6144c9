import Verif.Model.Utils
import Verif.Spec.Rules
import Verif.Proofs.Digits
import Verif.Proofs.Copy
/-! # Properties C69 - C72: helpers -/

namespace Verif

/-! ## C69 -/

/-- The selections of `r` entries of a list, in order. -/
def selections {α : Type} : Nat → List α → List (List α)
  | 0, _ => [[]]
  | _ + 1, [] => []
  | r + 1, a :: l => (selections r l).map (a :: ·) ++ selections (r + 1) l

/-- `selections r l` are the sublists of `l` of length `r`. -/
theorem mem_selections {α : Type} (l : List α) : ∀ (r : Nat) (s : List α),
    s ∈ selections r l ↔ s.Sublist l ∧ s.length = r := by
  induction l with
  | nil =>
    intro r s
    cases r with
    | zero =>
      simp only [selections, List.mem_singleton]
      constructor
      · rintro rfl; simp
      · rintro ⟨_, h⟩; exact List.length_eq_zero_iff.1 h
    | succ r =>
      simp only [selections, List.not_mem_nil, false_iff, not_and]
      intro h
      rw [List.sublist_nil.1 h]; simp
  | cons a l ih =>
    intro r s
    cases r with
    | zero =>
      simp only [selections, List.mem_singleton]
      constructor
      · rintro rfl; simp
      · rintro ⟨_, h⟩; exact List.length_eq_zero_iff.1 h
    | succ r =>
      simp only [selections, List.mem_append, List.mem_map, ih]
      constructor
      · rintro (⟨s', ⟨h1, h2⟩, rfl⟩ | ⟨h1, h2⟩)
        · exact ⟨h1.cons_cons a, by simp [h2]⟩
        · exact ⟨h1.cons a, h2⟩
      · rintro ⟨h1, h2⟩
        cases h1 with
        | cons _ h => exact Or.inr ⟨h, h2⟩
        | cons_cons _ h => exact Or.inl ⟨_, ⟨h, by simpa using h2⟩, rfl⟩

/-- Different positions give different selections. -/
theorem selections_nodup {α : Type} (l : List α) (hl : l.Nodup) : ∀ r, (selections r l).Nodup := by
  induction l with
  | nil => intro r; cases r <;> simp [selections]
  | cons a l ih =>
    intro r
    cases r with
    | zero => simp [selections]
    | succ r =>
      obtain ⟨h1, h2⟩ := List.nodup_cons.1 hl
      simp only [selections]
      rw [List.nodup_append]
      refine ⟨?_, ih h2 _, ?_⟩
      · rw [List.nodup_iff_pairwise_ne, List.pairwise_map]
        exact List.Pairwise.imp (fun h e => h (List.cons.inj e).2) (ih h2 r)
      · intro x hx y hy hxy
        obtain ⟨s, _, rfl⟩ := List.mem_map.1 hx
        subst hxy
        exact h1 (((mem_selections l _ _).1 hy).1.subset (by simp))

theorem factorial_pos (n : Nat) : 0 < factorial n := by
  induction n with
  | zero => simp [factorial]
  | succ n ih => simp only [factorial]; exact Nat.mul_pos (by omega) ih

theorem selections_of_lt {α : Type} (l : List α) : ∀ r, l.length < r → selections r l = [] := by
  induction l with
  | nil => intro r h; cases r with
    | zero => simp at h
    | succ r => rfl
  | cons a l ih =>
    intro r h
    cases r with
    | zero => simp at h
    | succ r =>
      simp only [List.length_cons] at h
      simp only [selections, ih r (by omega), ih (r + 1) (by omega), List.map_nil, List.append_nil]

/-- The number of selections, times the factorials. -/
theorem selections_factorial {α : Type} (l : List α) : ∀ r, r ≤ l.length →
    (selections r l).length * (factorial r * factorial (l.length - r)) = factorial l.length := by
  induction l with
  | nil => intro r h; simp at h; subst h; simp [selections, factorial]
  | cons a l ih =>
    intro r h
    cases r with
    | zero => simp [selections, factorial]
    | succ r =>
      simp only [List.length_cons] at h
      simp only [selections, List.length_append, List.length_map, List.length_cons, Nat.add_sub_add_right]
      have i1 := ih r (by omega)
      by_cases hr : r + 1 ≤ l.length
      · have i2 := ih (r + 1) hr
        obtain ⟨k, hk⟩ : ∃ k, l.length - r = k + 1 := ⟨l.length - r - 1, by omega⟩
        have hk' : l.length - (r + 1) = k := by omega
        have hs : l.length = r + k + 1 := by omega
        rw [hk] at i1 ⊢
        rw [hk'] at i2
        simp only [factorial] at i1 i2 ⊢
        generalize (selections r l).length = x at *
        generalize (selections (r + 1) l).length = y at *
        generalize factorial r = p at *
        generalize factorial k = q at *
        generalize factorial l.length = z at *
        rw [hs]
        calc (x + y) * ((r + 1) * p * ((k + 1) * q))
            = (r + 1) * (x * (p * ((k + 1) * q))) + (k + 1) * (y * ((r + 1) * p * q)) := by grind
          _ = (r + 1) * z + (k + 1) * z := by rw [i1, i2]
          _ = (r + k + 1 + 1) * z := by grind
      · have : r = l.length := by omega
        subst this
        rw [selections_of_lt l (l.length + 1) (by omega)]
        simp only [Nat.sub_self, factorial, List.length_nil, Nat.add_zero] at i1 ⊢
        generalize (selections l.length l).length = x at *
        generalize factorial l.length = z at *
        calc x * ((l.length + 1) * z * 1) = (l.length + 1) * (x * (z * 1)) := by grind
          _ = _ := by rw [i1]

/-- C69.  `ncr(n, r)` is the number of ways to choose `r` of `n` items, for all `n, r ≥ 0` (0 when `r > n`); it raises
exactly for negative arguments. -/
theorem C69_ncr : (∀ n r : Nat, ncr n r = .ok ((selections r (List.range n)).length : Int)) ∧
    (∀ n r : Int, (∃ e, ncr n r = .error e) ↔ n < 0 ∨ r < 0) := by
  constructor
  · intro n r
    unfold ncr
    rw [if_neg (by omega), if_neg (by omega)]
    by_cases h : (n : Int) < r
    · rw [if_pos h, selections_of_lt _ _ (by rw [List.length_range]; omega)]; rfl
    · rw [if_neg h]
      have hs := selections_factorial (List.range n) r (by rw [List.length_range]; omega)
      rw [List.length_range] at hs
      have e1 : ((n : Int) - r).toNat = n - r := by omega
      simp only [Int.toNat_natCast, e1]
      rw [Nat.div_div_eq_div_mul, ← hs, Nat.mul_div_cancel]
      exact Nat.mul_pos (factorial_pos _) (factorial_pos _)
  · intro n r
    unfold ncr
    split
    · exact ⟨fun _ => by omega, fun _ => ⟨_, rfl⟩⟩
    · split
      · exact ⟨fun _ => by omega, fun _ => ⟨_, rfl⟩⟩
      · split
        · constructor
          · rintro ⟨e, h⟩; cases h
          · omega
        · constructor
          · rintro ⟨e, h⟩; cases h
          · omega
example : ncr 5 2 = .ok 10 ∧ (selections 2 (List.range 5)).length = 10 ∧ ncr 2 5 = .ok 0 ∧ ncr 0 0 = .ok 1 := by decide
example : ∃ e, ncr 3 (-1) = .error e := (C69_ncr.2 3 (-1)).2 (Or.inr (by decide))
/-- Pascal's rule, as a consequence. -/
theorem C69_pascal (n r : Nat) : ∃ a b : Nat, ncr n r = .ok a ∧ ncr n (r + 1 : Nat) = .ok b ∧
    ncr (n + 1 : Nat) (r + 1 : Nat) = .ok ((a + b : Nat) : Int) := by
  have hlen : ∀ (l l' : List Nat), l.length = l'.length → ∀ r, (selections r l).length = (selections r l').length := by
    intro l
    induction l with
    | nil => intro l' h r; cases l' with
      | nil => rfl
      | cons => simp at h
    | cons a l ih =>
      intro l' h r
      cases l' with
      | nil => simp at h
      | cons b l' =>
        simp only [List.length_cons, Nat.add_right_cancel_iff] at h
        cases r with
        | zero => rfl
        | succ r => simp [selections, ih l' h]
  refine ⟨(selections r (List.range n)).length, (selections (r + 1) (List.range n)).length, C69_ncr.1 _ _, C69_ncr.1 _ _, ?_⟩
  rw [C69_ncr.1, hlen (List.range (n + 1)) (0 :: List.range n) (by simp)]
  simp [selections]
example : ncr 4 2 = .ok 6 ∧ ncr 4 3 = .ok 4 ∧ ncr 5 3 = .ok 10 := by decide

/-! ## C70 -/

theorem numeral_digitsLE : ∀ (f n : Nat), n ≤ f →
    numeral ((digitsLE 2 f n).reverse.map (fun (d : Nat) => (d : Int))) = (n : Int) := by
  intro f
  induction f with
  | zero => intro n hn; have : n = 0 := by omega
            subst this; rfl
  | succ f ih =>
    intro n hn
    by_cases h0 : n = 0
    · subst h0; simp [digitsLE_zero, numeral]
    · rw [digitsLE_pos h0]
      have := ih (n / 2) (by omega)
      unfold numeral at this ⊢
      rw [List.reverse_cons, List.map_append, List.foldl_append, this]
      simp
      omega

theorem numeral_zeros (k : Nat) (l : List Int) : numeral (List.replicate k 0 ++ l) = numeral l := by
  unfold numeral
  rw [List.foldl_append]
  congr 1
  induction k with
  | zero => rfl
  | succ k ih => simpa [List.replicate_succ] using ih

theorem binDigits_ok {x : Int} {r : List Int} (hx : 0 ≤ x) : ∃ ds : List Int, binDigits (x :: r) = .ok ds ∧ Binary ds ∧
    numeral ds = x ∧ ∀ w, 1 ≤ w → (ds.length ≤ w ↔ x < 2 ^ w) := by
  refine ⟨(digitsBE 2 x.toNat).map (fun (d : Nat) => (d : Int)), by simp [binDigits]; omega, ?_, ?_, ?_⟩
  · intro v hv
    obtain ⟨d, hd, rfl⟩ := List.mem_map.1 hv
    have := digitsBE_lt (by omega) hd
    omega
  · unfold digitsBE
    split
    · rename_i h; simp [numeral]; omega
    · rw [numeral_digitsLE _ _ (Nat.le_refl _)]; omega
  · intro w hw
    rw [List.length_map, length_digitsBE (by omega) hw]
    have : ((2 ^ w : Nat) : Int) = 2 ^ w := by simp
    omega

theorem foldl_max_ge (l : List Nat) : ∀ a, a ≤ l.foldl max a ∧ ∀ x ∈ l, x ≤ l.foldl max a := by
  induction l with
  | nil => intro a; simp
  | cons b l ih =>
    intro a
    obtain ⟨h1, h2⟩ := ih (max a b)
    simp only [List.foldl_cons]
    refine ⟨by omega, ?_⟩
    intro x hx
    rcases List.mem_cons.1 hx with rfl | hx
    · omega
    · exact h2 x hx

theorem foldl_max_mem (l : List Nat) : ∀ a, l.foldl max a = a ∨ l.foldl max a ∈ l := by
  induction l with
  | nil => intro a; simp
  | cons b l ih =>
    intro a
    simp only [List.foldl_cons]
    rcases ih (max a b) with h | h
    · rw [h]
      by_cases hab : a ≤ b
      · right; rw [Nat.max_eq_right hab]; simp
      · left; omega
    · right; exact List.mem_cons_of_mem _ h

theorem mapM_binDigits (acts : List (List Int)) :
    ((∀ a ∈ acts, ∃ x r, a = x :: r ∧ 0 ≤ x) → ∃ rows, acts.mapM binDigits = .ok rows ∧ rows.length = acts.length ∧
      ∀ (i : Nat) (x : Int) (r : List Int), acts[i]? = some (x :: r) → ∃ ds, rows[i]? = some ds ∧ binDigits (x :: r) = .ok ds) ∧
    (¬ (∀ a ∈ acts, ∃ x r, a = x :: r ∧ 0 ≤ x) → ∃ e, acts.mapM binDigits = .error e) := by
  induction acts with
  | nil => exact ⟨fun _ => ⟨[], rfl, rfl, fun i x r h => by simp at h⟩, fun h => absurd (fun a ha => by cases ha) h⟩
  | cons a acts ih =>
    constructor
    · intro h
      obtain ⟨x, r, rfl, hx⟩ := h a (by simp)
      obtain ⟨rows, h1, h2, h3⟩ := ih.1 (fun b hb => h b (by simp [hb]))
      obtain ⟨ds, d1, _⟩ := binDigits_ok (r := r) hx
      refine ⟨ds :: rows, by simp [List.mapM_cons, d1, h1, bind, Except.bind, pure, Except.pure], by simp [h2], ?_⟩
      intro i x' r' hi
      cases i with
      | zero => simp only [List.getElem?_cons_zero, Option.some.injEq] at hi; rw [← hi]; exact ⟨ds, rfl, d1⟩
      | succ i => simpa using h3 i x' r' (by simpa using hi)
    · intro h
      cases hb : binDigits a with
      | error e => exact ⟨e, by simp [List.mapM_cons, hb, bind, Except.bind]⟩
      | ok ds =>
        have : ∃ x r, a = x :: r ∧ 0 ≤ x := by
          cases a with
          | nil => simp [binDigits] at hb
          | cons x r =>
            refine ⟨x, r, rfl, ?_⟩
            simp only [binDigits] at hb
            split at hb
            · cases hb
            · omega
        obtain ⟨e, he⟩ := ih.2 (fun hall => h (by
          intro b hb'
          rcases List.mem_cons.1 hb' with rfl | hb'
          · exact this
          · exact hall b hb'))
        exact ⟨e, by simp [List.mapM_cons, hb, he, bind, Except.bind]⟩

/-- C70.  For a non-empty list of rows that start with a non-negative number: there is a row of binary digits for every
number, whose value is the number; all rows have the same length `w`, which is the length of the longest binary
representation (the least `w ≥ 1` with all numbers below `2^w`). -/
theorem C70_binarize (acts : List (List Int)) (hne : acts ≠ []) (h : ∀ a ∈ acts, ∃ x r, a = x :: r ∧ 0 ≤ x) :
    ∃ out w, binarizeForPlotting acts = .ok out ∧ out.length = acts.length ∧ 1 ≤ w ∧
      (∀ (i : Nat) (x : Int) (r : List Int), acts[i]? = some (x :: r) → ∃ row, out[i]? = some row ∧ row.length = w ∧ Binary row ∧ numeral row = x ∧
        x < 2 ^ w) ∧
      (w = 1 ∨ ∃ a ∈ acts, ∃ x r, a = x :: r ∧ 2 ^ (w - 1) ≤ x) := by
  obtain ⟨rows, h1, h2, h3⟩ := (mapM_binDigits acts).1 h
  obtain ⟨a0, acts', rfl⟩ : ∃ a l, acts = a :: l := by
    cases acts with
    | nil => exact absurd rfl hne
    | cons a l => exact ⟨a, l, rfl⟩
  obtain ⟨r0, rows', rfl⟩ : ∃ a l, rows = a :: l := by
    cases rows with
    | nil => simp at h2
    | cons a l => exact ⟨a, l, rfl⟩
  let w := ((r0 :: rows').map List.length).foldl max 0
  have hw : ∀ ds ∈ r0 :: rows', ds.length ≤ w := fun ds hds =>
    (foldl_max_ge _ 0).2 _ (List.mem_map.2 ⟨ds, hds, rfl⟩)
  -- every row has at least one digit
  have hpos : ∀ ds ∈ r0 :: rows', ∃ x r, x :: r ∈ a0 :: acts' ∧ binDigits (x :: r) = .ok ds ∧ 0 ≤ x := by
    intro ds hds
    obtain ⟨i, hi⟩ := List.getElem?_of_mem hds
    have hil : i < (a0 :: acts').length := by
      rw [← h2]; exact (List.getElem?_eq_some_iff.1 hi).1
    obtain ⟨x, r, hx, hx0⟩ := h _ (List.getElem_mem hil)
    have hi' : (a0 :: acts')[i]? = some (x :: r) := by rw [List.getElem?_eq_getElem hil, hx]
    obtain ⟨ds', e1, e2⟩ := h3 i x r hi'
    rw [hi] at e1
    cases e1
    exact ⟨x, r, hx ▸ List.getElem_mem hil, e2, hx0⟩
  have hone : ∀ ds ∈ r0 :: rows', 1 ≤ ds.length := by
    intro ds hds
    obtain ⟨x, r, _, hb, hx0⟩ := hpos ds hds
    simp only [binDigits] at hb
    rw [if_neg (by omega)] at hb
    cases hb
    rw [List.length_map]
    unfold digitsBE
    split
    · simp
    · rename_i hn
      obtain ⟨k, hk⟩ : ∃ k, x.toNat = k + 1 := ⟨x.toNat - 1, by omega⟩
      rw [hk, digitsLE_pos (by omega)]
      simp
  have hw1 : 1 ≤ w := Nat.le_trans (hone r0 (by simp)) (hw r0 (by simp))
  refine ⟨_, w, by simp only [binarizeForPlotting, h1]; rfl, by simpa using h2, hw1, ?_, ?_⟩
  · intro i x r hi
    obtain ⟨ds, e1, e2⟩ := h3 i x r hi
    have hds : ds ∈ r0 :: rows' := List.mem_of_getElem? e1
    obtain ⟨x', r', hx1, hx2⟩ := h _ (List.mem_of_getElem? hi)
    cases hx1
    obtain ⟨ds', d1, d2, d3, d4⟩ := binDigits_ok (r := r) hx2
    rw [d1] at e2
    cases e2
    have hle := hw ds hds
    refine ⟨List.replicate (w - ds.length) 0 ++ ds, ?_, ?_, ?_, ?_, (d4 w hw1).1 hle⟩
    · rw [List.getElem?_map, e1]; rfl
    · simp; omega
    · intro v hv
      rcases List.mem_append.1 hv with hv | hv
      · left; exact (List.mem_replicate.1 hv).2
      · exact d2 v hv
    · rw [numeral_zeros, d3]
  · by_cases hw2 : w = 1
    · exact Or.inl hw2
    · right
      have hm : w ∈ (r0 :: rows').map List.length := by
        rcases foldl_max_mem ((r0 :: rows').map List.length) 0 with h0 | h0
        · exact absurd h0 (by show w ≠ 0; omega)
        · exact h0
      obtain ⟨ds, hds, hlen⟩ := List.mem_map.1 hm
      obtain ⟨x, r, hmem, hb, hx0⟩ := hpos ds hds
      refine ⟨x :: r, hmem, x, r, rfl, ?_⟩
      obtain ⟨ds', d1, _, _, d4⟩ := binDigits_ok (r := r) hx0
      rw [d1] at hb
      cases hb
      have := d4 (w - 1) (by omega)
      rw [hlen] at this
      omega

/-- C70, errors: it raises exactly on an empty list, an empty row, or a negative number. -/
theorem C70_raises (acts : List (List Int)) :
    (∃ e, binarizeForPlotting acts = .error e) ↔ acts = [] ∨ ¬ ∀ a ∈ acts, ∃ x r, a = x :: r ∧ 0 ≤ x := by
  constructor
  · rintro ⟨e, he⟩
    by_cases hne : acts = []
    · exact Or.inl hne
    · right
      intro h
      obtain ⟨out, w, h1, _⟩ := C70_binarize acts hne h
      rw [h1] at he; cases he
  · rintro (rfl | h)
    · exact ⟨_, rfl⟩
    · obtain ⟨e, he⟩ := (mapM_binDigits acts).2 h
      exact ⟨e, by simp only [binarizeForPlotting, he]⟩
example : binarizeForPlotting [[2], [35], [12]] =
    .ok [[0, 0, 0, 0, 1, 0], [1, 0, 0, 0, 1, 1], [0, 0, 1, 1, 0, 0]] := by decide
example : binarizeForPlotting [[0], [1, 9]] = .ok [[0], [1]] ∧ binarizeForPlotting [[-1]] = .error .valueError := by decide

/-! ## C71 -/

section
variable {V L : Type}

/-- C71, `init_simple`: for `size ≥ 1` a list of length `size` with `val` at `size // 2` and zero elsewhere; it raises
exactly for `size ≤ 0`. -/
theorem C71_init_simple (zero val : V) :
    (∀ size : Nat, 1 ≤ size → ∃ l, initSimple zero size val = .ok l ∧ l.length = size ∧
      ∀ i, i < size → l[i]? = some (if i = size / 2 then val else zero)) ∧
    (∀ size : Int, (∃ e, initSimple zero size val = .error e) ↔ size ≤ 0) := by
  have main : ∀ size : Nat, 1 ≤ size → ∃ l, initSimple zero size val = .ok l ∧ l.length = size ∧
      ∀ i, i < size → l[i]? = some (if i = size / 2 then val else zero) := by
    intro size hs
    refine ⟨(List.replicate size zero).set (size / 2) val, ?_, by simp, ?_⟩
    · unfold initSimple
      rw [if_neg (by omega), show ((size : Int) / 2) = ((size / 2 : Nat) : Int) by omega, Int.toNat_natCast]
      exact pySet_natCast _ (by simp; omega) _
    · intro i hi
      rw [List.getElem?_set]
      split
      · rename_i h
        rw [if_pos (by simp; omega), if_pos h.symm]
      · rename_i h
        rw [if_neg (Ne.symm h)]
        simp [hi]
  refine ⟨main, ?_⟩
  intro size
  constructor
  · rintro ⟨e, he⟩
    refine Decidable.of_not_not (fun hs => ?_)
    obtain ⟨l, h1, _⟩ := main size.toNat (by omega)
    rw [Int.toNat_of_nonneg (by omega), he] at h1
    cases h1
  · intro h
    by_cases h0 : size < 0
    · exact ⟨_, by unfold initSimple; rw [if_pos h0]⟩
    · have : size = 0 := by omega
      subst this
      exact ⟨.indexError, by simp [initSimple, pySet, pyIndex]⟩
example : initSimple (0 : Int) 5 1 = .ok [0, 0, 1, 0, 0] ∧ initSimple (0 : Int) 4 7 = .ok [0, 0, 7, 0] := by decide

/-- C71, `init_simple2d`: row by row, with `val` at row `rows // 2`, column `cols // 2` and zero elsewhere. -/
theorem C71_init_simple2d (zero val : V) :
    (∀ rows cols : Nat, 1 ≤ rows → 1 ≤ cols → ∃ l, initSimple2d zero rows cols val = .ok l ∧ l.length = rows * cols ∧
      ∀ i j, i < rows → j < cols → l[i * cols + j]? = some (if i = rows / 2 ∧ j = cols / 2 then val else zero)) ∧
    (∀ rows cols : Int, (∃ e, initSimple2d zero rows cols val = .error e) ↔ rows ≤ 0 ∨ cols ≤ 0) := by
  have hflat : ∀ (cols : Nat) (x : List (List V)), (∀ r ∈ x, r.length = cols) →
      x.flatten.length = x.length * cols ∧ ∀ i j, i < x.length → j < cols →
        x.flatten[i * cols + j]? = (x[i]?).bind (fun r => r[j]?) := by
    intro cols x
    induction x with
    | nil => intro _; exact ⟨by simp, fun i j h => by simp at h⟩
    | cons r x ih =>
      intro h
      obtain ⟨h1, h2⟩ := ih (fun r' hr => h r' (by simp [hr]))
      have hr := h r (by simp)
      refine ⟨by simp [h1, hr, Nat.succ_mul, Nat.add_comm], ?_⟩
      intro i j hi hj
      rw [List.flatten_cons]
      cases i with
      | zero => rw [List.getElem?_append_left (by omega)]; simp
      | succ i =>
        rw [List.getElem?_append_right (by rw [hr, Nat.succ_mul]; omega), hr,
          show (i + 1) * cols + j - cols = i * cols + j by rw [Nat.succ_mul]; omega,
          h2 i j (by simpa using hi) hj]
        simp
  have main : ∀ rows cols : Nat, 1 ≤ rows → 1 ≤ cols → ∃ l, initSimple2d zero rows cols val = .ok l ∧
      l.length = rows * cols ∧ ∀ i j, i < rows → j < cols →
        l[i * cols + j]? = some (if i = rows / 2 ∧ j = cols / 2 then val else zero) := by
    intro rows cols hr hc
    have hx : (rows : Int) / 2 = ((rows / 2 : Nat) : Int) := by omega
    have hy : (cols : Int) / 2 = ((cols / 2 : Nat) : Int) := by omega
    have hok : initSimple2d zero rows cols val = .ok ((List.replicate rows (List.replicate cols zero)).set (rows / 2)
        ((List.replicate cols zero).set (cols / 2) val)).flatten := by
      unfold initSimple2d
      rw [if_neg (by omega)]
      simp only [Int.toNat_natCast]
      rw [hx, hy, pyGet_natCast _ (by simp; omega)]
      simp only [List.getElem_replicate]
      rw [pySet_natCast _ (by simp; omega)]
      simp only
      rw [pySet_natCast _ (by simp; omega)]
    obtain ⟨f1, f2⟩ := hflat cols ((List.replicate rows (List.replicate cols zero)).set (rows / 2)
        ((List.replicate cols zero).set (cols / 2) val)) (by
      intro r hr'
      rcases List.mem_or_eq_of_mem_set hr' with h | h
      · rw [(List.mem_replicate.1 h).2]; simp
      · rw [h]; simp)
    refine ⟨_, hok, by rw [f1]; simp, ?_⟩
    intro i j hi hj
    rw [f2 i j (by simpa using hi) hj, List.getElem?_set]
    by_cases h1 : rows / 2 = i
    · rw [if_pos h1, if_pos (by simp; omega), Option.bind_some, List.getElem?_set]
      by_cases h2 : cols / 2 = j
      · rw [if_pos h2, if_pos (by simp; omega), if_pos ⟨h1.symm, h2.symm⟩]
      · rw [if_neg h2, if_neg (fun h => h2 h.2.symm)]; simp [hj]
    · rw [if_neg h1, if_neg (fun h => h1 h.1.symm)]
      simp [hi, hj]
  refine ⟨main, ?_⟩
  intro rows cols
  constructor
  · rintro ⟨e, he⟩
    refine Decidable.of_not_not (fun hs => ?_)
    obtain ⟨l, h1, _⟩ := main rows.toNat cols.toNat (by omega) (by omega)
    rw [Int.toNat_of_nonneg (by omega), Int.toNat_of_nonneg (by omega), he] at h1
    cases h1
  · intro h
    by_cases h0 : rows < 0 ∨ cols < 0
    · exact ⟨_, by unfold initSimple2d; rw [if_pos h0]⟩
    · unfold initSimple2d
      rw [if_neg h0]
      by_cases hr : rows = 0
      · subst hr
        exact ⟨.indexError, by simp [pyGet, pyIndex]⟩
      · have hc : cols = 0 := by omega
        subst hc
        obtain ⟨r, rfl⟩ : ∃ r : Nat, rows = (r : Int) := ⟨rows.toNat, by omega⟩
        simp only [Int.toNat_natCast]
        rw [show (r : Int) / 2 = ((r / 2 : Nat) : Int) by omega, pyGet_natCast _ (by simp; omega)]
        exact ⟨.indexError, by simp [pySet, pyIndex]⟩
example : initSimple2d (0 : Int) 3 3 1 = .ok [0, 0, 0, 0, 1, 0, 0, 0, 0] ∧
    initSimple2d (0 : Int) 2 3 5 = .ok [0, 0, 0, 0, 5, 0] := by decide

/-- C71, `init_random` with at least one state (`k ≥ 1`), for all outcomes of the random generator: the result has length
`size`; the `n` random numbers stand in a block with `(size - n) // 2` empty sites before it and the rest after it, the
others are empty.  It raises exactly when `n` is not in `0..size`. -/
theorem C71_init_random (size k : Int) (hk : 1 ≤ k) (nr : Option Int) (empty : V) (integer : Bool) (draw : Nat → V) :
    ((∃ e, initRandom size k nr empty integer draw = .error e) ↔ (nr.getD size < 0 ∨ size < nr.getD size)) ∧
    (∀ n : Nat, nr.getD size = n → (n : Int) ≤ size → ∃ l, initRandom size k nr empty integer draw = .ok l ∧
      (l.length : Int) = size ∧
      ∀ i, i < l.length → l[i]? = some (if (l.length - n) / 2 ≤ i ∧ i < (l.length - n) / 2 + n
        then draw (i - (l.length - n) / 2) else empty)) := by
  constructor
  · unfold initRandom
    simp only
    split
    · exact ⟨fun _ => by omega, fun _ => ⟨_, rfl⟩⟩
    · rw [if_neg (fun h => by have := h.2; omega)]
      exact ⟨fun ⟨e, h⟩ => (by cases h), fun h => by omega⟩
  · intro n hn hle
    have hk' : ¬ (integer = true ∧ k ≤ 0) := fun h => by have := h.2; omega
    refine ⟨List.replicate ((size - n) / 2).toNat empty ++ (List.range n).map draw ++
      List.replicate ((size - n) - (size - n) / 2).toNat empty, ?_, by simp; omega, ?_⟩
    · unfold initRandom
      simp only [hn]
      rw [if_neg (by omega), if_neg hk', Int.toNat_natCast]
    · intro i hi
      have hlen : (List.replicate ((size - n) / 2).toNat empty ++ (List.range n).map draw ++
        List.replicate ((size - n) - (size - n) / 2).toNat empty).length = size.toNat := by simp; omega
      rw [hlen] at hi ⊢
      have hp : ((size - (n : Int)) / 2).toNat = (size.toNat - n) / 2 := by omega
      rw [hp]
      by_cases h1 : i < (size.toNat - n) / 2
      · rw [if_neg (by omega), List.append_assoc, List.getElem?_append_left (by simpa using h1)]
        simp [h1]
      · by_cases h2 : i < (size.toNat - n) / 2 + n
        · rw [if_pos (by omega), List.append_assoc, List.getElem?_append_right (by simp; omega),
            List.getElem?_append_left (by simp; omega)]
          simp only [List.length_replicate, List.getElem?_map]
          rw [List.getElem?_range (by omega)]
          rfl
        · rw [if_neg (by omega), List.append_assoc, List.getElem?_append_right (by simp; omega),
            List.getElem?_append_right (by simp; omega)]
          simp only [List.length_replicate, List.length_map, List.length_range]
          rw [List.getElem?_replicate, if_pos (by omega)]
example : initRandom 6 2 (some 3) 0 true (fun i => (([1, 0, 1] : List Int)[i]?).getD 0) = .ok [0, 1, 0, 1, 0, 0] ∧
    initRandom 2 2 none (0 : Int) true (fun _ => 1) = .ok [1, 1] ∧
    (match initRandom 2 2 (some 3) (0 : Int) true (fun _ => 1) with | .error _ => true | .ok _ => false) = true := by decide

/-- C71, range: when the generator delivers numbers of `{0, ..., k-1}`, the result contains only these and the empty
value. -/
theorem C71_init_random_range (size k : Int) (nr : Option Int) (empty : Int) (integer : Bool) (draw : Nat → Int)
    (hd : ∀ i, 0 ≤ draw i ∧ draw i < k) (l : List Int) (h : initRandom size k nr empty integer draw = .ok l) :
    ∀ v ∈ l, v = empty ∨ (0 ≤ v ∧ v < k) := by
  unfold initRandom at h
  simp only at h
  split at h
  · cases h
  · split at h
    · cases h
    · cases h
      intro v hv
      simp only [List.mem_append, List.mem_replicate, List.mem_map, List.mem_range] at hv
      rcases hv with (⟨_, rfl⟩ | ⟨i, _, rfl⟩) | ⟨_, rfl⟩
      · exact Or.inl rfl
      · exact Or.inr (hd i)
      · exact Or.inl rfl
example : ∀ i : Nat, (0 : Int) ≤ (([1, 0, 1] : List Int)[i]?).getD 0 ∧ (([1, 0, 1] : List Int)[i]?).getD 0 < 2
  | 0 => by decide
  | 1 => by decide
  | 2 => by decide
  | _ + 3 => by simp

/-! ## C72 -/

variable [DecidableEq L]

/-- `row` lists the values of the dict in increasing order of the labels. -/
def RowOf (lt : L → L → Prop) (d : Dict L V) (row : List V) : Prop :=
  ∃ labels : List L, labels.Perm d.keys ∧ labels.Pairwise lt ∧ row.map some = labels.map d.get?

/-- A total order on labels, as Python's comparison of numbers or strings. -/
structure TotalOrder (le : L → L → Bool) : Prop where
  trans : ∀ a b c, le a b = true → le b c = true → le a c = true
  total : ∀ a b, (le a b || le b a) = true
  antisymm : ∀ a b, le a b = true → le b a = true → a = b

theorem activityRow_spec {le : L → L → Bool} (hle : TotalOrder le) {d : Dict L V} (hd : d.keys.Nodup) :
    RowOf (fun a b => le a b = true ∧ a ≠ b) d (activityRow le d) := by
  have hp : (d.keys.mergeSort le).Perm d.keys := List.mergeSort_perm _ _
  refine ⟨d.keys.mergeSort le, hp, ?_, ?_⟩
  · have h1 := List.pairwise_mergeSort hle.trans hle.total d.keys
    have h2 : (d.keys.mergeSort le).Pairwise (· ≠ ·) := List.nodup_iff_pairwise_ne.1 (hp.nodup_iff.2 hd)
    exact List.Pairwise.and h1 h2
  · unfold activityRow
    have : ∀ ks : List L, (∀ k ∈ ks, k ∈ d.keys) → (ks.filterMap d.get?).map some = ks.map d.get? := by
      intro ks
      induction ks with
      | nil => intro _; rfl
      | cons k ks ih =>
        intro h
        obtain ⟨v, hv⟩ := Dict.exists_get?_of_mem_keys (h k (by simp))
        rw [List.filterMap_cons, hv]
        simp only [List.map_cons, hv]
        rw [ih (fun k' hk => h k' (by simp [hk]))]
    exact this _ (fun k hk => hp.mem_iff.1 hk)

/-- The claim C72: row `t` lists the activities of state `t` in increasing label order. -/
def C72Full (le : L → L → Bool) (trajectory : List (Option (Dict L V))) : Prop :=
  (activitiesOverTime le trajectory).length = trajectory.length ∧
  ∀ (t : Nat) (s : Option (Dict L V)), trajectory[t]? = some s → ∃ row, (activitiesOverTime le trajectory)[t]? = some row ∧
    RowOf (fun a b => le a b = true ∧ a ≠ b) (s.getD []) row

/-- C72 is false for trajectories with states without activities, e.g. with `persist_activities=False`: such states are
skipped, so the row at index 1 is that of state 2. -/
theorem C72_skips :
    let trajectory : List (Option (Dict Nat Int)) := [some [(0, 5)], none, some [(0, 7)]]
    activitiesOverTime (fun a b => decide (a ≤ b)) trajectory = [[5], [7]] ∧
    ¬ C72Full (fun a b => decide (a ≤ b)) trajectory := by
  refine ⟨by decide +kernel, ?_⟩
  intro h
  have := h.1
  revert this
  decide +kernel

/-- C72 for trajectories all of whose states have activities.  Missing for the full claim: states without activities
(`C72_skips`). -/
theorem C72_rows_partial (le : L → L → Bool) (hle : TotalOrder le) (trajectory : List (Option (Dict L V)))
    (h : ∀ s ∈ trajectory, ∃ d : Dict L V, s = some d ∧ d ≠ [] ∧ d.keys.Nodup) : C72Full le trajectory := by
  have key : activitiesOverTime le trajectory = trajectory.map (fun s => activityRow le (s.getD [])) := by
    unfold activitiesOverTime
    induction trajectory with
    | nil => rfl
    | cons s l ih =>
      obtain ⟨d, rfl, hd, _⟩ := h s (by simp)
      rw [List.filterMap_cons]
      cases d with
      | nil => exact absurd rfl hd
      | cons p d =>
        simp only [List.map_cons, Option.getD_some]
        rw [ih (fun s' hs => h s' (by simp [hs]))]
  refine ⟨by rw [key]; simp, ?_⟩
  intro t s hs
  refine ⟨activityRow le (s.getD []), by rw [key, List.getElem?_map, hs]; rfl, ?_⟩
  obtain ⟨d, rfl, _, hnd⟩ := h s (List.mem_of_getElem? hs)
  exact activityRow_spec hle hnd
example : activitiesOverTime (fun a b => decide (a ≤ b)) [some [(2, 'c'), (0, 'a'), (1, 'b')], some [(0, 'x'), (7, 'y')]] =
    [['a', 'b', 'c'], ['x', 'y']] := by
  simp [activitiesOverTime, activityRow, Dict.keys, List.mergeSort, List.MergeSort.Internal.splitInTwo, Dict.get?]
example : TotalOrder (fun (a b : Nat) => decide (a ≤ b)) :=
  ⟨fun a b c h1 h2 => by simp at *; omega, fun a b => by simp; omega, fun a b h1 h2 => by simp at *; omega⟩

/-- C72 in general: the rows are those of the states that have activities, in order. -/
theorem C72_skip_rows (le : L → L → Bool) (trajectory : List (Option (Dict L V))) :
    activitiesOverTime le trajectory =
      activitiesOverTime le (trajectory.filter (fun s => s.isSome && !(s.getD []).isEmpty)) := by
  unfold activitiesOverTime
  induction trajectory with
  | nil => rfl
  | cons s l ih =>
    cases s with
    | none => simpa using ih
    | some d =>
      cases d with
      | nil => simpa using ih
      | cons p d => simpa using ih

end
end Verif
