import Verif.Model.Topology
import Verif.Spec.Topology
import Verif.Proofs.Matrix
/-! # Lemmas on the adjacency matrices of the cellular automata -/

namespace Verif

open Spec

theorem setOne_ok {M : List (List Int)} {n w p : Nat} {k : Int} (hM : Square M n) (hw : w < n)
    (hk : pyIndex n k = some p) :
    ∃ M', setOne M (w, k) = .ok M' ∧ Square M' n ∧
      ∀ a b, entry M' a b = if a = w ∧ b = p then some 1 else entry M a b := by
  have hlen : w < M.length := by rw [hM.1]; exact hw
  have hrow : (M[w]).length = n := hM.2 _ (List.getElem_mem hlen)
  have hp := pyIndex_lt hk
  have hset : setOne M (w, k) = .ok (M.set w ((M[w]).set p 1)) := by
    simp [setOne, List.getElem?_eq_getElem hlen, pySet, hrow, hk]
  refine ⟨_, hset, ⟨by simp [hM.1], ?_⟩, ?_⟩
  · intro r hr
    rcases List.mem_or_eq_of_mem_set hr with h | h
    · exact hM.2 r h
    · subst h; simp [hrow]
  · intro a b
    simp only [entry]
    by_cases ha : a = w
    · subst ha
      rw [List.getElem?_set_self hlen, List.getElem?_eq_getElem hlen]
      simp only [Option.bind_some, true_and]
      by_cases hb : b = p
      · subst hb; rw [List.getElem?_set_self (by omega)]; simp
      · rw [List.getElem?_set_ne (by omega)]; simp [hb]
    · rw [List.getElem?_set_ne (by omega)]; simp [ha]

theorem setOne_error {M : List (List Int)} {n w : Nat} {k : Int} (hM : Square M n) (hw : w < n)
    (hk : pyIndex n k = none) : setOne M (w, k) = .error .indexError := by
  have hlen : w < M.length := by rw [hM.1]; exact hw
  have hrow : (M[w]).length = n := hM.2 _ (List.getElem_mem hlen)
  simp [setOne, List.getElem?_eq_getElem hlen, pySet, hrow, hk]

/-- A sequence of assignments of 1 that are all in range. -/
theorem writes_ok {n : Nat} (ps : List (Nat × Int)) (hps : ∀ p ∈ ps, p.1 < n ∧ pyIndex n p.2 ≠ none)
    {M : List (List Int)} (hM : Square M n) :
    ∃ M', ps.foldlM setOne M = .ok M' ∧ Square M' n ∧
      ∀ a b, ((∃ p ∈ ps, p.1 = a ∧ pyIndex n p.2 = some b) → entry M' a b = some 1) ∧
        ((¬ ∃ p ∈ ps, p.1 = a ∧ pyIndex n p.2 = some b) → entry M' a b = entry M a b) := by
  induction ps generalizing M with
  | nil => exact ⟨M, rfl, hM, fun a b => ⟨by simp, by simp⟩⟩
  | cons q ps ih =>
    obtain ⟨hw, hk⟩ := hps q (by simp)
    obtain ⟨k, hk⟩ := Option.ne_none_iff_exists'.1 hk
    obtain ⟨M1, h1, hs1, he1⟩ := setOne_ok hM hw hk
    obtain ⟨M2, h2, hs2, he2⟩ := ih (fun p hp => hps p (by simp [hp])) hs1
    refine ⟨M2, ?_, hs2, ?_⟩
    · rw [List.foldlM_cons, show setOne M q = .ok M1 from h1]; exact h2
    · intro a b
      obtain ⟨hy, hn⟩ := he2 a b
      by_cases hex : ∃ p ∈ ps, p.1 = a ∧ pyIndex n p.2 = some b
      · refine ⟨fun _ => hy hex, fun h => ?_⟩
        obtain ⟨p, hp, h'⟩ := hex
        exact absurd ⟨p, by simp [hp], h'⟩ h
      · rw [hn hex, he1]
        constructor
        · rintro ⟨p, hp, ha, hb⟩
          rcases List.mem_cons.1 hp with rfl | hp
          · rw [hk] at hb; injection hb with hb
            rw [if_pos ⟨ha.symm, hb.symm⟩]
          · exact absurd ⟨p, hp, ha, hb⟩ hex
        · intro h
          rw [if_neg]
          rintro ⟨rfl, rfl⟩
          exact h ⟨q, by simp, rfl, hk⟩

theorem writes_error {n : Nat} (ps : List (Nat × Int)) (hps : ∀ p ∈ ps, p.1 < n)
    (hex : ∃ p ∈ ps, pyIndex n p.2 = none) {M : List (List Int)} (hM : Square M n) :
    ps.foldlM setOne M = .error .indexError := by
  induction ps generalizing M with
  | nil => simp at hex
  | cons q ps ih =>
    rw [List.foldlM_cons]
    cases hk : pyIndex n q.2 with
    | none => rw [show setOne M q = .error .indexError from setOne_error hM (hps q (by simp)) hk]; rfl
    | some k =>
      obtain ⟨M1, h1, hs1, -⟩ := setOne_ok hM (hps q (by simp)) hk
      rw [show setOne M q = .ok M1 from h1]
      refine ih (fun p hp => hps p (by simp [hp])) ?_ hs1
      obtain ⟨p, hp, hn⟩ := hex
      rcases List.mem_cons.1 hp with rfl | hp
      · rw [hk] at hn; cases hn
      · exact ⟨p, hp, hn⟩

theorem zeroMatrix_square (n : Nat) : Square (zeroMatrix n) n := square_zero n

theorem zeroMatrix_entry {n a b : Nat} (ha : a < n) (hb : b < n) : entry (zeroMatrix n) a b = some 0 := by
  simp [entry, zeroMatrix, ha, hb]

/-- All assignments of the 1D construction. -/
theorem mem_caWrites_all {n r : Nat} {p : Nat × Int} :
    p ∈ (List.range n).flatMap (fun w => (List.range n).flatMap (fun c => caWrites n r w c)) ↔
      p.1 < n ∧ (p.2 = p.1 ∨ ∃ i < r, p.2 = (p.1 : Int) - (1 + (i : Int)) ∨ p.2 = ((p.1 : Int) + (1 + (i : Int))) % (n : Int)) := by
  obtain ⟨w, k⟩ := p
  simp only [List.mem_flatMap, List.mem_range, caWrites]
  constructor
  · rintro ⟨w', hw', c, hc, h⟩
    split at h
    · rename_i hwc
      subst hwc
      simp only [List.mem_cons, List.mem_flatMap, List.mem_range, List.not_mem_nil, or_false, Prod.mk.injEq] at h
      rcases h with ⟨rfl, rfl⟩ | ⟨i, hi, ⟨rfl, rfl⟩ | ⟨rfl, rfl⟩⟩
      · exact ⟨hw', Or.inl rfl⟩
      · exact ⟨hw', Or.inr ⟨i, hi, Or.inl rfl⟩⟩
      · exact ⟨hw', Or.inr ⟨i, hi, Or.inr rfl⟩⟩
    · simp at h
  · rintro ⟨hw, h⟩
    refine ⟨w, hw, w, hw, ?_⟩
    simp only [if_true, List.mem_cons, List.mem_flatMap, List.mem_range, List.not_mem_nil, or_false, Prod.mk.injEq,
      true_and]
    rcases h with h | ⟨i, hi, h⟩
    · exact Or.inl h
    · exact Or.inr ⟨i, hi, h⟩

theorem emod_eq_sub {a n : Int} (h1 : n ≤ a) (h2 : a < 2 * n) : a % n = a - n := by
  have : a % n = (a - n) % n := by rw [Int.sub_emod_right]
  rw [this]; exact Int.emod_eq_of_lt (by omega) (by omega)

/-- Column `b` of row `a` is assigned iff the circular distance is at most `r`. -/
theorem caWrites_hit {n r a b : Nat} (hr : r ≤ n) (ha : a < n) (hb : b < n) :
    (∃ p ∈ (List.range n).flatMap (fun w => (List.range n).flatMap (fun c => caWrites n r w c)),
      p.1 = a ∧ pyIndex n p.2 = some b) ↔ circDist n a b ≤ r := by
  constructor
  · rintro ⟨⟨w, k⟩, hp, hw, hk⟩
    rw [mem_caWrites_all] at hp
    simp only at hp hw hk
    subst hw
    obtain ⟨-, h | ⟨i, hi, h | h⟩⟩ := hp
    · subst h
      rw [pyIndex_natCast ha] at hk
      simp only [Option.some.injEq] at hk
      unfold circDist; omega
    · subst h
      unfold pyIndex at hk
      unfold circDist
      split at hk
      · simp only [Option.some.injEq] at hk; omega
      · split at hk
        · simp only [Option.some.injEq] at hk; omega
        · cases hk
    · subst h
      have h1 : 0 ≤ ((w : Int) + (1 + (i : Int))) % (n : Int) := Int.emod_nonneg _ (by omega)
      have h2 : ((w : Int) + (1 + (i : Int))) % (n : Int) < n := Int.emod_lt_of_pos _ (by omega)
      unfold pyIndex at hk
      rw [if_pos ⟨h1, h2⟩] at hk
      simp only [Option.some.injEq] at hk
      unfold circDist
      by_cases hlt : (w : Int) + (1 + (i : Int)) < n
      · rw [Int.emod_eq_of_lt (by omega) hlt] at hk; omega
      · rw [emod_eq_sub (by omega) (by omega)] at hk; omega
  · intro h
    by_cases hab : a = b
    · subst hab
      exact ⟨(a, a), mem_caWrites_all.2 ⟨ha, Or.inl rfl⟩, rfl, pyIndex_natCast ha⟩
    · unfold circDist at h
      by_cases hlt : a < b
      · by_cases hd : b - a ≤ r
        · refine ⟨(a, ((a : Int) + (1 + ((b - a - 1 : Nat) : Int))) % n),
            mem_caWrites_all.2 ⟨ha, Or.inr ⟨b - a - 1, by omega, Or.inr rfl⟩⟩, rfl, ?_⟩
          simp only
          rw [Int.emod_eq_of_lt (by omega) (by omega)]
          have : ((a : Int) + (1 + ((b - a - 1 : Nat) : Int))) = (b : Int) := by omega
          rw [this, pyIndex_natCast hb]
        · refine ⟨(a, (a : Int) - (1 + ((n - (b - a) - 1 : Nat) : Int))),
            mem_caWrites_all.2 ⟨ha, Or.inr ⟨n - (b - a) - 1, by omega, Or.inl rfl⟩⟩, rfl, ?_⟩
          simp only [pyIndex]
          rw [if_neg (by omega), if_pos (by omega)]
          simp only [Option.some.injEq]; omega
      · by_cases hd : a - b ≤ r
        · refine ⟨(a, (a : Int) - (1 + ((a - b - 1 : Nat) : Int))),
            mem_caWrites_all.2 ⟨ha, Or.inr ⟨a - b - 1, by omega, Or.inl rfl⟩⟩, rfl, ?_⟩
          simp only [pyIndex]
          rw [if_pos (by omega)]
          simp only [Option.some.injEq]; omega
        · refine ⟨(a, ((a : Int) + (1 + ((n - (a - b) - 1 : Nat) : Int))) % n),
            mem_caWrites_all.2 ⟨ha, Or.inr ⟨n - (a - b) - 1, by omega, Or.inr rfl⟩⟩, rfl, ?_⟩
          simp only
          rw [emod_eq_sub (by omega) (by omega)]
          have : ((a : Int) + (1 + ((n - (a - b) - 1 : Nat) : Int))) - n = (b : Int) := by omega
          rw [this, pyIndex_natCast hb]

/-- The 1D adjacency matrix. -/
theorem caAdjacency_ok {n r : Nat} (hn : 3 ≤ n) (hr : r ≤ n) :
    ∃ M, caAdjacency n r "periodic" = .ok M ∧ Square M n ∧
      ∀ a b, a < n → b < n → entry M a b = some (if circDist n a b ≤ r then 1 else 0) := by
  obtain ⟨M, h, hs, he⟩ := writes_ok (n := n)
    ((List.range n).flatMap (fun w => (List.range n).flatMap (fun c => caWrites n r w c)))
    (by
      rintro ⟨w, k⟩ hp
      rw [mem_caWrites_all] at hp
      simp only at hp ⊢
      refine ⟨hp.1, ?_⟩
      rw [ne_eq, pyIndex_eq_none_iff]
      obtain ⟨hw, h | ⟨i, hi, h | h⟩⟩ := hp
      · omega
      · omega
      · have h1 : 0 ≤ ((w : Int) + (1 + (i : Int))) % (n : Int) := Int.emod_nonneg _ (by omega)
        have h2 : ((w : Int) + (1 + (i : Int))) % (n : Int) < n := Int.emod_lt_of_pos _ (by omega)
        omega) (zeroMatrix_square n)
  refine ⟨M, ?_, hs, ?_⟩
  · unfold caAdjacency
    rw [if_neg (by omega), if_pos rfl]; exact h
  · intro a b ha hb
    obtain ⟨h1, h2⟩ := he a b
    rw [caWrites_hit hr ha hb] at h1 h2
    split
    · rename_i hc; exact h1 hc
    · rename_i hc; rw [h2 hc, zeroMatrix_entry ha hb]

theorem caAdjacency_big {n r : Nat} (hn : 3 ≤ n) (hr : n < r) : caAdjacency n r "periodic" = .error .indexError := by
  unfold caAdjacency
  rw [if_neg (by omega), if_pos rfl]
  apply writes_error (n := n) _ _ _ (zeroMatrix_square n)
  · intro p hp; exact (mem_caWrites_all.1 hp).1
  · refine ⟨(0, ((0 : Nat) : Int) - (1 + (n : Int))), mem_caWrites_all.2 ⟨by simp only; omega, Or.inr ⟨n, hr, Or.inl rfl⟩⟩, ?_⟩
    rw [pyIndex_eq_none_iff]
    simp only; omega

/-! ## 2D -/

theorem wrapCoord_index {size : Nat} (hs : 0 < size) (p : Int) :
    pyIndex size (wrapCoord p size) = some (p % (size : Int)).toNat := by
  unfold wrapCoord
  split
  · rename_i h; subst h
    exact pyIndex_emod (by omega) (by omega)
  · have h1 := Int.emod_nonneg p (b := (size : Int)) (by omega)
    have h2 := Int.emod_lt_of_pos p (b := (size : Int)) (by omega)
    unfold pyIndex; rw [if_pos ⟨h1, h2⟩]

theorem toNat_emod_lt {size : Nat} (hs : 0 < size) (p : Int) : (p % (size : Int)).toNat < size := by
  have h1 := Int.emod_nonneg p (b := (size : Int)) (by omega)
  have h2 := Int.emod_lt_of_pos p (b := (size : Int)) (by omega)
  omega

/-- The label of the lattice point `p` on the torus. -/
def torusLabel (rows cols : Nat) (p : Int × Int) : Nat :=
  (p.1 % (rows : Int)).toNat * cols + (p.2 % (cols : Int)).toNat

theorem label_lt {rows cols a b : Nat} (ha : a < rows) (hb : b < cols) : a * cols + b < rows * cols :=
  calc a * cols + b < a * cols + cols := by omega
    _ = (a + 1) * cols := by rw [Nat.add_mul, Nat.one_mul]
    _ ≤ rows * cols := Nat.mul_le_mul_right _ ha

theorem pointStep_eq {rows cols : Nat} (hr : 0 < rows) (hc : 0 < cols) (label : Nat) (M : List (List Int))
    (p : Int × Int) : pointStep rows cols label M p = setOne M (label, (torusLabel rows cols p : Int)) := by
  have h1 := toNat_emod_lt hr p.1
  have h2 := toNat_emod_lt hc p.2
  have hl : (lattice2d rows cols).length = rows := by simp [lattice2d]
  unfold pointStep pyGet
  rw [hl, wrapCoord_index hr]
  simp only [lattice2d, List.getElem?_map, List.getElem?_range h1, Option.map_some, List.length_map, List.length_range,
    wrapCoord_index hc, List.getElem?_range h2, torusLabel]

/-- Assignments for one cell. -/
def cellWrites (crit : Criterion) (rows cols r : Nat) (c : Nat × Nat) : List (Nat × Int) :=
  (neighbourhoodPoints crit c.1 c.2 r (c.1 + 1)).map (fun p => (c.1 * cols + c.2, (torusLabel rows cols p : Int)))

theorem cellStep_eq {crit : Criterion} {rows cols r : Nat} (hr : 0 < rows) (hc : 0 < cols) (M : List (List Int))
    (c : Nat × Nat) : cellStep crit rows cols r M c = (cellWrites crit rows cols r c).foldlM setOne M := by
  unfold cellStep cellWrites
  rw [List.foldlM_map]
  congr 1
  funext M p
  exact pointStep_eq hr hc _ M p

theorem foldlM_flatMap' {α β σ : Type} (l : List α) (g : α → List β) (f : σ → β → Except Err σ) (s : σ) :
    (l.flatMap g).foldlM f s = l.foldlM (fun s a => (g a).foldlM f s) s := by
  induction l generalizing s with
  | nil => rfl
  | cons a l ih =>
    rw [List.flatMap_cons, List.foldlM_append, List.foldlM_cons]
    cases (g a).foldlM f s with
    | error e => rfl
    | ok s' => exact ih s'

theorem mem_window {a r : Nat} {x : Int} : x ∈ window a r ↔ (x - (a : Int)).natAbs ≤ r := by
  simp only [window, List.mem_map, List.mem_range]
  constructor
  · rintro ⟨k, hk, rfl⟩; omega
  · intro h; exact ⟨(x - a + r).toNat, by omega, by omega⟩

theorem mem_points {crit : Criterion} {a b r rownum : Nat} {p : Int × Int} :
    p ∈ neighbourhoodPoints crit a b r rownum ↔
      (p.1 - (a : Int)).natAbs ≤ r ∧ (p.2 - (b : Int)).natAbs ≤ r ∧ crit p.1 p.2 a b r rownum = true := by
  obtain ⟨x, y⟩ := p
  simp only [neighbourhoodPoints, List.mem_flatMap, List.mem_map, List.mem_filter, mem_window, Prod.mk.injEq]
  constructor
  · rintro ⟨x', hx, y', ⟨hy, hc⟩, rfl, rfl⟩; exact ⟨hx, hy, hc⟩
  · rintro ⟨hx, hy, hc⟩; exact ⟨x, hx, y, ⟨hy, hc⟩, rfl, rfl⟩

theorem mem_cells {rows cols : Nat} {c : Nat × Nat} : c ∈ cells rows cols ↔ c.1 < rows ∧ c.2 < cols := by
  obtain ⟨a, b⟩ := c
  simp only [cells, List.mem_flatMap, List.mem_map, List.mem_range, Prod.mk.injEq]
  constructor
  · rintro ⟨a', ha, b', hb, rfl, rfl⟩; exact ⟨ha, hb⟩
  · rintro ⟨ha, hb⟩; exact ⟨a, ha, b, hb, rfl, rfl⟩

theorem label_inj {cols a b c d : Nat} (hb : b < cols) (hd : d < cols) (h : a * cols + b = c * cols + d) :
    a = c ∧ b = d := by
  have h1 : (a * cols + b) / cols = a := by
    rw [Nat.mul_comm, Nat.mul_add_div (by omega), Nat.div_eq_of_lt hb, Nat.add_zero]
  have h2 : (c * cols + d) / cols = c := by
    rw [Nat.mul_comm, Nat.mul_add_div (by omega), Nat.div_eq_of_lt hd, Nat.add_zero]
  have h3 : a = c := by rw [← h1, ← h2, h]
  subst h3
  exact ⟨rfl, by omega⟩

theorem pos_of_mul {a b : Nat} (h : 9 ≤ a * b) : 0 < a ∧ 0 < b := by
  constructor
  · apply Nat.pos_of_ne_zero; rintro rfl; simp at h
  · apply Nat.pos_of_ne_zero; rintro rfl; simp at h

/-- The offsets that a criterion accepts from a cell. -/
def accepts (crit : Criterion) (r : Nat) (p : Nat × Nat) (dx dy : Int) : Prop :=
  dx.natAbs ≤ r ∧ dy.natAbs ≤ r ∧ crit ((p.1 : Int) + dx) ((p.2 : Int) + dy) p.1 p.2 r (p.1 + 1) = true

/-- The 2D adjacency matrix for any criterion. -/
theorem grid_ok {crit : Criterion} {rows cols r : Nat} (h9 : 9 ≤ rows * cols) :
    ∃ M, (cells rows cols).foldlM (cellStep crit rows cols r) (zeroMatrix (rows * cols)) = .ok M ∧
      Square M (rows * cols) ∧
      ∀ a b c d, a < rows → b < cols → c < rows → d < cols →
        (TorusReach rows cols (accepts crit r (a, b)) (a, b) (c, d) →
          entry M (a * cols + b) (c * cols + d) = some 1) ∧
        (¬ TorusReach rows cols (accepts crit r (a, b)) (a, b) (c, d) →
          entry M (a * cols + b) (c * cols + d) = some 0) := by
  obtain ⟨hrow, hcol⟩ := pos_of_mul h9
  have hstep : cellStep crit rows cols r = fun M c => (cellWrites crit rows cols r c).foldlM setOne M := by
    funext M c; exact cellStep_eq hrow hcol M c
  have hlab : ∀ p : Int × Int, torusLabel rows cols p < rows * cols := fun p =>
    label_lt (toNat_emod_lt hrow _) (toNat_emod_lt hcol _)
  obtain ⟨M, h, hs, he⟩ := writes_ok (n := rows * cols) ((cells rows cols).flatMap (cellWrites crit rows cols r))
    (by
      intro p hp
      simp only [List.mem_flatMap, cellWrites, List.mem_map] at hp
      obtain ⟨c, hc, q, hq, rfl⟩ := hp
      rw [mem_cells] at hc
      refine ⟨label_lt hc.1 hc.2, ?_⟩
      simp only
      rw [pyIndex_natCast (hlab q)]; simp) (zeroMatrix_square _)
  refine ⟨M, ?_, hs, ?_⟩
  · rw [hstep, ← foldlM_flatMap']; exact h
  · intro a b c d ha hb hc hd
    have hiff : (∃ p ∈ (cells rows cols).flatMap (cellWrites crit rows cols r),
        p.1 = a * cols + b ∧ pyIndex (rows * cols) p.2 = some (c * cols + d)) ↔
        TorusReach rows cols (accepts crit r (a, b)) (a, b) (c, d) := by
      constructor
      · rintro ⟨p, hp, hpa, hpk⟩
        simp only [List.mem_flatMap, cellWrites, List.mem_map] at hp
        obtain ⟨⟨a', b'⟩, hc', q, hq, rfl⟩ := hp
        rw [mem_cells] at hc'
        simp only at hpa hpk hq hc'
        obtain ⟨rfl, rfl⟩ := label_inj hc'.2 hb hpa
        rw [pyIndex_natCast (hlab q)] at hpk
        simp only [Option.some.injEq] at hpk
        obtain ⟨hx, hy⟩ := label_inj (toNat_emod_lt hcol _) hd hpk
        rw [mem_points] at hq
        refine ⟨q.1 - a', q.2 - b', ⟨hq.1, hq.2.1, ?_⟩, ?_, ?_⟩
        · simp only
          have e1 : (a' : Int) + (q.1 - a') = q.1 := by omega
          have e2 : (b' : Int) + (q.2 - b') = q.2 := by omega
          rw [e1, e2]; exact hq.2.2
        · have e1 : (a' : Int) + (q.1 - a') = q.1 := by omega
          have := Int.emod_nonneg q.1 (b := (rows : Int)) (by omega)
          simp only; rw [e1]; omega
        · have e2 : (b' : Int) + (q.2 - b') = q.2 := by omega
          have := Int.emod_nonneg q.2 (b := (cols : Int)) (by omega)
          simp only; rw [e2]; omega
      · rintro ⟨dx, dy, ⟨h1, h2, h3⟩, h4, h5⟩
        refine ⟨(a * cols + b, ((c * cols + d : Nat) : Int)), ?_, rfl, pyIndex_natCast (label_lt hc hd)⟩
        simp only [List.mem_flatMap, cellWrites, List.mem_map]
        refine ⟨(a, b), mem_cells.2 ⟨ha, hb⟩, ((a : Int) + dx, (b : Int) + dy), ?_, ?_⟩
        · rw [mem_points]
          refine ⟨?_, ?_, h3⟩ <;> simp only <;> omega
        · simp only [torusLabel] at h4 h5 ⊢
          rw [h4, h5]; simp
    obtain ⟨h1, h2⟩ := he (a * cols + b) (c * cols + d)
    rw [hiff] at h1 h2
    exact ⟨h1, fun hno => by rw [h2 hno, zeroMatrix_entry (label_lt ha hb) (label_lt hc hd)]⟩

theorem accepts_moore {r : Nat} {p : Nat × Nat} : accepts mooreCrit r p = MooreOffset r := by
  funext dx dy
  apply propext
  simp only [accepts, mooreCrit, MooreOffset, Bool.and_eq_true, decide_eq_true_eq]
  omega

theorem accepts_vonNeumann {r : Nat} {p : Nat × Nat} : accepts vonNeumannCrit r p = VonNeumannOffset r := by
  funext dx dy
  apply propext
  simp only [accepts, vonNeumannCrit, VonNeumannOffset, decide_eq_true_eq]
  omega

theorem accepts_hex {r : Nat} {p : Nat × Nat} : accepts hexCrit r p = HexOffset p.1 r := by
  funext dx dy
  apply propext
  simp only [accepts, hexCrit, vonNeumannCrit, HexOffset, Bool.or_eq_true, decide_eq_true_eq]
  by_cases h : p.1 % 2 = 1
  · rw [if_pos h, if_pos (by omega)]; simp only [decide_eq_true_eq]; omega
  · rw [if_neg h, if_neg (by omega)]; simp only [decide_eq_true_eq]; omega

end Verif
