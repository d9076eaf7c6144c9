import Verif.Proofs.Langton
import Verif.Proofs.LangtonWindow
import Verif.Props.Examples
/-! # Langton's loops: C81, C82 -/

namespace Verif
open Spec

/-- **C81.** If there are positions for all `n` loops and every cell of every loop has a valid index, `init_loops` returns the
`rows * cols` states row by row; each cell holds what the last loop that covers it puts there, 0 if none does. -/
theorem C81_init_loops (rows cols n : Nat) (rowL colL : List Int) (h1 : n ≤ rowL.length) (h2 : n ≤ colL.length)
    (hw : ∀ w ∈ ((rowL.zip colL).take n).flatMap (fun p => loopWrites p.1 p.2),
      (∃ a, Addresses rows w.1 a) ∧ ∃ b, Addresses cols w.2.1 b) :
    ∃ out, initLoops rows cols n rowL colL = .ok out ∧ out.length = rows * cols ∧
      ∀ a b, a < rows → b < cols → ∃ v, out[a * cols + b]? = some v ∧
        LastWrite rows cols (((rowL.zip colL).take n).flatMap (fun p => loopWrites p.1 p.2)) a b v := by
  have hs : Shaped rows cols (List.replicate rows (List.replicate cols 0)) :=
    ⟨by simp, fun r hr => by rw [(List.mem_replicate.1 hr).2]; simp⟩
  obtain ⟨g, g1, g2, g3⟩ := putLoops_ok n hs h1 h2 hw
  obtain ⟨f1, f2⟩ := flatten_get g2
  refine ⟨g.flatten, by unfold initLoops; rw [g1], f1, ?_⟩
  intro a b ha hb
  rw [f2 a b ha hb]
  have h0 : gridAt (List.replicate rows (List.replicate cols 0)) a b = some 0 := by
    unfold gridAt
    simp [ha, hb]
  have := g3 a b
  rw [h0] at this
  rcases this with ⟨e, h⟩ | ⟨bf, w, af, e1, e2, e3, e4⟩
  · exact ⟨0, e, Or.inl ⟨rfl, h⟩⟩
  · exact ⟨w.2.2, e3, Or.inr ⟨bf, w, af, e1, e2.1, e2.2, rfl, e4⟩⟩

/-- **C81.** In all other cases it raises `IndexError`. -/
theorem C81_raises (rows cols n : Nat) (rowL colL : List Int)
    (h : rowL.length < n ∨ colL.length < n ∨ ∃ w ∈ ((rowL.zip colL).take n).flatMap (fun p => loopWrites p.1 p.2),
      ¬ ((∃ a, Addresses rows w.1 a) ∧ ∃ b, Addresses cols w.2.1 b)) :
    initLoops rows cols n rowL colL = .error .indexError := by
  have hs : Shaped rows cols (List.replicate rows (List.replicate cols 0)) :=
    ⟨by simp, fun r hr => by rw [(List.mem_replicate.1 hr).2]; simp⟩
  unfold initLoops
  rw [putLoops_error n hs h]

theorem loopWrites_mem {row col : Int} {w : Int × Int × Nat} (h : w ∈ loopWrites row col) :
    ∃ i j : Nat, i < 10 ∧ j < 15 ∧ w = (row + i, col + j - 1, loopAt i j) := by
  have key : ∀ w ∈ loopWrites 0 0, ∃ i : Fin 10, ∃ j : Fin 15, w = ((i.val : Int), (j.val : Int) - 1, loopAt i j) := by
    decide +kernel
  have hw : (w.1 - row, w.2.1 - col, w.2.2) ∈ loopWrites 0 0 := by
    unfold loopWrites at h ⊢
    simp only [List.mem_flatMap, List.mem_map] at h ⊢
    obtain ⟨p, hp, q, hq, rfl⟩ := h
    refine ⟨p, hp, q, hq, ?_⟩
    simp only [Prod.mk.injEq, and_true]
    omega
  obtain ⟨i, j, e⟩ := key _ hw
  refine ⟨i, j, i.2, j.2, ?_⟩
  obtain ⟨w1, w2, w3⟩ := w
  simp only [Prod.mk.injEq] at e ⊢
  omega

theorem picture_out {P : List (List Nat)} {h w : Nat} (hh : P.length = h) (hw : ∀ r ∈ P, r.length = w) {i j : Nat}
    (ho : h ≤ i ∨ w ≤ j) : (P.getD i []).getD j 0 = 0 := by
  simp only [List.getD_eq_getElem?_getD]
  cases hi : P[i]? with
  | none => rfl
  | some r =>
    obtain ⟨hl, -⟩ := List.getElem?_eq_some_iff.1 hi
    have := hw r (List.mem_of_getElem? hi)
    simp only [Option.getD_some]
    rw [List.getElem?_eq_none_iff.2 (by omega)]; rfl

theorem loopAt_out {i j : Nat} (h : 10 ≤ i ∨ 15 ≤ j) : loopAt i j = 0 := picture_out rfl (by decide) h
theorem motherAt_out {i j : Nat} (h : 15 ≤ i ∨ 10 ≤ j) : motherAt i j = 0 := picture_out rfl (by decide) h

theorem mem_loopWrites {row col : Int} {i j : Nat} (h : loopAt i j ≠ 0) :
    (row + i, col + j - 1, loopAt i j) ∈ loopWrites row col := by
  have hi : i < 10 := Nat.lt_of_not_le fun hn => h (loopAt_out (Or.inl hn))
  have hj : j < 15 := Nat.lt_of_not_le fun hn => h (loopAt_out (Or.inr hn))
  have key : ∀ i : Fin 10, ∀ j : Fin 15, loopAt i j ≠ 0 → ((i.val : Int), (j.val : Int) - 1, loopAt i j) ∈ loopWrites 0 0 := by
    decide +kernel
  have hk := key ⟨i, hi⟩ ⟨j, hj⟩ h
  unfold loopWrites at hk ⊢
  simp only [List.mem_flatMap, List.mem_map] at hk ⊢
  obtain ⟨p, hp, q, hq, e⟩ := hk
  refine ⟨p, hp, q, hq, ?_⟩
  simp only [Prod.mk.injEq] at e ⊢
  omega

theorem addresses_ringDist {n : Nat} {k o : Int} {p d : Nat} (hd : d < n) (hk : k = o + d) :
    Addresses n k p → ringDist n p o = d := by
  rintro ⟨hp, h⟩
  unfold ringDist
  have : ((p : Int) - o) % (n : Int) = d := by
    rcases h with h | h
    · rw [← h, hk, show o + (d : Int) - o = d by omega]
      exact Int.emod_eq_of_lt (by omega) (by omega)
    · rw [← h, hk, show o + (d : Int) + n - o = d + n by omega, Int.add_emod_right]
      exact Int.emod_eq_of_lt (by omega) (by omega)
  rw [this]; rfl

theorem ringDist_addresses {n : Nat} {k o : Int} {p d : Nat} (hp : p < n) (hk : k = o + d) (h1 : -(n : Int) ≤ k)
    (h2 : k < n) (h : ringDist n p o = d) : Addresses n k p := by
  refine ⟨hp, ?_⟩
  unfold ringDist at h
  have h0 : 0 ≤ ((p : Int) - o) % (n : Int) := Int.emod_nonneg _ (by omega)
  have h3 : ((p : Int) - o) % (n : Int) = d := by omega
  have h4 := Int.mul_ediv_add_emod ((p : Int) - o) n
  rw [h3] at h4
  generalize ((p : Int) - o) / (n : Int) = q at h4
  have h5 : k + n * q = p := by omega
  have hq : q = 0 ∨ q = 1 := by
    rcases Int.lt_trichotomy q 0 with hq | hq | hq
    · have : (n : Int) * q ≤ n * (-1) := Int.mul_le_mul_of_nonneg_left (by omega) (by omega)
      omega
    · exact Or.inl hq
    · rcases Int.lt_trichotomy q 1 with h | h | h
      · omega
      · exact Or.inr h
      · have : (n : Int) * 2 ≤ n * q := Int.mul_le_mul_of_nonneg_left (by omega) (by omega)
        omega
  rcases hq with rfl | rfl
  · left; omega
  · right; omega

/-- **C81.** One loop on a grid with at least 10 rows and 15 columns, at a position that may count from the end: `init_loops` returns the
picture of the loop, its row 0 in row `row` and its column 1 in column `col`, wrapped around the grid. -/
theorem C81_one_loop (rows cols : Nat) (row col : Int) (hr : 10 ≤ rows) (hc : 15 ≤ cols) (h1 : -(rows : Int) ≤ row)
    (h2 : row + 9 < rows) (h3 : -(cols : Int) < col) (h4 : col + 13 < cols) :
    ∃ out, initLoops rows cols 1 [row] [col] = .ok out ∧ out.length = rows * cols ∧
      ∀ a b, a < rows → b < cols →
        out[a * cols + b]? = some (loopAt (ringDist rows a row) (ringDist cols b (col - 1))) := by
  have hon : ∀ w ∈ loopWrites row col, (∃ a, Addresses rows w.1 a) ∧ ∃ b, Addresses cols w.2.1 b := by
    intro w hw
    obtain ⟨i, j, hi, hj, rfl⟩ := loopWrites_mem hw
    simp only
    refine ⟨?_, ?_⟩
    · by_cases h : 0 ≤ row + (i : Int)
      · exact ⟨(row + i).toNat, by unfold Addresses; omega⟩
      · exact ⟨(row + i + rows).toNat, by unfold Addresses; omega⟩
    · by_cases h : 0 ≤ col + (j : Int) - 1
      · exact ⟨(col + j - 1).toNat, by unfold Addresses; omega⟩
      · exact ⟨(col + j - 1 + cols).toNat, by unfold Addresses; omega⟩
  have hall : ((([row] : List Int).zip [col]).take 1).flatMap (fun p => loopWrites p.1 p.2) = loopWrites row col := by simp
  obtain ⟨out, o1, o2, o3⟩ := C81_init_loops rows cols 1 [row] [col] (by simp) (by simp) (by rw [hall]; exact hon)
  refine ⟨out, o1, o2, ?_⟩
  intro a b ha hb
  obtain ⟨v, v1, v2⟩ := o3 a b ha hb
  rw [v1, hall] at *
  congr 1
  rcases v2 with ⟨rfl, hno⟩ | ⟨bf, w, af, e1, e2, e3, e4, _⟩
  · apply Classical.byContradiction
    intro hne
    have hm := mem_loopWrites (row := row) (col := col) (Ne.symm hne)
    obtain ⟨i, j, hi, hj, e⟩ := loopWrites_mem hm
    simp only [Prod.mk.injEq] at e
    apply hno _ hm
    exact ⟨ringDist_addresses ha rfl (by simp only; omega) (by simp only; omega) rfl,
      ringDist_addresses (o := col - 1) hb (by simp only; omega) (by simp only; omega) (by simp only; omega) rfl⟩
  · obtain ⟨i, j, hi, hj, rfl⟩ := loopWrites_mem (row := row) (col := col) (w := w) (by rw [e1]; simp)
    simp only at e2 e3 e4
    rw [addresses_ringDist (o := row) (d := i) (by omega) rfl e2,
      addresses_ringDist (o := col - 1) (d := j) (by omega) (by omega) e3]
    exact e4.symm

/-- Two loops that overlap on a 20 × 30 grid, and one whose column index wraps: the hypotheses of C81 hold. -/
example : ∀ w ∈ ((([2, 5] : List Int).zip [3, 0]).take 2).flatMap (fun p => loopWrites p.1 p.2),
    (∃ a, Addresses 20 w.1 a) ∧ ∃ b, Addresses 30 w.2.1 b := by
  have h : ∀ w ∈ ((([2, 5] : List Int).zip [3, 0]).take 2).flatMap (fun p => loopWrites p.1 p.2),
      -20 ≤ w.1 ∧ w.1 < 20 ∧ -30 ≤ w.2.1 ∧ w.2.1 < 30 := by decide +kernel
  have ad : ∀ (n : Nat) (k : Int), -n ≤ k → k < n → ∃ a, Addresses n k a := by
    intro n k h1 h2
    by_cases h : 0 ≤ k
    · exact ⟨k.toNat, by unfold Addresses; omega⟩
    · exact ⟨(k + n).toNat, by unfold Addresses; omega⟩
  intro w hw
  obtain ⟨h1, h2, h3, h4⟩ := h w hw
  exact ⟨ad 20 _ h1 h2, ad 30 _ h3 h4⟩
/-- At column 0 the sheath on the left wraps to the last column. -/
example : (initLoops 10 15 1 [0] [0]).toOption.map (fun o => (o.drop 15).take 15) =
    some [1, 7, 0, 1, 4, 0, 1, 4, 2, 0, 0, 0, 0, 0, 2] := by decide +kernel
/-- A loop that does not fit: `IndexError`. -/
example : initLoops 10 15 1 [1] [3] = .error .indexError := by decide +kernel

/-! ## Replication -/

theorem ringDist_lt {n : Nat} {x o : Int} (hn : 0 < n) : ringDist n x o < n := by
  unfold ringDist
  have h1 := Int.emod_nonneg (x - o) (b := (n : Int)) (by omega)
  have h2 := Int.emod_lt_of_pos (x - o) (b := (n : Int)) (by omega)
  omega

theorem ringDist_add {n : Nat} {x o : Int} {k : Nat} (hn : 0 < n) (hk : k ≤ n) :
    ringDist n x (o + k) = if k ≤ ringDist n x o then ringDist n x o - k else ringDist n x o + n - k := by
  unfold ringDist
  have h1 := Int.emod_nonneg (x - o) (b := (n : Int)) (by omega)
  have h2 := Int.emod_lt_of_pos (x - o) (b := (n : Int)) (by omega)
  have h3 : (x - (o + k)) % (n : Int) = ((x - o) % n - k) % n := by
    rw [show x - (o + (k : Int)) = (x - o) - k by omega, Int.emod_sub_emod]
  rw [h3]
  generalize (x - o) % (n : Int) = y at *
  split
  · rw [Int.emod_eq_of_lt (by omega) (by omega)]; omega
  · have : (y - k) % (n : Int) = y + n - k := by
      rw [← Int.add_emod_right, show y - (k : Int) + n = y + n - k by omega]
      exact Int.emod_eq_of_lt (by omega) (by omega)
    rw [this]; omega

theorem ringDist_zero {n a : Nat} {o : Int} (hn : 0 < n) : (a + ringDist n 0 o) % n = ringDist n a o := by
  unfold ringDist
  have h1 := Int.emod_nonneg (0 - o) (b := (n : Int)) (by omega)
  have h2 := Int.emod_nonneg ((a : Int) - o) (b := (n : Int)) (by omega)
  apply Int.ofNat_inj.1
  rw [Int.natCast_emod, Int.natCast_add, Int.toNat_of_nonneg h1, Int.toNat_of_nonneg h2, Int.add_emod_emod]
  congr 1
  omega

theorem langtonStart_at (i j : Nat) : winAt langtonStart i j = if 6 ≤ i ∧ 1 ≤ j then loopAt (i - 6) (j - 1) else 0 := by
  have key : ∀ i : Fin 17, ∀ j : Fin 28, winAt langtonStart i j = if 6 ≤ i.val ∧ 1 ≤ j.val then loopAt (i - 6) (j - 1) else 0 := by
    decide +kernel
  by_cases h : i < 17 ∧ j < 28
  · exact key ⟨i, h.1⟩ ⟨j, h.2⟩
  · have hb : bordered 17 28 langtonStart = true := by decide +kernel
    rw [(bordered_spec hb).2.2 i j (by omega)]
    split
    · exact (loopAt_out (by omega)).symm
    · rfl

theorem langtonAfter_at (i j : Nat) : winAt langtonAfter i j =
    if 6 ≤ i ∧ i < 16 ∧ 12 ≤ j ∧ j < 27 then loopAt (i - 6) (j - 12)
    else if 1 ≤ i ∧ 1 ≤ j then motherAt (i - 1) (j - 1) else 0 := by
  have key : ∀ i : Fin 17, ∀ j : Fin 28, winAt langtonAfter i j =
    if 6 ≤ i.val ∧ i.val < 16 ∧ 12 ≤ j.val ∧ j.val < 27 then loopAt (i - 6) (j - 12)
    else if 1 ≤ i.val ∧ 1 ≤ j.val then motherAt (i - 1) (j - 1) else 0 := by
    decide +kernel
  by_cases h : i < 17 ∧ j < 28
  · exact key ⟨i, h.1⟩ ⟨j, h.2⟩
  · have hb : bordered 17 28 langtonAfter = true := by decide +kernel
    rw [(bordered_spec hb).2.2 i j (by omega), if_neg (by omega)]
    split
    · exact (motherAt_out (by omega)).symm
    · rfl

/-- **C82.** On every torus with at least 17 rows and 28 columns, one of Langton's loops at any position for which `init_loops`
returns replicates: `evolve` with the rule table of `LangtonsLoop` (152 timesteps, with or without memoization) meets no
missing neighbourhood, and after 151 steps there is an exact copy of the initial loop eleven columns to the right, beside the
first loop, which has withdrawn its arm and put out a new one upwards; all other cells are empty. -/
theorem C82_replicates {I σ κ : Type} [DecidableEq κ] (rows cols : Nat) (hr : 17 ≤ rows) (hc : 28 ≤ cols) (row col : Int)
    (h1 : -(rows : Int) ≤ row) (h2 : row + 9 < rows) (h3 : -(cols : Int) < col) (h4 : col + 13 < cols)
    (table : Dict (List Nat) Nat) (ht : initRuleTable true langtonRules [] = .ok table)
    (out : List Nat) (hout : initLoops rows cols 1 [row] [col] = .ok out)
    (cfg : Config Nat Int Nat I σ κ) (hord : cfg.Ordinary (ctrblRule table) 152) (hnat : cfg.natLabel = id)
    (N : Net Nat Int) (hN : ctrblNetwork rows cols = .ok N) (r : Nat) (w : World Nat Int σ) (hheap : w.heap[r]? = some N)
    (fuel : Nat) (hf : 152 ≤ fuel) :
    ∃ res d, evolve fuel cfg (some (.list out)) r w = .ok res ∧ res.states.length = 152 ∧ res.acts cfg 151 = some d ∧
      d.length = rows * cols ∧
      ∀ a b, a < rows → b < cols → d.get? (a * cols + b) = some (
        if ringDist rows a row < 10 ∧ ringDist cols b (col + 10) < 15 then
          loopAt (ringDist rows a row) (ringDist cols b (col + 10))
        else motherAt (ringDist rows a (row - 5)) (ringDist cols b (col - 1))) := by
  obtain ⟨out', o1, o2, o3⟩ := C81_one_loop rows cols row col (by omega) (by omega) h1 h2 h3 h4
  rw [hout] at o1
  cases o1
  obtain ⟨table', t1, -, -, t2, t3⟩ := C51_langton
  rw [ht] at t1
  cases t1
  obtain ⟨s, s1, s2, s3, s4⟩ := runWin_seq 151 _ _ langton_run
  have hi : ∀ c t r b l v, look langtonTrie c t r b l = some v → table.get? [c, t, r, b, l] = some v := by
    intro c t r b l v hl
    obtain ⟨p, p1, p2, rfl⟩ := look_ok langtonTrie_ok hl
    exact t2 p p1 _ p2
  have hr0 : 0 < rows := by omega
  have hc0 : 0 < cols := by omega
  have hrun := window_torus (oa := ringDist rows 0 (row - 6)) (ob := ringDist cols 0 (col - 2)) s3 s4
    (fun k => table.get? k) hi t3 hr hc
  obtain ⟨l1, _, l3⟩ := initDict_list hnat out
  have h9 : 9 ≤ rows * cols := by
    have : 17 * 28 ≤ rows * cols := Nat.mul_le_mul hr hc
    omega
  have ea : ∀ a : Nat, ringDist rows a row = if 6 ≤ ringDist rows a (row - 6) then ringDist rows a (row - 6) - 6
      else ringDist rows a (row - 6) + rows - 6 := by
    intro a
    have := ringDist_add (x := a) (o := row - 6) (k := 6) hr0 (by omega)
    rwa [show row - 6 + ((6 : Nat) : Int) = row by omega] at this
  have ea5 : ∀ a : Nat, ringDist rows a (row - 5) = if 1 ≤ ringDist rows a (row - 6) then ringDist rows a (row - 6) - 1
      else ringDist rows a (row - 6) + rows - 1 := by
    intro a
    have := ringDist_add (x := a) (o := row - 6) (k := 1) hr0 (by omega)
    rwa [show row - 6 + ((1 : Nat) : Int) = row - 5 by omega] at this
  have eb : ∀ b : Nat, ringDist cols b (col - 1) = if 1 ≤ ringDist cols b (col - 2) then ringDist cols b (col - 2) - 1
      else ringDist cols b (col - 2) + cols - 1 := by
    intro b
    have := ringDist_add (x := b) (o := col - 2) (k := 1) hc0 (by omega)
    rwa [show col - 2 + ((1 : Nat) : Int) = col - 1 by omega] at this
  have eb10 : ∀ b : Nat, ringDist cols b (col + 10) = if 12 ≤ ringDist cols b (col - 2) then ringDist cols b (col - 2) - 12
      else ringDist cols b (col - 2) + cols - 12 := by
    intro b
    have := ringDist_add (x := b) (o := col - 2) (k := 12) hc0 (by omega)
    rwa [show col - 2 + ((12 : Nat) : Int) = col + 10 by omega] at this
  obtain ⟨res, e1, e2, e3⟩ := C49_run rows cols h9 table cfg 152 (by omega) hord N hN r w hheap (some (.list out))
    (by rw [l1, o2]) _ (by
      intro a b ha hb
      rw [l3 _ (by rw [o2]; exact label_lt ha hb), o3 a b ha hb]
      simp only [ringDist_zero hr0, ringDist_zero hc0, s1, langtonStart_at]
      rw [ea, eb]
      congr 1
      split <;> split <;> split <;> first | rfl | omega | skip
      all_goals exact loopAt_out (by omega)) hrun fuel hf
  obtain ⟨d, d1, d2, d3⟩ := e3 151 (by omega)
  refine ⟨res, d, e1, e2, d1, d2, ?_⟩
  intro a b ha hb
  rw [d3 _ (label_lt ha hb)]
  obtain ⟨q1, q2⟩ := label_div (a := a) hb
  simp only [q1, q2, ringDist_zero hr0, ringDist_zero hc0, s2, langtonAfter_at]
  rw [ea, eb10, ea5, eb]
  have ha' := ringDist_lt (x := a) (o := row - 6) hr0
  have hb' := ringDist_lt (x := b) (o := col - 2) hc0
  generalize ringDist rows a (row - 6) = i at *
  generalize ringDist cols b (col - 2) = j at *
  congr 1
  by_cases hbox : 6 ≤ i ∧ i < 16 ∧ 12 ≤ j ∧ j < 27
  · rw [if_pos hbox, if_pos hbox.1, if_pos hbox.2.2.1, if_pos (by omega)]
  · rw [if_neg hbox]
    have hn : ¬ ((if 6 ≤ i then i - 6 else i + rows - 6) < 10 ∧ (if 12 ≤ j then j - 12 else j + cols - 12) < 15) := by
      split <;> split <;> omega
    rw [if_neg hn]
    by_cases h11 : 1 ≤ i ∧ 1 ≤ j
    · rw [if_pos h11, if_pos h11.1, if_pos h11.2]
    · rw [if_neg h11]
      refine (motherAt_out ?_).symm
      split <;> split <;> omega

/-- The arguments of the example below: an ordinary, memoized call. -/
def loopCfg (table : Dict (List Nat) Nat) : Config Nat Int Nat Int (List Int) Unit :=
  { rule := some (pureRule (ctrblRule table)), input := .timesteps 152, topology := none, perturbation := none, past := [],
    order := .activitiesFirst, copyNetwork := true, compression := false, persistActs := true, persistNet := true,
    memoize := true, key := none, natLabel := id, labelIdx := fun x => some (x : Int), actAttr := fun v => v,
    labelCodec := Ex.natCodec, attrCodec := Ex.intCodec, valCodec := Ex.natCodec }

/-- The demo (`/repo/demos/langtons_loops`): a 75 × 75 torus and a loop at row 40, column 25; memoized.  A cell of the copy and
a cell of the new arm. -/
example : ∃ table N out res d, initRuleTable true langtonRules [] = .ok table ∧ ctrblNetwork 75 75 = .ok N ∧
    initLoops 75 75 1 [40] [25] = .ok out ∧ evolve 152 (loopCfg table) (some (.list out)) 0 ⟨[N], []⟩ = .ok res ∧
    res.acts (loopCfg table) 151 = some d ∧ d.get? (41 * 75 + 40) = some 4 ∧ d.get? (36 * 75 + 32) = some 1 := by
  obtain ⟨table, ht, -⟩ := C51_langton
  obtain ⟨N, _, hN, _⟩ := C49_torus 75 75 (by decide)
  obtain ⟨out, ho, -⟩ := C81_one_loop 75 75 40 25 (by omega) (by omega) (by omega) (by omega) (by omega) (by omega)
  obtain ⟨res, d, h1, -, h3, -, h5⟩ := C82_replicates 75 75 (by omega) (by omega) 40 25 (by omega) (by omega) (by omega)
    (by omega) table ht out ho (loopCfg table) ⟨rfl, rfl, rfl, rfl, rfl, rfl, rfl⟩ rfl N hN 0 ⟨[N], []⟩ rfl 152 (Nat.le_refl _)
  refine ⟨table, N, out, res, d, ht, hN, ho, h1, h3, ?_, ?_⟩
  · rw [h5 41 40 (by omega) (by omega)]; decide
  · rw [h5 36 32 (by omega) (by omega)]; decide

end Verif
