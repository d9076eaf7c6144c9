import Verif.Proofs.Universal
import Verif.Proofs.Compress
import Verif.Props.EndToEnd
import Verif.Props.RunRows
/-! # C118: the universal Turing machine of the demo emulates rule 110 -/

namespace Verif
open Spec

/-- The tape of the demo: `b^L a v a^R`, with `a` and `e` for the bits of `v`. -/
def u110Tape (L R : Nat) (v : List Nat) : List Int :=
  List.replicate L 1 ++ 0 :: v.map (fun x : Nat => 4 * (x : Int)) ++ List.replicate R 0

/-- The configurations from this tape, with the head on the first cell after `v`. -/
abbrev u110Run (L R : Nat) (v : List Nat) : Nat → Conf Nat Int := confRun uδ ⟨1, L + 1 + v.length, u110Tape L R v⟩

/-- What the tape shows when it shows row `k` of the automaton. -/
def u110Row (L R : Nat) (v : List Nat) (k : Nat) : List Int :=
  List.replicate (L - k) 1 ++ 0 :: (List.range (v.length + 2 * k)).map (fun (i : Nat) => 4 * (lineEca 110 (onLine v) k ((i : Int) - k) : Int)) ++
    List.replicate (R - k) 0

theorem rowConf_tape (L R : Nat) (v : List Nat) (k : Nat) (hk : k ≤ L) :
    rowConf L R v k = ⟨1, L + 1 + v.length + k, u110Row L R v k⟩ := by
  unfold rowConf zconf
  have e : (rowAt v k).map enc = (List.range (v.length + 2 * k)).map (fun (i : Nat) => 4 * (lineEca 110 (onLine v) k ((i : Int) - k) : Int)) := by
    apply List.ext_getElem?
    intro i
    rw [List.getElem?_map, List.getElem?_map]
    rcases Nat.lt_or_ge i (v.length + 2 * k) with h | h
    · have hl : i < (rowAt v k).length := by rw [rowAt_length]; exact h
      have := rowAt_line v k i h
      rw [List.getElem?_eq_getElem hl, Option.getD_some] at this
      rw [List.getElem?_range h, List.getElem?_eq_getElem hl, Option.map_some, Option.map_some, enc, this]
    · rw [List.getElem?_eq_none (by rw [rowAt_length]; exact h), List.getElem?_eq_none (by simpa using h)]
      rfl
  have e1 : ((rowAt v k).reverse.map enc ++ 0 :: List.replicate (L - k) 1).reverse = List.replicate (L - k) 1 ++ 0 :: (rowAt v k).map enc := by
    simp [List.map_reverse]
  have e2 : ((rowAt v k).reverse.map enc ++ 0 :: List.replicate (L - k) 1).length = L + 1 + v.length + k := by
    simp [rowAt_length]; omega
  rw [e1, e2, e]
  unfold u110Row
  simp

theorem u110_start (L R : Nat) (v : List Nat) : rowConf L R v 0 = ⟨1, L + 1 + v.length, u110Tape L R v⟩ := by
  unfold rowConf zconf
  have e1 : ((rowAt v 0).reverse.map enc ++ 0 :: List.replicate (L - 0) 1).reverse = List.replicate L 1 ++ 0 :: (rowAt v 0).map enc := by
    simp [List.map_reverse]
  have e2 : ((rowAt v 0).reverse.map enc ++ 0 :: List.replicate (L - 0) 1).length = L + 1 + v.length := by
    simp [rowAt]; omega
  rw [e1, e2]
  rfl

theorem u110_rowConf (L R : Nat) (v : List Nat) (hv : ∀ x ∈ v, x < 2) : ∀ k : Nat, k ≤ L → k + 1 ≤ R →
    u110Run L R v (rowTime v.length k) = rowConf L R v k
  | 0, _, _ => by
    rw [u110_start]
    show confRun _ _ (0 * _) = _
    rw [Nat.zero_mul]
    rfl
  | k + 1, h1, h2 => by
    have ih := u110_rowConf L R v hv k (by omega) (by omega)
    have hs := row_step L R v hv k h1 h2
    show confRun _ _ _ = _
    rw [rowTime_succ, confRun_add]
    rw [show confRun uδ ⟨1, L + 1 + v.length, u110Tape L R v⟩ (rowTime v.length k) = rowConf L R v k from ih]
    exact confRun_leads hs.1

/-- C118.  For every word `v` of bits and every `k` up to the numbers of `b`s on the left and `a`s on the right (minus one), after
`k (2 |v| + 2 k + 3)` steps the tape shows row `k` of rule 110 from `v` (in the middle of zeros), the head is `k` cells to the right
of its first place, in its first state. -/
theorem C118_rows (L R : Nat) (v : List Nat) (hv : ∀ x ∈ v, x < 2) (k : Nat) (hL : k ≤ L) (hR : k + 1 ≤ R) :
    u110Run L R v (k * (2 * v.length + 2 * k + 3)) = ⟨1, L + 1 + v.length + k, u110Row L R v k⟩ := by
  rw [← rowConf_tape L R v k hL]
  exact u110_rowConf L R v hv k hL hR

theorem u110_total (L R : Nat) (v : List Nat) (hv : ∀ x ∈ v, x < 2) (hR : 1 ≤ R) : ∀ t : Nat,
    tmStep uδ (u110Run L R v t) = some (u110Run L R v (t + 1)) ∧ (u110Run L R v t).state ∈ [1, 2] := by
  have hδ : ∀ q : Nat, q ∈ [1, 2] → ∀ s : Int, s ∈ ([0, 1, 2, 3, 4] : List Int) → ∃ x ∈ uδ q s,
      x.1 ∈ [1, 2] ∧ x.2.1 ∈ ([0, 1, 2, 3, 4] : List Int) ∧ (x.2.2 = 0 ∨ x.2.2 = 1 ∨ x.2.2 = 2) := by
    decide
  intro t
  refine (confRun_total (δ := uδ) (Good := fun q => q ∈ [1, 2]) (Fine := fun s => s ∈ ([0, 1, 2, 3, 4] : List Int))
    ?_ (by decide : (1 : Nat) ∈ [1, 2]) ?_ ?_ t)
  · intro q s hq hs
    obtain ⟨⟨q', s', d⟩, h1, h2, h3, h4⟩ := hδ q hq s hs
    exact ⟨q', s', d, h1, h2, h3, h4⟩
  · intro s hs
    simp only [u110Tape, List.mem_append, List.mem_replicate, List.mem_cons, List.mem_map] at hs
    rcases hs with (⟨_, rfl⟩ | rfl | ⟨x, hx, rfl⟩) | ⟨_, rfl⟩
    · decide
    · decide
    · have := hv x hx
      have h2 : x = 0 ∨ x = 1 := by omega
      rcases h2 with rfl | rfl <;> decide
    · decide
  · simp only [u110Tape, List.length_append, List.length_replicate, List.length_cons, List.length_map]
    omega

/-- C118.  The times at which the head is further to the right than ever before are exactly those of the rows. -/
theorem C118_records (L R : Nat) (v : List Nat) (hv : ∀ x ∈ v, x < 2) (K T : Nat) (hL : K + 1 ≤ L) (hR : K + 2 ≤ R)
    (h1 : K * (2 * v.length + 2 * K + 3) < T) (h2 : T ≤ (K + 1) * (2 * v.length + 2 * (K + 1) + 3)) :
    records (fun t => (u110Run L R v t).pos) T = (List.range (K + 1)).map (fun k => k * (2 * v.length + 2 * k + 3)) := by
  have hrow := u110_rowConf L R v hv
  have hpos : ∀ k, k ≤ K → (u110Run L R v (rowTime v.length k)).pos = L + 1 + v.length + k := by
    intro k hk
    rw [hrow k (by omega) (by omega), rowConf_tape L R v k (by omega)]
  have hlt : ∀ k, rowTime v.length k < rowTime v.length (k + 1) := by
    intro k
    rw [rowTime_succ]; omega
  have hle : ∀ j k, j ≤ k → rowTime v.length j ≤ rowTime v.length k := by
    intro j k h
    induction h with
    | refl => exact Nat.le_refl _
    | step _ ih => exact Nat.le_of_lt (Nat.lt_of_le_of_lt ih (hlt _))
  have f0 : (u110Run L R v 0).pos = L + 1 + v.length := rfl
  refine records_of (g := rowTime v.length) (fun k hk => Nat.lt_of_le_of_lt (hle k K hk) h1) (fun k _ => hlt k)
    (by show 0 * _ = 0; rw [Nat.zero_mul]) (by show 0 < (u110Run L R v 0).pos; rw [f0]; omega) ?_ ?_
  · intro k hk
    show (u110Run L R v (rowTime v.length k)).pos = (u110Run L R v 0).pos + k
    rw [hpos k hk, f0]
  · intro k hk t hkt htT hnext
    show (u110Run L R v t).pos ≤ (u110Run L R v 0).pos + k
    have hs := row_step L R v hv k (by omega) (by omega)
    have htk : t < rowTime v.length (k + 1) := by
      rcases Nat.lt_or_ge k K with h | h
      · exact hnext h
      · have : k = K := by omega
        subst this
        exact Nat.lt_of_lt_of_le htT h2
    obtain ⟨j, rfl⟩ := Nat.exists_eq_add_of_le hkt
    rw [rowTime_succ] at htk
    have := hs.2 j (by omega)
    rw [f0]
    show (confRun uδ _ _).pos ≤ _
    rw [confRun_add, show confRun uδ ⟨1, L + 1 + v.length, u110Tape L R v⟩ (rowTime v.length k) = rowConf L R v k from
      hrow k (by omega) (by omega)]
    omega

theorem u110_records (L R : Nat) (v : List Nat) (hv : ∀ x ∈ v, x < 2) (K T : Nat) (hL : K + 1 ≤ L) (hR : K + 2 ≤ R)
    (h1 : K * (2 * v.length + 2 * K + 3) < T) (h2 : T ≤ (K + 1) * (2 * v.length + 2 * (K + 1) + 3)) :
    (records (fun t => (u110Run L R v t).pos) T).map (fun t => (u110Run L R v t).tape) =
      (List.range (K + 1)).map (u110Row L R v) := by
  rw [C118_records L R v hv K T hL hR h1 h2, List.map_map]
  apply List.map_congr_left
  intro k hk
  have := List.mem_range.1 hk
  show (u110Run L R v (k * (2 * v.length + 2 * k + 3))).tape = _
  rw [C118_rows L R v hv k (by omega) (by omega)]

section
variable {κ : Type} [DecidableEq κ] {W : Type} [DecidableEq W]

/-- C118, demo 1c.  The head-centric machine runs for `T` steps and the tapes kept by the demo are the rows of rule 110. -/
theorem C118_head (L R : Nat) (v : List Nat) (hv : ∀ x ∈ v, x < 2) (K T : Nat) (hL : K + 1 ≤ L) (hR : K + 2 ≤ R)
    (h1 : K * (2 * v.length + 2 * K + 3) < T) (h2 : T ≤ (K + 1) * (2 * v.length + 2 * (K + 1) + 3))
    (cfg : Config Nat Int (Nat × Int) Int (HeadTM Int) κ) (h : HeadCall cfg universalTable .scalar (some (T : Int)) none) (hnat : cfg.natLabel = id)
    (u : HeadTM Int) (conds : List (Nat × Int))
    (hi : headInit (u110Tape L R v) 1 ((L + 1 + v.length : Nat) : Int) none (some (T : Int)) = .ok (u, conds))
    (r : Nat) (w : World Nat Int (HeadTM Int)) (hr : w.heap[r]? = some headNetwork) (hwu : w.user = u) (fuel : Nat) (hf : T ≤ fuel) (str : Nat → W) :
    ∃ res tapes ann kept, evolve fuel cfg (some (.list conds)) r w = .ok res ∧
      headActivitiesForPlotting str res.world.user.tapes ((List.range res.states.length).map (res.acts cfg)) = .ok (tapes, ann) ∧
      compress (str 1) (str 2) tapes 0 0 ann = .ok ((List.range (K + 1)).map (u110Row L R v), kept) ∧ kept.length = K + 1 := by
  have htot := u110_total L R v hv (by omega)
  have hcomp : Computation universalTable.rule? (u110Run L R v) T := by
    refine ⟨?_, fun t _ => (htot t).1⟩
    show L + 1 + v.length < (u110Tape L R v).length
    simp only [u110Tape, List.length_append, List.length_replicate, List.length_cons, List.length_map]
    omega
  obtain ⟨res, ann, e1, e2, e3⟩ := C83_head universalTable (u110Tape L R v) 1 (L + 1 + v.length) none (some (T : Int)) cfg .scalar h u conds hi hnat
    (u110Run L R v) T (by omega) rfl hcomp (fun _ _ _ _ => rfl)
    (by
      intro t ht hs
      rcases hs with hs | ⟨_, hs⟩
      · have := Option.some.inj hs; omega
      · cases hs)
    (Or.inl (congrArg some (by omega))) r w hr hwu fuel hf str
  refine ⟨res, _, ann, (records (fun t => (u110Run L R v t).pos) T).map (fun t => ann[t]?.getD []), e1, e2, ?_, ?_⟩
  · rw [compress_records e3 (fun t ht => (computation_pos hcomp t ht).2 ▸ (computation_pos hcomp t ht).1) 1 2 (fun t _ => by simpa using (htot t).2),
      u110_records L R v hv K T hL hR h1 h2]
  · rw [C118_records L R v hv K T hL hR h1 h2]
    simp

/-- C118, demo 2c.  The tape-centric machine. -/
theorem C118_tape {I : Type} (L R : Nat) (v : List Nat) (hv : ∀ x ∈ v, x < 2) (K T : Nat) (hL : K + 1 ≤ L) (hR : K + 2 ≤ R)
    (h1 : K * (2 * v.length + 2 * K + 3) < T) (h2 : T ≤ (K + 1) * (2 * v.length + 2 * (K + 1) + 3))
    (cfg : Config Nat Int Int I (TapeTM Nat) κ) (h : TapeCall cfg universalTable T) (hnat : cfg.natLabel = id)
    (N : Net Nat Int) (hN : tapeNetwork (u110Tape L R v).length = .ok N) (r : Nat) (w : World Nat Int (TapeTM Nat)) (hr : w.heap[r]? = some N)
    (hwu : w.user = tapeInit 1 (L + 1 + v.length)) (fuel : Nat) (hf : T ≤ fuel) (str : Nat → W) :
    ∃ res ann kept, evolve fuel cfg (some (.list (u110Tape L R v))) r w = .ok res ∧
      tapeHeadActivities str (u110Tape L R v).length res.world.user.history ((List.range res.states.length).map (res.acts cfg)) = .ok ann ∧
      compress (str 1) (str 2) (activitiesOverTime (fun a b => decide (a ≤ b)) ((List.range res.states.length).map (res.acts cfg))) 0 0 ann =
        .ok ((List.range (K + 1)).map (u110Row L R v), kept) ∧ kept.length = K + 1 := by
  have htot := u110_total L R v hv (by omega)
  have hlen : (u110Tape L R v).length = L + 1 + v.length + R := by
    simp only [u110Tape, List.length_append, List.length_replicate, List.length_cons, List.length_map]
    omega
  have hcomp : Computation universalTable.rule? (u110Run L R v) T := by
    refine ⟨?_, fun t _ => (htot t).1⟩
    show L + 1 + v.length < (u110Tape L R v).length
    omega
  obtain ⟨res, ann, e1, e2, e3⟩ := C83_tape universalTable _ (by omega) (u110Tape L R v) rfl 1 (L + 1 + v.length) cfg T (by omega) h hnat
    (u110Run L R v) rfl hcomp N hN r w hr hwu fuel hf str
  obtain ⟨res', f1, f2, f3, _⟩ := C53_tape_centric universalTable _ (by omega) (u110Tape L R v) rfl 1 (L + 1 + v.length) cfg T (by omega) h hnat
    (u110Run L R v) rfl hcomp N hN r w hr hwu fuel hf
  rw [e1] at f1
  cases f1
  have hlen' : ∀ t, t < T → (u110Run L R v t).tape.length = (u110Tape L R v).length := fun t ht => (computation_pos hcomp t ht).2
  have hshow : ShowsRun cfg res T (u110Tape L R v).length (fun t x => (u110Run L R v t).tape[x]?.getD 0) := by
    refine ⟨f2, fun t ht => ?_⟩
    obtain ⟨d, d1, d2, d3⟩ := f3 t ht
    refine ⟨d, d1, d2, fun x hx => ?_⟩
    have hxl : x < (u110Run L R v t).tape.length := by rw [hlen' t ht]; exact hx
    rw [d3 x hx]
    simp only [List.getElem?_eq_getElem hxl, Option.getD_some]
  have hacts : activitiesOverTime (fun a b => decide (a ≤ b)) ((List.range res.states.length).map (res.acts cfg)) =
      (List.range T).map (fun t => (u110Run L R v t).tape) := by
    rw [f2, C72_run_nat (by omega) hshow]
    apply List.map_congr_left
    intro t ht
    have := hlen' t (List.mem_range.1 ht)
    apply List.ext_getElem
    · simp [this]
    · intro i g1 g2
      simp only [List.getElem_map, List.getElem_range, List.getElem?_eq_getElem g2, Option.getD_some]
  refine ⟨res, ann, (records (fun t => (u110Run L R v t).pos) T).map (fun t => ann[t]?.getD []), e1, e2, ?_, ?_⟩
  · rw [hacts, compress_records e3 (fun t ht => (computation_pos hcomp t ht).2 ▸ (computation_pos hcomp t ht).1) 1 2
      (fun t _ => by simpa using (htot t).2), u110_records L R v hv K T hL hR h1 h2]
  · rw [C118_records L R v hv K T hL hR h1 h2]
    simp

end

/-- Rule 110 on the ring agrees with rule 110 on the line until the pattern reaches cell 0. -/
theorem ring_line (n x0 : Nat) (v : List Nat) (hn : x0 + v.length < n) : ∀ (k : Nat), k ≤ x0 → ∀ x : Nat, x < n →
    eca n 110 (fun y => onLine v ((y : Int) - x0)) k x = lineEca 110 (onLine v) k ((x : Int) - x0)
  | 0, _, x, _ => rfl
  | k + 1, hk, x, hx => by
    have ih := ring_line n x0 v hn k (by omega)
    rw [eca, lineEca, ih x hx, ih _ (Nat.mod_lt _ (by omega)), ih _ (Nat.mod_lt _ (by omega))]
    have e1 : lineEca 110 (onLine v) k ((((x + n - 1) % n : Nat) : Int) - x0) = lineEca 110 (onLine v) k ((x : Int) - x0 - 1) := by
      rcases Nat.eq_zero_or_pos x with h | h
      · subst h
        rw [Nat.mod_eq_of_lt (by omega), line_support v k _ (by omega), line_support v k _ (by omega)]
      · rw [show x + n - 1 = (x - 1) + n by omega, Nat.add_mod_right, Nat.mod_eq_of_lt (by omega)]
        congr 1
        omega
    have e2 : lineEca 110 (onLine v) k ((((x + 1) % n : Nat) : Int) - x0) = lineEca 110 (onLine v) k ((x : Int) - x0 + 1) := by
      rcases Nat.lt_or_ge (x + 1) n with h | h
      · rw [Nat.mod_eq_of_lt h]
        congr 1
        omega
      · have : x + 1 = n := by omega
        rw [this, Nat.mod_self, line_support v k _ (by omega), line_support v k _ (by omega)]
    rw [e1, e2]

/-- C118.  The rows are those that `evolve` itself computes with `nks_ca_rule(110)`: on every ring with room for the pattern, for
every `k` before it reaches the first cell, cell `x` of state `k` is the bit shown by row `k` at the corresponding cell of the tape. -/
theorem C118_same {I σ κ : Type} [DecidableEq κ] (L R : Nat) (v : List Nat) (hv : ∀ x ∈ v, x < 2) (n x0 : Nat) (hn : x0 + v.length < n) (hn3 : 3 ≤ n)
    (cfg : Config Nat Int Int I σ κ) (T : Nat) (hT : 1 ≤ T) (hTx : T ≤ x0 + 1) (h : cfg.Ordinary (nksCaRule 110) T) (N : Net Nat Int)
    (hN : cellularAutomaton n 1 true = .ok N) (r : Nat) (w : World Nat Int σ) (hr : w.heap[r]? = some N) (init : Option (Conds Nat Int))
    (hlen : (initDict cfg init).length = n) (h0 : ∀ x, x < n → (initDict cfg init).get? x = some (onLine v ((x : Int) - x0) : Int))
    (fuel : Nat) (hf : T ≤ fuel) :
    ∃ res, evolve fuel cfg init r w = .ok res ∧ res.states.length = T ∧
      ∀ k, k < T → k ≤ L → ∃ d, res.acts cfg k = some d ∧ ∀ x b, x < n → d.get? x = some b → ∀ j : Nat, j < v.length + 2 * k → x + k = x0 + j →
        (u110Row L R v k)[L - k + 1 + j]? = some (4 * b) := by
  obtain ⟨res, e1, e2, e3⟩ := C46_elementary_ca n 110 hn3 (by decide) cfg T hT h N hN r w hr init (fun y => onLine v ((y : Int) - x0)) (by
      intro x _
      show onLine v _ < 2
      unfold onLine
      split
      · cases hg : v[((x : Int) - x0).toNat]? with
        | none => decide
        | some y => exact hv y (List.mem_of_getElem? hg)
      · decide) hlen h0 fuel hf
  refine ⟨res, e1, e2, fun k hk hkL => ?_⟩
  obtain ⟨d, d1, _, d3⟩ := e3 k hk
  refine ⟨d, d1, fun x b hx hb j hj hxj => ?_⟩
  have hb' := d3 x hx
  rw [hb] at hb'
  have hb2 := Option.some.inj hb'
  simp only [ring_line n x0 v hn k (show k ≤ x0 by omega) x hx] at hb2
  unfold u110Row
  rw [List.getElem?_append_left (by simp; omega), List.getElem?_append_right (by simp; omega), List.length_replicate,
    show L - k + 1 + j - (L - k) = j + 1 by omega, List.getElem?_cons_succ, List.getElem?_map, List.getElem?_range hj, Option.map_some, hb2]
  rw [show (x : Int) - x0 = (j : Int) - k by omega]

/-! ### Examples -/

/-- The first rows of rule 110 from a single 1. -/
example : (List.range 5).map (u110Row 4 5 [1]) =
    [[1, 1, 1, 1, 0, 4, 0, 0, 0, 0, 0], [1, 1, 1, 0, 4, 4, 0, 0, 0, 0, 0], [1, 1, 0, 4, 4, 4, 0, 0, 0, 0, 0],
     [1, 0, 4, 4, 0, 4, 0, 0, 0, 0, 0], [0, 4, 4, 4, 4, 4, 0, 0, 0, 0, 0]] := by decide +kernel
/-- The tape of the second run of the demo, its limit and the number of rows kept. -/
example : u110Tape 50 51 [1] = List.replicate 50 1 ++ [0, 4] ++ List.replicate 51 0 ∧ 48 * (2 * 1 + 2 * 48 + 3) < 5000 ∧
    5000 ≤ 49 * (2 * 1 + 2 * 49 + 3) := by decide
/-- Without room on the left the emulation breaks: the head falls off the end of the tape. -/
theorem C118_needs_room : (u110Run 0 5 [1] 7).tape ≠ u110Row 0 5 [1] 1 := by decide +kernel

def Ex.uCfg (maxT : Option Int) : Config Nat Int (Nat × Int) Int (HeadTM Int) Unit :=
  { Ex.headCfg maxT none with rule := some (headRule universalTable none) }
/-- Demo 1c, second run. -/
example : ∃ res tapes ann kept, evolve 5000 (Ex.uCfg (some 5000)) (some (.list [((1 : Nat), (52 : Int))])) 0
      ⟨[headNetwork], ⟨[u110Tape 50 51 [1]], 52, false⟩⟩ = .ok res ∧
      headActivitiesForPlotting toString res.world.user.tapes ((List.range res.states.length).map (res.acts (Ex.uCfg (some 5000)))) = .ok (tapes, ann) ∧
      compress "1" "2" tapes 0 0 ann = .ok ((List.range 49).map (u110Row 50 51 [1]), kept) ∧ kept.length = 49 :=
  C118_head 50 51 [1] (by decide) 48 5000 (by decide) (by decide) (by decide) (by decide) (Ex.uCfg (some 5000))
    ⟨rfl, rfl, rfl, rfl, rfl, rfl, rfl⟩ rfl ⟨[u110Tape 50 51 [1]], 52, false⟩ [(1, 52)] rfl 0
    ⟨[headNetwork], ⟨[u110Tape 50 51 [1]], 52, false⟩⟩ rfl rfl 5000 (by decide) toString
/-- Demo 2c, second run. -/
example : ∃ N res ann kept, tapeNetwork 103 = .ok N ∧
      evolve 5000 { Ex.tapeCfg 5000 with rule := some (tapeRule universalTable) } (some (.list (u110Tape 50 51 [1]))) 0 ⟨[N], tapeInit 1 52⟩ = .ok res ∧
      compress "1" "2" (activitiesOverTime (fun a b => decide (a ≤ b))
        ((List.range res.states.length).map (res.acts { Ex.tapeCfg 5000 with rule := some (tapeRule universalTable) }))) 0 0 ann =
        .ok ((List.range 49).map (u110Row 50 51 [1]), kept) := by
  obtain ⟨N, _, hN, _⟩ := C43_left_to_right 103 1 (by omega) (by omega)
  obtain ⟨res, ann, kept, h1, _, h3, _⟩ := C118_tape 50 51 [1] (by decide) 48 5000 (by decide) (by decide) (by decide) (by decide)
    { Ex.tapeCfg 5000 with rule := some (tapeRule universalTable) } ⟨rfl, rfl, rfl, rfl, rfl, rfl, rfl⟩ rfl N hN 0 ⟨[N], tapeInit 1 52⟩ rfl rfl 5000 (by decide) (toString : Nat → String)
  exact ⟨N, res, ann, kept, hN, h1, h3⟩
/-- The automaton on a ring of 8 cells from a single 1 at cell 5, up to row 4. -/
example : ∃ N res, cellularAutomaton 8 1 true = .ok N ∧
    evolve 5 ({ Ex.base with rule := some (pureRule (nksCaRule 110)), input := .timesteps 5 } : Config Nat Int Int Int (List Int) Unit)
      (some (.list [0, 0, 0, 0, 0, 1, 0, 0])) 0 ⟨[N], []⟩ = .ok res ∧ res.states.length = 5 := by
  obtain ⟨N, _, hN, _⟩ := C43_left_to_right 8 1 (by omega) (by omega)
  obtain ⟨res, h1, h2, _⟩ := C118_same 4 6 [1] (by decide) 8 5 (by decide) (by decide)
    ({ Ex.base with rule := some (pureRule (nksCaRule 110)), input := .timesteps 5 } : Config Nat Int Int Int (List Int) Unit) 5 (by decide) (by decide)
    ⟨rfl, rfl, rfl, rfl, rfl, rfl, rfl⟩ N hN 0 ⟨[N], []⟩ rfl (some (.list [0, 0, 0, 0, 0, 1, 0, 0])) rfl (by decide) 5 (by decide)
  exact ⟨N, res, hN, h1, h2⟩

end Verif
