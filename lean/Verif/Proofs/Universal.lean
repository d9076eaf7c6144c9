import Verif.Proofs.Zipper
import Verif.Model.TuringUniversal
import Verif.Spec.Line
/-! # Sweeps of the universal Turing machine -/

namespace Verif
open Spec

section
variable {Q S : Type}

/-- `k` steps lead from `c` to `d`, with the head at most at `B` before each of them. -/
def Sweep (δ : Q → S → Option (Q × S × Int)) (B k : Nat) (c d : Conf Q S) : Prop :=
  Leads δ k c d ∧ ∀ j, j < k → (confRun δ c j).pos ≤ B

theorem Sweep.trans {δ : Q → S → Option (Q × S × Int)} {B j k : Nat} {c d e : Conf Q S} (h : Sweep δ B j c d) (h' : Sweep δ B k d e) :
    Sweep δ B (j + k) c e := by
  refine ⟨h.1.trans h'.1, fun i hi => ?_⟩
  rcases Nat.lt_or_ge i j with hij | hij
  · exact h.2 i hij
  · obtain ⟨m, rfl⟩ := Nat.exists_eq_add_of_le hij
    rw [confRun_add, confRun_leads h.1]
    exact h'.2 m (by omega)

theorem Sweep.refl (δ : Q → S → Option (Q × S × Int)) (B : Nat) (c : Conf Q S) : Sweep δ B 0 c c :=
  ⟨Leads.refl δ c, fun j hj => by omega⟩

theorem Sweep.one {δ : Q → S → Option (Q × S × Int)} {B : Nat} {c d : Conf Q S} (h : tmStep δ c = some d) (hB : c.pos ≤ B) :
    Sweep δ B 1 c d := by
  refine ⟨Leads.one h, fun j hj => ?_⟩
  have : j = 0 := by omega
  subst this
  exact hB

theorem Sweep.cast {δ : Q → S → Option (Q × S × Int)} {B j k : Nat} {c d : Conf Q S} (h : Sweep δ B j c d) (e : j = k) :
    Sweep δ B k c d := e ▸ h

end

/-- The transition function. -/
abbrev uδ : Nat → Int → Option (Nat × Int × Int) := universalTable.rule?

/-- The symbol for a bit. -/
def enc (x : Nat) : Int := 4 * x

/-- The symbol left on a cell by the sweep to the left: `b`, `c` or `d`. -/
def mark (x r : Nat) : Int := if x = r then (if x = 0 then 1 else 2) else 3

/-- The state of the head: 2 between different bits. -/
def between (p x : Nat) : Nat := if p = x then 1 else 2

/-- The symbols left on `w` when the cell to its right has bit `r`. -/
def marks : List Nat → Nat → List Int
  | [], _ => []
  | x :: w, r => mark x (w.headD r) :: marks w r

/-- The bits of the next row on `w`, when `p` and `r` are the bits to its left and right. -/
def nextRow : Nat → List Nat → Nat → List Nat
  | _, [], _ => []
  | p, x :: w, r => ecaRule 110 p x (w.headD r) :: nextRow x w r

theorem marks_snoc (x r : Nat) : ∀ w : List Nat, marks (w ++ [x]) r = marks w x ++ [mark x r]
  | [] => rfl
  | y :: w => by
    have : (w ++ [x]).headD r = w.headD x := by cases w <;> rfl
    rw [List.cons_append, marks, marks_snoc x r w, marks, this]
    rfl

theorem u_left {x p : Nat} (hx : x < 2) (hp : p < 2) : uδ (1 + p) (enc x) = some (1 + x, mark x p, 0) := by
  have : ∀ x, x < 2 → ∀ p, p < 2 → uδ (1 + p) (enc x) = some (1 + x, mark x p, 0) := by decide
  exact this x hx p hp

theorem u_right {p x r : Nat} (hp : p < 2) (hx : x < 2) (hr : r < 2) :
    uδ (between p x) (mark x r) = some (between x r, enc (ecaRule 110 p x r), 2) := by
  have h1 : p = 0 ∨ p = 1 := by omega
  have h2 : x = 0 ∨ x = 1 := by omega
  have h3 : r = 0 ∨ r = 1 := by omega
  rcases h1 with rfl | rfl <;> rcases h2 with rfl | rfl <;> rcases h3 with rfl | rfl <;> decide

theorem zleft_pos {Q S : Type} (q : Q) (a : S) (l r : List S) : (zleft q (a :: l) r).pos = l.length := rfl
theorem zconf_pos {Q S : Type} (q : Q) (l r : List S) : (zconf q l r).pos = l.length := rfl

/-- The sweep to the left over the cells `u`, nearest first. -/
theorem sweep_left (B : Nat) (l : List Int) : ∀ (u : List Nat) (p : Nat) (r : List Int), p < 2 → (∀ x ∈ u, x < 2) → u.length + l.length ≤ B →
    ∃ q, q < 2 ∧ Sweep uδ B u.length (zleft (1 + p) (u.map enc ++ 1 :: l) r) (zleft (1 + q) (1 :: l) (marks u.reverse p ++ r))
  | [], p, r, hp, _, _ => ⟨p, hp, Sweep.refl _ _ _⟩
  | x :: u, p, r, hp, hu, hB => by
    have hx := hu x (List.mem_cons_self ..)
    have h1 : Sweep uδ B 1 (zleft (1 + p) ((x :: u).map enc ++ 1 :: l) r) (zleft (1 + x) (u.map enc ++ 1 :: l) (mark x p :: r)) := by
      apply Sweep.one
      · cases u with
        | nil => exact z_left (u_left hx hp) 1 l r
        | cons a u => exact z_left (u_left hx hp) (enc a) (u.map enc ++ 1 :: l) r
      · rw [List.map_cons, List.cons_append, zleft_pos]
        simp at hB ⊢
        omega
    obtain ⟨q, hq, h2⟩ := sweep_left B l u x (mark x p :: r) hx (fun y hy => hu y (List.mem_cons_of_mem _ hy)) (by simp at hB; omega)
    refine ⟨q, hq, ?_⟩
    rw [List.reverse_cons, marks_snoc, List.append_assoc]
    exact (h1.trans h2).cast (by simp; omega)

theorem headD_lt {w : List Nat} {r : Nat} (hr : r < 2) (hw : ∀ x ∈ w, x < 2) : w.headD r < 2 := by
  cases w with
  | nil => exact hr
  | cons y w => exact hw y (List.mem_cons_self ..)

/-- The sweep to the right over the cells `w`. -/
theorem sweep_right (B r : Nat) (hr : r < 2) {rest : List Int} (hrest : rest ≠ []) : ∀ (w : List Nat) (p : Nat) (l : List Int), p < 2 →
    (∀ x ∈ w, x < 2) → w.length + l.length ≤ B + 1 →
    Sweep uδ B w.length (zconf (between p (w.headD r)) l (marks w r ++ rest))
      (zconf (between (w.getLastD p) r) ((nextRow p w r).reverse.map enc ++ l) rest)
  | [], p, l, _, _, _ => Sweep.refl _ _ _
  | x :: w, p, l, hp, hw, hB => by
    have hx := hw x (List.mem_cons_self ..)
    have hw' : ∀ y ∈ w, y < 2 := fun y hy => hw y (List.mem_cons_of_mem _ hy)
    have h1 : Sweep uδ B 1 (zconf (between p x) l (mark x (w.headD r) :: (marks w r ++ rest)))
        (zconf (between x (w.headD r)) (enc (ecaRule 110 p x (w.headD r)) :: l) (marks w r ++ rest)) := by
      apply Sweep.one
      · exact z_right (u_right hp hx (headD_lt hr hw')) l (by simp [hrest])
      · rw [zconf_pos]; simp at hB; omega
    have h2 := sweep_right B r hr hrest w x (enc (ecaRule 110 p x (w.headD r)) :: l) hx hw' (by simp at hB ⊢; omega)
    have h3 := (h1.trans h2).cast (show 1 + w.length = (x :: w).length by simp; omega)
    rw [show (x :: w).getLastD p = w.getLastD x by cases w <;> rfl, nextRow, List.reverse_cons, List.map_append, List.append_assoc]
    exact h3

theorem nextRow_length (r : Nat) : ∀ (w : List Nat) (p : Nat), (nextRow p w r).length = w.length
  | [], _ => rfl
  | x :: w, p => by rw [nextRow, List.length_cons, nextRow_length r w x, List.length_cons]

theorem eca_lt (R a b c : Nat) : ecaRule R a b c < 2 := Nat.mod_lt _ (by decide)

theorem nextRow_lt (r : Nat) : ∀ (w : List Nat) (p : Nat), ∀ x ∈ nextRow p w r, x < 2
  | [], _, _, h => by cases h
  | y :: w, p, x, h => by
    rw [nextRow, List.mem_cons] at h
    rcases h with rfl | h
    · exact eca_lt ..
    · exact nextRow_lt r w y x h

/-- One row of the emulation: the machine turns `b a v` with the head on the `a` to the right of `v` into `a v'`. -/
theorem u_row (l : List Int) (v : List Nat) (hv : ∀ x ∈ v, x < 2) {rest : List Int} (hrest : rest ≠ []) :
    Sweep uδ (l.length + v.length + 2) (2 * v.length + 5)
      (zconf 1 (v.reverse.map enc ++ 0 :: 1 :: l) (0 :: rest))
      (zconf 1 ((nextRow 0 (0 :: v ++ [0]) 0).reverse.map enc ++ 0 :: l) rest) := by
  have hw : ∀ x ∈ 0 :: v ++ [0], x < 2 := by
    intro x hx
    simp only [List.mem_append, List.mem_cons, List.not_mem_nil, or_false] at hx
    rcases hx with (rfl | hx) | rfl
    · decide
    · exact hv x hx
    · decide
  obtain ⟨q, hq, h1⟩ := sweep_left (l.length + v.length + 2) l (0 :: v ++ [0]).reverse 0 rest (by decide)
    (fun x hx => hw x (List.mem_reverse.1 hx)) (by simp; omega)
  rw [List.reverse_reverse] at h1
  have e1 : zleft (1 + 0) ((0 :: v ++ [0]).reverse.map enc ++ 1 :: l) rest = zconf 1 (v.reverse.map enc ++ 0 :: 1 :: l) (0 :: rest) := by
    rw [List.reverse_append, List.reverse_cons]
    simp [zleft, enc]
  rw [e1] at h1
  have h2 : Sweep uδ (l.length + v.length + 2) 1 (zleft (1 + q) (1 :: l) (marks (0 :: v ++ [0]) 0 ++ rest))
      (zconf 1 (0 :: l) (marks (0 :: v ++ [0]) 0 ++ rest)) := by
    apply Sweep.one
    · refine z_right ?_ l (by simp [hrest])
      have : ∀ q, q < 2 → uδ (1 + q) 1 = some (1, 0, 2) := by decide
      exact this q hq
    · rw [zleft_pos]; omega
  have h3 := sweep_right (l.length + v.length + 2) 0 (by decide) hrest (0 :: v ++ [0]) 0 (0 :: l) (by decide) hw (by simp; omega)
  have e2 : between ((0 :: v ++ [0]).getLastD 0) 0 = 1 := by
    rw [List.getLastD_eq_getLast?, List.getLast?_append]; simp [between]
  rw [e2] at h3
  have e3 : between 0 ((0 :: v ++ [0]).headD 0) = 1 := rfl
  rw [e3] at h3
  exact ((h1.trans h2).trans h3).cast (by simp; omega)

/-- Row `k` of the emulation. -/
def rowAt (v : List Nat) : Nat → List Nat
  | 0 => v
  | k + 1 => nextRow 0 (0 :: rowAt v k ++ [0]) 0

theorem rowAt_length (v : List Nat) : ∀ k : Nat, (rowAt v k).length = v.length + 2 * k
  | 0 => rfl
  | k + 1 => by rw [rowAt, nextRow_length]; simp [rowAt_length v k]; omega

theorem rowAt_lt (v : List Nat) (hv : ∀ x ∈ v, x < 2) : ∀ k : Nat, ∀ x ∈ rowAt v k, x < 2
  | 0 => hv
  | _ + 1 => nextRow_lt _ _ _

/-- The cells of `nextRow`. -/
theorem nextRow_get (r : Nat) : ∀ (w : List Nat) (p i : Nat), i < w.length →
    (nextRow p w r)[i]?.getD 0 = ecaRule 110 ((p :: w)[i]?.getD 0) (w[i]?.getD 0) ((w ++ [r])[i + 1]?.getD 0)
  | [], _, i, h => by cases h
  | x :: w, p, 0, _ => by
    rw [nextRow]
    cases w <;> rfl
  | x :: w, p, i + 1, h => by
    rw [nextRow, List.getElem?_cons_succ, nextRow_get r w x i (Nat.lt_of_succ_lt_succ h)]
    rfl

theorem line_lt (R : Nat) {s : Int → Nat} (hs : ∀ x, s x < 2) : ∀ (t : Nat) (x : Int), lineEca R s t x < 2
  | 0, x => hs x
  | _ + 1, _ => eca_lt ..

theorem rule110_right (a : Nat) : ecaRule 110 a 0 0 = 0 := by
  show 110 / 2 ^ (4 * a) % 2 = 0
  match a with
  | 0 => rfl
  | 1 => rfl
  | a + 2 =>
    rw [Nat.div_eq_of_lt]
    rw [show 4 * (a + 2) = 8 + 4 * a by omega, Nat.pow_add]
    have : 1 ≤ 2 ^ (4 * a) := Nat.one_le_two_pow
    omega

/-- Rule 110 does not spread to the right and spreads by one cell to the left. -/
theorem line_support (v : List Nat) : ∀ (k : Nat) (x : Int), x < -(k : Int) ∨ (v.length : Int) ≤ x → lineEca 110 (onLine v) k x = 0
  | 0, x, h => by
    rw [lineEca, onLine]
    split
    · rcases h with h | h
      · omega
      · rw [List.getElem?_eq_none (by omega)]; rfl
    · rfl
  | k + 1, x, h => by
    rw [lineEca]
    have hc : lineEca 110 (onLine v) k x = 0 := line_support v k x (by omega)
    have hr : lineEca 110 (onLine v) k (x + 1) = 0 := line_support v k (x + 1) (by omega)
    rw [hc, hr]
    rcases h with h | h
    · rw [line_support v k (x - 1) (by omega)]; decide
    · exact rule110_right _

/-- The rows of the emulation are the rows of rule 110. -/
theorem rowAt_line (v : List Nat) : ∀ (k i : Nat), i < v.length + 2 * k →
    (rowAt v k)[i]?.getD 0 = lineEca 110 (onLine v) k ((i : Int) - k)
  | 0, i, h => by
    rw [rowAt, lineEca, onLine, if_pos (by omega)]
    rw [show ((i : Int) - ((0 : Nat) : Int)).toNat = i by omega]
  | k + 1, i, h => by
    rw [rowAt, nextRow_get _ _ _ _ (by simp [rowAt_length]; omega), lineEca]
    have look : ∀ j : Nat, (0 :: 0 :: rowAt v k ++ [0] ++ [0])[j]?.getD 0 = lineEca 110 (onLine v) k ((j : Int) - 2 - k) := by
      intro j
      match j with
      | 0 => exact (line_support v k _ (by omega)).symm
      | 1 => exact (line_support v k _ (by omega)).symm
      | j + 2 =>
        show (rowAt v k ++ [0] ++ [0])[j]?.getD 0 = _
        rcases Nat.lt_or_ge j (v.length + 2 * k) with hj | hj
        · rw [List.append_assoc, List.getElem?_append_left (by rw [rowAt_length]; exact hj), rowAt_line v k j hj]
          congr 1
          omega
        · rw [line_support v k _ (by right; omega), List.append_assoc, List.getElem?_append_right (by rw [rowAt_length]; exact hj)]
          cases h : ([0] ++ [0] : List Nat)[j - (rowAt v k).length]? with
          | none => rfl
          | some y =>
            have := List.mem_of_getElem? h
            simp at this
            simp [this]
    have g1 : (0 :: (0 :: rowAt v k ++ [0]))[i]?.getD 0 = lineEca 110 (onLine v) k (((i : Int) - ((k + 1 : Nat) : Int)) - 1) := by
      have := look i
      rw [List.getElem?_append_left (by simp [rowAt_length]; omega)] at this
      rw [show (0 :: (0 :: rowAt v k ++ [0])) = 0 :: 0 :: rowAt v k ++ [0] from rfl, this]
      congr 1; omega
    have g2 : (0 :: rowAt v k ++ [0])[i]?.getD 0 = lineEca 110 (onLine v) k ((i : Int) - ((k + 1 : Nat) : Int)) := by
      have := look (i + 1)
      rw [List.getElem?_append_left (by simp [rowAt_length]; omega)] at this
      rw [show (0 :: rowAt v k ++ [0])[i]? = (0 :: 0 :: rowAt v k ++ [0])[i + 1]? from rfl, this]
      congr 1; omega
    have g3 : (0 :: rowAt v k ++ [0] ++ [0])[i + 1]?.getD 0 = lineEca 110 (onLine v) k (((i : Int) - ((k + 1 : Nat) : Int)) + 1) := by
      have := look (i + 2)
      rw [show (0 :: rowAt v k ++ [0] ++ [0])[i + 1]? = (0 :: 0 :: rowAt v k ++ [0] ++ [0])[i + 2]? from rfl, this]
      congr 1; omega
    rw [g1, g2, g3]

/-- The time of row `k`. -/
def rowTime (m k : Nat) : Nat := k * (2 * m + 2 * k + 3)

theorem rowTime_succ (m k : Nat) : rowTime m (k + 1) = rowTime m k + (2 * (m + 2 * k) + 5) := by
  unfold rowTime
  rw [Nat.add_mul, Nat.one_mul, show 2 * m + 2 * (k + 1) + 3 = (2 * m + 2 * k + 3) + 2 by omega, Nat.mul_add]
  omega

/-- The configuration at row `k`. -/
def rowConf (L R : Nat) (v : List Nat) (k : Nat) : Conf Nat Int :=
  zconf 1 ((rowAt v k).reverse.map enc ++ 0 :: List.replicate (L - k) 1) (List.replicate (R - k) 0)

theorem row_step (L R : Nat) (v : List Nat) (hv : ∀ x ∈ v, x < 2) (k : Nat) (hL : k + 1 ≤ L) (hR : k + 2 ≤ R) :
    Sweep uδ (L + 1 + v.length + k) (2 * (v.length + 2 * k) + 5) (rowConf L R v k) (rowConf L R v (k + 1)) := by
  have h := u_row (List.replicate (L - (k + 1)) 1) (rowAt v k) (rowAt_lt v hv k) (rest := List.replicate (R - (k + 1)) 0)
    (by rw [Ne, List.replicate_eq_nil_iff]; omega)
  rw [rowAt_length, List.length_replicate] at h
  have e1 : (1 : Int) :: List.replicate (L - (k + 1)) 1 = List.replicate (L - k) 1 := by
    rw [← List.replicate_succ, show L - (k + 1) + 1 = L - k by omega]
  have e2 : (0 : Int) :: List.replicate (R - (k + 1)) 0 = List.replicate (R - k) 0 := by
    rw [← List.replicate_succ, show R - (k + 1) + 1 = R - k by omega]
  rw [e1, e2] at h
  rw [show L - (k + 1) + (v.length + 2 * k) + 2 = L + 1 + v.length + k by omega] at h
  exact h

end Verif
