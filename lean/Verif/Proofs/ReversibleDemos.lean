import Verif.Model.ReversibleDemos
import Verif.Props.SecondOrder
import Verif.Proofs.Additive
import Verif.Proofs.LocalRuns
import Verif.Props.Symmetry
/-! # Second-order automata: mirror images, sums, backgrounds; rule 122 on whole rows -/

namespace Verif
open Spec

theorem ecaTwo_congr {n R : Nat} (hn : 0 < n) {p p' s s' : Nat → Nat} (hp : ∀ x, x < n → p x = p' x) (hs : ∀ x, x < n → s x = s' x) :
    ∀ t x, x < n → ecaTwo n R p s t x = ecaTwo n R p' s' t x
  | 0, x, hx => hp x hx
  | 1, x, hx => hs x hx
  | t + 2, x, hx => by
    unfold ecaTwo
    rw [ecaTwo_congr hn hp hs (t + 1) _ (Nat.mod_lt _ hn), ecaTwo_congr hn hp hs (t + 1) x hx, ecaTwo_congr hn hp hs (t + 1) _ (Nat.mod_lt _ hn),
      ecaTwo_congr hn hp hs t x hx]

/-- A rule that is its own mirror image. -/
theorem ecaTwo_mirror {n R m : Nat} (hn : 3 ≤ n) (hR : R < 256) (hm : m < n) (hmir : mirrorRule R = R) {p p' s s' : Nat → Nat}
    (bp : BinaryRow n p) (bs : BinaryRow n s)
    (hp : ∀ x, x < n → p' x = p (reflectCell n m x)) (hs : ∀ x, x < n → s' x = s (reflectCell n m x)) :
    ∀ t x, x < n → ecaTwo n R p' s' t x = ecaTwo n R p s t (reflectCell n m x)
  | 0, x, hx => hp x hx
  | 1, x, hx => hs x hx
  | t + 2, x, hx => by
    have hlt := ecaTwo_lt (R := R) bp bs (t + 1)
    have hr : reflectCell n m x < n := Nat.mod_lt _ (by omega)
    have e1 : reflectCell n m ((x + n - 1) % n) = (reflectCell n m x + 1) % n := by
      have := reflect_place (r := 1) (k := 0) (by omega : 2 * 1 + 1 ≤ n) hm hx (by omega)
      rw [show x + n - 1 + 0 = x + n - 1 from rfl] at this
      rw [this, show reflectCell n m x + n - 1 + (2 * 1 - 0) = reflectCell n m x + 1 + n by omega, Nat.add_mod_right]
    have e2 : reflectCell n m ((x + 1) % n) = (reflectCell n m x + n - 1) % n := by
      have := reflect_place (r := 1) (k := 2) (by omega : 2 * 1 + 1 ≤ n) hm hx (by omega)
      rw [show x + n - 1 + 2 = x + 1 + n by omega, Nat.add_mod_right] at this
      rw [this]
      rfl
    have hloc := mirror_local ⟨R, hR⟩
    simp only [hmir] at hloc
    unfold ecaTwo
    rw [ecaTwo_mirror hn hR hm hmir bp bs hp hs (t + 1) _ (Nat.mod_lt _ (by omega)), ecaTwo_mirror hn hR hm hmir bp bs hp hs (t + 1) x hx,
      ecaTwo_mirror hn hR hm hmir bp bs hp hs (t + 1) _ (Nat.mod_lt _ (by omega)), ecaTwo_mirror hn hR hm hmir bp bs hp hs t x hx, e1, e2]
    congr 2
    exact hloc ⟨_, hlt _ (Nat.mod_lt _ (by omega))⟩ ⟨_, hlt _ hr⟩ ⟨_, hlt _ (Nat.mod_lt _ (by omega))⟩

/-- An additive rule. -/
theorem ecaTwo_sum {n R : Nat} (hn : 0 < n) (h : AdditiveOn n R) {p p' s s' : Nat → Nat} (bp : BinaryRow n p) (bp' : BinaryRow n p')
    (bs : BinaryRow n s) (bs' : BinaryRow n s') :
    ∀ t x, x < n → ecaTwo n R (fun y => (p y + p' y) % 2) (fun y => (s y + s' y) % 2) t x = (ecaTwo n R p s t x + ecaTwo n R p' s' t x) % 2
  | 0, x, hx => rfl
  | 1, x, hx => rfl
  | t + 2, x, hx => by
    have ih := ecaTwo_sum hn h bp bp' bs bs' (t + 1)
    have ih' := ecaTwo_sum hn h bp bp' bs bs' t x hx
    have hstep := h _ _ (ecaTwo_lt (R := R) bp bs (t + 1)) (ecaTwo_lt (R := R) bp' bs' (t + 1)) x hx
    simp only [eca] at hstep
    have e1 : ecaTwo n R (fun y => (p y + p' y) % 2) (fun y => (s y + s' y) % 2) (t + 2) x =
      ((ecaRule R (ecaTwo n R p s (t + 1) ((x + n - 1) % n)) (ecaTwo n R p s (t + 1) x) (ecaTwo n R p s (t + 1) ((x + 1) % n)) +
        ecaRule R (ecaTwo n R p' s' (t + 1) ((x + n - 1) % n)) (ecaTwo n R p' s' (t + 1) x) (ecaTwo n R p' s' (t + 1) ((x + 1) % n))) % 2 +
        (ecaTwo n R p s t x + ecaTwo n R p' s' t x) % 2) % 2 := by
      rw [ecaTwo, ih _ (Nat.mod_lt _ hn), ih x hx, ih _ (Nat.mod_lt _ hn), ih', hstep]
    rw [e1]
    show _ = (((_ + _) % 2) + ((_ + _) % 2)) % 2
    omega

/-- A background of zeros. -/
theorem ecaTwo_quiet {n R : Nat} (hn : 3 ≤ n) (hR : R % 2 = 0) {p s : Nat → Nat} :
    ∀ t x, x < n → QuietAround n p 0 x t → QuietAround n s 0 x t → ecaTwo n R p s t x = 0 ∧ ecaTwo n R p s (t + 1) x = 0 := by
  intro t
  induction t with
  | zero =>
    intro x hx h1 h2
    have e : ringCell n x 0 = x := by
      unfold ringCell
      rw [Int.add_zero, Int.emod_eq_of_lt (by omega) (by omega)]
      rfl
    have a := h1 0 (by simp) (by simp)
    have b := h2 0 (by simp) (by simp)
    rw [e] at a b
    exact ⟨a, b⟩
  | succ t ih =>
    intro x hx h1 h2
    have near : ∀ i : Int, -1 ≤ i → i ≤ 1 → ecaTwo n R p s t (ringCell n x i) = 0 ∧ ecaTwo n R p s (t + 1) (ringCell n x i) = 0 := by
      intro i hi1 hi2
      refine ih _ (ringCell_lt (by omega) i) ?_ ?_
      · intro j hj1 hj2
        rw [ringCell_add (by omega)]
        exact h1 _ (by omega) (by omega)
      · intro j hj1 hj2
        rw [ringCell_add (by omega)]
        exact h2 _ (by omega) (by omega)
    have el : ringCell n x (-1) = (x + n - 1) % n := by
      have := ringCell_place (r := 1) (x := x) (k := 0) (by omega : 2 * 1 + 1 ≤ n)
      simpa using this.symm
    have ec : ringCell n x 0 = x := by
      unfold ringCell
      rw [Int.add_zero, Int.emod_eq_of_lt (by omega) (by omega)]
      rfl
    have er : ringCell n x 1 = (x + 1) % n := by
      have := ringCell_place (r := 1) (x := x) (k := 2) (by omega : 2 * 1 + 1 ≤ n)
      rw [show x + n - 1 + 2 = x + 1 + n by omega, Nat.add_mod_right] at this
      simpa using this.symm
    have n1 := near (-1) (by omega) (by omega)
    have n2 := near 0 (by omega) (by omega)
    have n3 := near 1 (by omega) (by omega)
    rw [el] at n1
    rw [ec] at n2
    rw [er] at n3
    refine ⟨n2.2, ?_⟩
    rw [show t + 1 + 1 = t + 2 from rfl, ecaTwo, n1.2, n2.2, n3.2, n2.1]
    simp [ecaRule, hR]

/-! ## Rule 122 on rows written as numbers -/

/-- The number whose binary digits are the row. -/
def Packed (n w : Nat) (s : Nat → Nat) : Prop := w < 2 ^ n ∧ ∀ x, x < n → s x = (w.testBit x).toNat

def packStep (n p c : Nat) : Nat :=
  ((((c <<< 1 ||| c >>> (n - 1)) ^^^ (c >>> 1 ||| (c % 2) <<< (n - 1))) |||
    ((c <<< 1 ||| c >>> (n - 1)) &&& (c >>> 1 ||| (c % 2) <<< (n - 1)) &&& (c ^^^ (2 ^ n - 1)))) ^^^ p) % 2 ^ n

def packTwo (n : Nat) (st : Nat × Nat) : Nat → Nat × Nat
  | 0 => st
  | t + 1 => let u := packTwo n st t; (u.2, packStep n u.1 u.2)

theorem pack_left {n c x : Nat} (hn : 2 ≤ n) (hc : c < 2 ^ n) (hx : x < n) :
    (c <<< 1 ||| c >>> (n - 1)).testBit x = c.testBit ((x + n - 1) % n) := by
  rw [Nat.testBit_or, Nat.testBit_shiftLeft, Nat.testBit_shiftRight]
  by_cases h0 : x = 0
  · subst h0
    rw [Nat.mod_eq_of_lt (by omega)]
    simp
  · rw [show x + n - 1 = x - 1 + n by omega, Nat.add_mod_right, Nat.mod_eq_of_lt (by omega),
      Nat.testBit_lt_two_pow (Nat.lt_of_lt_of_le hc (Nat.pow_le_pow_right (by omega) (by omega : n ≤ n - 1 + x)))]
    simp
    omega

theorem pack_right {n c x : Nat} (hn : 2 ≤ n) (hc : c < 2 ^ n) (hx : x < n) :
    (c >>> 1 ||| (c % 2) <<< (n - 1)).testBit x = c.testBit ((x + 1) % n) := by
  rw [Nat.testBit_or, Nat.testBit_shiftLeft, Nat.testBit_shiftRight]
  by_cases h0 : x = n - 1
  · subst h0
    rw [show n - 1 + 1 = n by omega, Nat.mod_self, show 1 + (n - 1) = n by omega, Nat.testBit_lt_two_pow hc]
    simp [Nat.testBit_zero]
  · rw [Nat.mod_eq_of_lt (show x + 1 < n by omega), Nat.add_comm 1 x]
    have : ¬ (n - 1 ≤ x) := by omega
    simp [this]

theorem rule122_bits : ∀ a b d e : Bool,
    ((((a ^^ d) || ((a && d) && (b ^^ true))) ^^ e).toNat) = (ecaRule 122 a.toNat b.toNat d.toNat + e.toNat) % 2 := by decide

theorem packed_step {n wp wc : Nat} {p c : Nat → Nat} (hn : 2 ≤ n) (hp : Packed n wp p) (hc : Packed n wc c) :
    Packed n (packStep n wp wc) (fun x => (ecaRule 122 (c ((x + n - 1) % n)) (c x) (c ((x + 1) % n)) + p x) % 2) := by
  refine ⟨Nat.mod_lt _ (Nat.two_pow_pos n), ?_⟩
  intro x hx
  have hx1 : (x + n - 1) % n < n := Nat.mod_lt _ (by omega)
  have hx2 : (x + 1) % n < n := Nat.mod_lt _ (by omega)
  show (ecaRule 122 (c ((x + n - 1) % n)) (c x) (c ((x + 1) % n)) + p x) % 2 = _
  rw [hc.2 _ hx1, hc.2 x hx, hc.2 _ hx2, hp.2 x hx, ← rule122_bits]
  unfold packStep
  rw [Nat.testBit_mod_two_pow, Nat.testBit_xor, Nat.testBit_or, Nat.testBit_xor, Nat.testBit_and, Nat.testBit_and, Nat.testBit_xor,
    pack_left hn hc.1 hx, pack_right hn hc.1 hx, Nat.testBit_two_pow_sub_one]
  simp [hx]

theorem packed_two {n wp ws : Nat} {p s : Nat → Nat} (hn : 2 ≤ n) (hp : Packed n wp p) (hs : Packed n ws s) :
    ∀ t, Packed n (packTwo n (wp, ws) t).1 (ecaTwo n 122 p s t) ∧ Packed n (packTwo n (wp, ws) t).2 (ecaTwo n 122 p s (t + 1)) := by
  intro t
  induction t with
  | zero => exact ⟨hp, hs⟩
  | succ t ih =>
    refine ⟨ih.2, ?_⟩
    exact packed_step hn ih.1 ih.2

theorem packTwo_add (n : Nat) (st : Nat × Nat) (k : Nat) : ∀ t, packTwo n st (k + t) = packTwo n (packTwo n st k) t
  | 0 => rfl
  | t + 1 => by
    show (let u := packTwo n st (k + t); (u.2, packStep n u.1 u.2)) = _
    rw [packTwo_add n st k t]
    rfl

/-- Every 77th pair of rows of the evolution from the ordered row. -/
def checkpoints : List (Nat × Nat) :=
  [(1152920405095219200, 1152920405095219200),
   (58028531575222508804161536, 29014265787611164207841280),
   (757348504659059051303129861913, 379351250788513717989400394034),
   (457064471568394940841984, 914128663882664380465152),
   (1265669456255490573125020129791, 1266660028241870161673211556863),
   (847535277496675098708088526037, 204261466523634811816169177748),
   (1266452645367530228308450493439, 1265254690504975298255818859007),
   (908117917809358385117778224877, 983200954446724163789388935523),
   (36035944256177713755407311584, 1228307885204851719863567151135),
   (44625248233570290789222236304, 398646388978807224298598662410),
   (240927792473059299842734810380, 891292142430913590520018993101),
   (601837303163780830084443820446, 340577729952161098060710994722),
   (273843320930281710178786783980, 1210118832734565260162239923759),
   (1184083801305195573482527521015, 1011229913247086294801663585331)]

theorem checkpoints_ok : ∀ i : Fin 13, packTwo 100 (checkpoints[i.1]?.getD (0, 0)) 77 = checkpoints[i.1 + 1]?.getD (0, 0) := by
  decide +kernel

theorem pack_checkpoints : ∀ i, i ≤ 13 → packTwo 100 (checkpoints[0]?.getD (0, 0)) (77 * i) = checkpoints[i]?.getD (0, 0)
  | 0, _ => rfl
  | i + 1, h => by
    rw [show 77 * (i + 1) = 77 * i + 77 by omega, packTwo_add, pack_checkpoints i (by omega)]
    exact checkpoints_ok ⟨i, by omega⟩

end Verif
