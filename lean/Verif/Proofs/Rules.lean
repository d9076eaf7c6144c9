import Verif.Spec.Rules
import Verif.Proofs.Digits
import Verif.Proofs.Memo
/-! # Lemmas about the rules -/

namespace Verif

/-- Value of bits, least significant first. -/
def leVal : List Int → Nat
  | [] => 0
  | b :: bs => (if b ≠ 0 then 1 else 0) + 2 * leVal bs

theorem foldl_bits : ∀ (l : List Int) (s init : Nat),
    (l.zipIdx s).foldl (fun (total : Nat) (p : Int × Nat) => if p.1 ≠ 0 then total + (1 <<< p.2) else total) init
      = init + 2 ^ s * leVal l := by
  intro l
  induction l with
  | nil => intro s init; simp [leVal]
  | cons b l ih =>
    intro s init
    rw [List.zipIdx_cons, List.foldl_cons, ih, leVal, Nat.shiftLeft_eq]
    have e : 2 ^ (s + 1) * leVal l = 2 ^ s * (2 * leVal l) := by rw [Nat.pow_succ, Nat.mul_assoc]
    by_cases h : b ≠ 0
    · simp only [if_pos h, Nat.one_mul, Nat.mul_add, Nat.mul_one, e]; omega
    · simp only [if_neg h, Nat.zero_add, e]

theorem bitsToInt_eq (bits : List Int) : bitsToInt bits = leVal bits.reverse := by
  unfold bitsToInt; rw [foldl_bits]; simp

theorem leVal_lt : ∀ l : List Int, leVal l < 2 ^ l.length := by
  intro l
  induction l with
  | nil => simp [leVal]
  | cons b l ih =>
    rw [leVal, List.length_cons, Nat.pow_succ]
    split <;> omega

theorem bitsToInt_lt (bits : List Int) : bitsToInt bits < 2 ^ bits.length := by
  rw [bitsToInt_eq]; have := leVal_lt bits.reverse; rwa [List.length_reverse] at this

theorem foldr_leVal : ∀ l : List Int, Binary l → l.foldr (fun b a => 2 * a + b) (0 : Int) = (leVal l : Int) := by
  intro l
  induction l with
  | nil => intro _; rfl
  | cons b l ih =>
    intro h
    rw [List.foldr_cons, ih (fun v hv => h v (List.mem_cons_of_mem _ hv)), leVal]
    rcases h b (List.mem_cons_self ..) with rfl | rfl <;> simp <;> omega

theorem binary_reverse {l : List Int} (h : Binary l) : Binary l.reverse := fun v hv => h v (List.mem_reverse.1 hv)

theorem bitsToInt_numeral {bits : List Int} (h : Binary bits) : (bitsToInt bits : Int) = numeral bits := by
  rw [bitsToInt_eq, ← foldr_leVal _ (binary_reverse h), List.foldr_reverse]; rfl

theorem intToBits_neg {x : Int} (h : x < 0) (d : Nat) : intToBits x d = .error .valueError := by
  simp [intToBits, h]

theorem intToBits_eq (x d : Nat) :
    intToBits (x : Int) d = if d < (digitsBE 2 x).length then .error .valueError
      else .ok ((List.replicate (d - (digitsBE 2 x).length) 0 ++ digitsBE 2 x).map (fun (n : Nat) => (n : Int))) := by
  unfold intToBits
  rw [if_neg (by omega)]
  simp only [Int.toNat_natCast, List.length_map, List.map_append, List.map_replicate]
  rfl

theorem intToBits_ok {x d : Nat} (hd : 1 ≤ d) (hx : x < 2 ^ d) :
    intToBits (x : Int) d
      = .ok ((List.replicate (d - (digitsBE 2 x).length) 0 ++ digitsBE 2 x).map (fun (n : Nat) => (n : Int))) := by
  rw [intToBits_eq, if_neg]
  have := (length_digitsBE (Nat.le_refl 2) hd x).2 hx
  omega

theorem digitsBE_pos_length (k n : Nat) (hn : n ≤ n) : 1 ≤ (digitsBE k n).length := by
  unfold digitsBE
  split
  · simp
  · rename_i h
    obtain ⟨m, rfl⟩ : ∃ m, n = m + 1 := ⟨n - 1, by omega⟩
    rw [digitsLE_pos h]; simp

theorem intToBits_error {x d : Nat} (h : d = 0 ∨ 2 ^ d ≤ x) : intToBits (x : Int) d = .error .valueError := by
  rw [intToBits_eq, if_pos]
  have h1 := digitsBE_pos_length 2 x (Nat.le_refl _)
  rcases Nat.eq_zero_or_pos d with h0 | h0
  · omega
  · apply Decidable.byContradiction
    intro hc
    have := (length_digitsBE (Nat.le_refl 2) h0 x).1 (by omega)
    omega

theorem pyGet_ofNat {α : Type} {xs : List α} {p : Nat} {v : α} (h : xs[p]? = some v) : pyGet xs (p : Int) = .ok v := by
  obtain ⟨hp, hv⟩ := List.getElem?_eq_some_iff.1 h
  rw [pyGet_natCast xs hp, hv]

theorem binaryCaRule_ok {L A I : Type} (R : Nat) (nks : Bool) (ctx : NodeCtx L A Int I)
    (hR : R < 2 ^ 2 ^ ctx.neighbourActs.length) :
    binaryCaRule (R : Int) nks ctx
      = .ok (digit 2 R (if nks then bitsToInt ctx.neighbourActs
          else 2 ^ ctx.neighbourActs.length - 1 - bitsToInt ctx.neighbourActs) : Nat) := by
  unfold binaryCaRule
  have hpos : 1 ≤ 2 ^ ctx.neighbourActs.length := Nat.pow_pos (by omega)
  have hlt := bitsToInt_lt ctx.neighbourActs
  simp only [intToBits_ok hpos hR]
  cases nks with
  | true =>
    have e : ((2 ^ ctx.neighbourActs.length : Nat) : Int) - 1 - (bitsToInt ctx.neighbourActs : Int)
        = ((2 ^ ctx.neighbourActs.length - 1 - bitsToInt ctx.neighbourActs : Nat) : Int) := by omega
    simp only [if_true]
    rw [e, pyGet_ofNat]
    rw [List.getElem?_map, getElem?_digitsBE_pad (Nat.le_refl 2) hR (by omega)]
    simp only [Option.map_some, digit]
    congr 5
    omega
  | false =>
    simp only [Bool.false_eq_true, if_false]
    rw [pyGet_ofNat]
    rw [List.getElem?_map, getElem?_digitsBE_pad (Nat.le_refl 2) hR (by omega)]
    simp only [Option.map_some, digit]

theorem binaryCaRule_error {L A I : Type} (R : Int) (nks : Bool) (ctx : NodeCtx L A Int I)
    (hR : R < 0 ∨ (2 ^ 2 ^ ctx.neighbourActs.length : Nat) ≤ R) :
    binaryCaRule R nks ctx = .error .valueError := by
  unfold binaryCaRule
  rcases hR with h | h
  · simp only [intToBits_neg h]
  · obtain ⟨R', rfl⟩ : ∃ R' : Nat, R = (R' : Int) := Int.eq_ofNat_of_zero_le (Int.le_trans (Int.natCast_nonneg _) h)
    simp only [intToBits_error (Or.inr (Int.ofNat_le.1 h))]

/-! ## Bits back and forth -/

theorem leVal_digits : ∀ (d x : Nat), x < 2 ^ d →
    leVal (((List.range d).map (fun i => x / 2 ^ i % 2)).map (fun (n : Nat) => (n : Int))) = x := by
  intro d
  induction d with
  | zero => intro x hx; have : x = 0 := by simpa using hx
            subst this; rfl
  | succ d ih =>
    intro x hx
    rw [List.range_succ_eq_map, List.map_cons, List.map_cons, leVal, List.map_map, List.map_map]
    have hc : ((List.range d).map (((fun (n : Nat) => (n : Int)) ∘ (fun i => x / 2 ^ i % 2)) ∘ Nat.succ))
        = ((List.range d).map (fun i => (x / 2) / 2 ^ i % 2)).map (fun (n : Nat) => (n : Int)) := by
      rw [List.map_map]
      apply List.map_congr_left
      intro i _
      simp only [Function.comp, Nat.succ_eq_add_one]
      rw [Nat.div_div_eq_div_mul, Nat.pow_succ, Nat.mul_comm 2]
    have hb : x / 2 < 2 ^ d := by rw [Nat.pow_succ] at hx; omega
    rw [hc, ih _ hb]
    simp only [Nat.pow_zero, Nat.div_one]
    split <;> omega

theorem bitsToInt_pad {d x : Nat} (hd : 1 ≤ d) (hx : x < 2 ^ d) :
    bitsToInt ((List.replicate (d - (digitsBE 2 x).length) 0 ++ digitsBE 2 x).map (fun (n : Nat) => (n : Int))) = x := by
  rw [bitsToInt_eq, digitsBE_pad (Nat.le_refl 2) hd hx, ← List.map_reverse, List.reverse_reverse, leVal_digits d x hx]

theorem digits_leVal : ∀ (l : List Int), Binary l →
    ((List.range l.length).map (fun i => leVal l / 2 ^ i % 2)).map (fun (n : Nat) => (n : Int)) = l := by
  intro l
  induction l with
  | nil => intro _; rfl
  | cons b l ih =>
    intro h
    rw [List.length_cons, List.range_succ_eq_map, List.map_cons, List.map_cons, List.map_map, List.map_map]
    have hb := h b (List.mem_cons_self ..)
    congr 1
    · simp only [Nat.pow_zero, Nat.div_one, leVal]
      rcases hb with rfl | rfl <;> simp <;> omega
    · conv => rhs; rw [← ih (fun v hv => h v (List.mem_cons_of_mem _ hv))]
      rw [List.map_map]
      apply List.map_congr_left
      intro i _
      simp only [Function.comp, Nat.succ_eq_add_one]
      have e : leVal (b :: l) / 2 ^ (i + 1) = leVal l / 2 ^ i := by
        rw [Nat.pow_succ, Nat.mul_comm, ← Nat.div_div_eq_div_mul, leVal]
        congr 1
        split <;> omega
      rw [e]

theorem intToBits_bitsToInt {bits : List Int} (h : Binary bits) (hne : bits ≠ []) :
    intToBits (bitsToInt bits : Int) bits.length = .ok bits := by
  have hl : 1 ≤ bits.length := List.length_pos_iff.2 hne
  rw [intToBits_ok hl (bitsToInt_lt bits), digitsBE_pad (Nat.le_refl 2) hl (bitsToInt_lt bits), bitsToInt_eq,
    List.map_reverse]
  have := digits_leVal bits.reverse (binary_reverse h)
  rw [List.length_reverse] at this
  rw [this, List.reverse_reverse]

/-! ## Totalistic rules -/

theorem sum_bounds {k : Nat} (hk : 1 ≤ k) : ∀ vs : List Int, Colours k vs →
    0 ≤ vs.sum ∧ vs.sum ≤ ((vs.length * (k - 1) : Nat) : Int) := by
  intro vs
  induction vs with
  | nil => intro _; simp
  | cons v vs ih =>
    intro h
    have h1 := ih (fun w hw => h w (List.mem_cons_of_mem _ hw))
    have h2 := h v (List.mem_cons_self ..)
    rw [List.sum_cons, List.length_cons, Nat.succ_mul]
    omega

theorem totalisticCa_ok {L A I : Type} {k : Nat} (hk : 2 ≤ k) (hk' : k ≤ 36) (R : Nat) (ctx : NodeCtx L A Int I)
    (hc : Colours k ctx.neighbourActs) (hR : R < k ^ (ctx.neighbourActs.length * (k - 1) + 1)) :
    totalisticCa k R ctx = .ok (digit k R ctx.neighbourActs.sum.toNat : Nat) := by
  unfold totalisticCa baseRepr
  rw [if_neg (by omega)]
  simp only
  have hs := sum_bounds (by omega) _ hc
  rw [zfill_digits, List.length_map, digitsBE_pad_length hk (by omega) hR, if_neg (by omega)]
  have e : ((ctx.neighbourActs.length * (k - 1) : Nat) : Int) - ctx.neighbourActs.sum
      = ((ctx.neighbourActs.length * (k - 1) - ctx.neighbourActs.sum.toNat : Nat) : Int) := by omega
  rw [e, pyGet_ofNat (v := digitChar (digit k R ctx.neighbourActs.sum.toNat))]
  · simp only
    rw [intOfChar_digitChar hk' (show digit k R _ < k from Nat.mod_lt _ (by omega))]
  · rw [List.getElem?_map, getElem?_digitsBE_pad hk hR (by omega)]
    simp only [Option.map_some, digit]
    congr 5
    omega

theorem totalisticCa_error {L A I : Type} {k : Nat} (hk : 2 ≤ k) (hk' : k ≤ 36) (R : Nat) (ctx : NodeCtx L A Int I)
    (hR : k ^ (ctx.neighbourActs.length * (k - 1) + 1) ≤ R) :
    totalisticCa k R ctx = .error (.exception "rule number out of range") := by
  unfold totalisticCa baseRepr
  rw [if_neg (by omega)]
  simp only
  have h : ¬ (digitsBE k R).length ≤ ctx.neighbourActs.length * (k - 1) + 1 := by
    rw [length_digitsBE hk (by omega)]; omega
  rw [if_pos]
  rw [zfill, List.length_append, List.length_map]
  omega

/-! ## Majority -/

theorem mem_modes (vs : List Int) (v : Int) : v ∈ modes vs ↔ MostFrequent vs v := by
  unfold modes MostFrequent
  rw [List.mem_map]
  constructor
  · rintro ⟨⟨w, k⟩, hm, hw⟩
    simp only at hw
    subst hw
    rw [List.mem_filter] at hm
    obtain ⟨h1, h2⟩ := hm
    rw [mem_counter] at h1
    refine ⟨List.count_pos_iff.1 (by omega), fun w' => ?_⟩
    by_cases h0 : vs.count w' = 0
    · omega
    · have := (List.all_eq_true.1 h2) (w', vs.count w') ((mem_counter vs w' _).2 ⟨rfl, h0⟩)
      have := of_decide_eq_true this
      simp only at this
      omega
  · rintro ⟨h1, h2⟩
    refine ⟨(v, vs.count v), List.mem_filter.2 ⟨(mem_counter vs v _).2 ⟨rfl, ?_⟩, ?_⟩, rfl⟩
    · have := List.count_pos_iff.2 h1; omega
    · rw [List.all_eq_true]
      rintro ⟨w, k⟩ hw
      rw [mem_counter] at hw
      have := h2 w
      simp only [decide_eq_true_eq]
      omega

theorem nodup_modes (vs : List Int) : (modes vs).Nodup := by
  have h := nodup_counter vs
  exact ((List.filter_sublist (l := counter vs)).map Prod.fst).nodup h

theorem exists_mostFrequent : ∀ vs : List Int, vs ≠ [] → ∃ v, MostFrequent vs v := by
  intro vs hne
  -- a member with maximal count among the members
  have key : ∀ l : List Int, l ≠ [] → ∃ v ∈ l, ∀ w ∈ l, vs.count w ≤ vs.count v := by
    intro l
    induction l with
    | nil => intro h; exact absurd rfl h
    | cons a l ih =>
      intro _
      by_cases hl : l = []
      · subst hl; exact ⟨a, by simp, by simp⟩
      · obtain ⟨v, hv, hm⟩ := ih hl
        by_cases hc : vs.count v ≤ vs.count a
        · refine ⟨a, by simp, fun w hw => ?_⟩
          rcases List.mem_cons.1 hw with rfl | hw
          · exact Nat.le_refl _
          · exact Nat.le_trans (hm w hw) hc
        · refine ⟨v, List.mem_cons_of_mem _ hv, fun w hw => ?_⟩
          rcases List.mem_cons.1 hw with rfl | hw
          · omega
          · exact hm w hw
  obtain ⟨v, hv, hm⟩ := key vs hne
  refine ⟨v, hv, fun w => ?_⟩
  by_cases hw : w ∈ vs
  · exact hm w hw
  · rw [List.count_eq_zero.2 hw]; omega

theorem modes_ne_nil {vs : List Int} (h : vs ≠ []) : modes vs ≠ [] := by
  obtain ⟨v, hv⟩ := exists_mostFrequent vs h
  intro hc
  have := (mem_modes vs v).2 hv
  rw [hc] at this
  simp at this

theorem modes_unique {vs : List Int} {v : Int} (h : MostFrequent vs v) (hu : ∀ w, MostFrequent vs w → w = v) :
    modes vs = [v] := by
  have hm := (mem_modes vs v).2 h
  have hn := nodup_modes vs
  cases hmo : modes vs with
  | nil => rw [hmo] at hm; simp at hm
  | cons a l =>
    have ha : a = v := hu a ((mem_modes vs a).1 (by rw [hmo]; simp))
    subst ha
    cases l with
    | nil => rfl
    | cons b l =>
      have hb : b = a := hu b ((mem_modes vs b).1 (by rw [hmo]; simp))
      rw [hmo, hb] at hn
      simp at hn

/-- The first of the most frequent values, or the drawn cell. -/
theorem majority_mem {L A I : Type} (py38 : Bool) (pick : Nat) (ctx : NodeCtx L A Int I) (hne : ctx.neighbourActs ≠ []) :
    ∃ v ∈ ctx.neighbourActs, majorityRule py38 pick ctx = .ok v := by
  unfold majorityRule
  cases hm : statMode py38 ctx.neighbourActs with
  | some m =>
    refine ⟨m, ?_, rfl⟩
    have : m ∈ modes ctx.neighbourActs := by
      unfold statMode at hm
      split at hm
      · simp at hm
      · rename_i h; simp at hm; subst hm; rw [h]; simp
      · rename_i h
        cases py38 with
        | true => simp at hm; subst hm; rw [h]; simp
        | false => simp at hm
    exact ((mem_modes _ _).1 this).1
  | none =>
    have hp : pick % ctx.neighbourActs.length < ctx.neighbourActs.length :=
      Nat.mod_lt _ (List.length_pos_iff.2 hne)
    simp only [List.getElem?_eq_getElem hp]
    exact ⟨_, List.getElem_mem hp, rfl⟩

/-! ## Game of Life -/

theorem sum_binary : ∀ vs : List Int, Binary vs → vs.sum = (vs.count 1 : Int) := by
  intro vs
  induction vs with
  | nil => intro _; rfl
  | cons v vs ih =>
    intro h
    rw [List.sum_cons, ih (fun w hw => h w (List.mem_cons_of_mem _ hw)), List.count_cons]
    rcases h v (List.mem_cons_self ..) with rfl | rfl <;> simp <;> omega

end Verif
