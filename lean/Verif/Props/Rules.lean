import Verif.Proofs.Rules
/-! # Properties C28-C33: the rules of `rules/activity_rule.py` -/

namespace Verif

/-- A context of which only the current activity and the neighbourhood matter. -/
def Ex.ctxOf (cur : Int) (acts : List Int) : NodeCtx Nat Int Int Int :=
  ⟨0, 1, [], [], acts, [], cur, none, none⟩

section
variable {L A I : Type}

/-! ## C28 -/

/-- C28.  On a neighbourhood of `m` binary cells that reads `v` as a binary number (first cell most significant), rule
number `R < 2^(2^m)` gives bit `v` of `R` under the NKS scheme and bit `2^m - 1 - v` under the default scheme. -/
theorem C28_binary_ca (R : Nat) (ctx : NodeCtx L A Int I) (hb : Binary ctx.neighbourActs)
    (hR : R < 2 ^ 2 ^ ctx.neighbourActs.length) :
    0 ≤ numeral ctx.neighbourActs ∧ numeral ctx.neighbourActs < (2 ^ ctx.neighbourActs.length : Nat) ∧
    nksCaRule (R : Int) ctx = .ok (digit 2 R (numeral ctx.neighbourActs).toNat : Nat) ∧
    binaryCaRule (R : Int) false ctx
      = .ok (digit 2 R (2 ^ ctx.neighbourActs.length - 1 - (numeral ctx.neighbourActs).toNat) : Nat) := by
  have h1 := bitsToInt_numeral hb
  have h2 := bitsToInt_lt ctx.neighbourActs
  have h3 : (numeral ctx.neighbourActs).toNat = bitsToInt ctx.neighbourActs := by omega
  refine ⟨by omega, by rw [← h1]; exact Int.ofNat_lt.2 h2, ?_, ?_⟩
  · rw [h3, nksCaRule, binaryCaRule_ok R true ctx hR]; rfl
  · rw [h3, binaryCaRule_ok R false ctx hR]; rfl

/-- C28.  A rule number outside `0 .. 2^(2^m) - 1` raises, under both schemes. -/
theorem C28_out_of_range (R : Int) (nks : Bool) (ctx : NodeCtx L A Int I)
    (hR : R < 0 ∨ (2 ^ 2 ^ ctx.neighbourActs.length : Nat) ≤ R) :
    binaryCaRule R nks ctx = .error .valueError := binaryCaRule_error R nks ctx hR

/-- Rule 110 on `1 1 0` (= 6): bit 6 of 110 is 1, bit 1 is 1; on `1 0 0`: bit 4 is 0, bit 3 is 1. -/
example : Binary [1, 0, 0] ∧ 110 < 2 ^ 2 ^ [1, 0, 0].length ∧ numeral [1, 0, 0] = 4 ∧
    nksCaRule 110 (Ex.ctxOf 0 [1, 0, 0]) = .ok 0 ∧ binaryCaRule 110 false (Ex.ctxOf 0 [1, 0, 0]) = .ok 1 ∧
    nksCaRule 110 (Ex.ctxOf 0 [1, 1, 0]) = .ok 1 ∧ nksCaRule 256 (Ex.ctxOf 0 [1, 1, 0]) = .error .valueError := by
  refine ⟨?_, by decide, by decide, by decide +kernel, by decide +kernel, by decide +kernel, by decide +kernel⟩
  intro v hv; revert v; decide

/-! ## C29 -/

/-- C29 in full: for every width.  It fails at width 0. -/
def C29Full : Prop :=
  (∀ x d : Nat, x < 2 ^ d → ∃ bits, intToBits (x : Int) d = .ok bits ∧ bitsToInt bits = x) ∧
  (∀ bits : List Int, Binary bits → intToBits (bitsToInt bits : Int) bits.length = .ok bits)

/-- C29 fails for width 0: `int_to_bits(0, 0)` raises, because `bin(0)` has one digit. -/
theorem C29_zero_width : intToBits 0 0 = .error .valueError ∧ ¬ C29Full := by
  refine ⟨by decide, fun h => ?_⟩
  have := h.2 [] (fun v hv => by simp at hv)
  revert this
  decide

/-- C29 for widths of at least one digit: `bits_to_int` inverts `int_to_bits` on numbers that fit, `int_to_bits`
inverts `bits_to_int` on binary lists, and `int_to_bits` raises exactly for negative numbers and for numbers that need
more digits.  Missing from the full statement: width 0, see `C29_zero_width`. -/
theorem C29_bits_partial :
    (∀ x d : Nat, 1 ≤ d → x < 2 ^ d →
      ∃ bits, intToBits (x : Int) d = .ok bits ∧ bits.length = d ∧ Binary bits ∧ bitsToInt bits = x ∧
        numeral bits = x) ∧
    (∀ bits : List Int, Binary bits → bits ≠ [] → intToBits (bitsToInt bits : Int) bits.length = .ok bits) ∧
    (∀ (x : Int) (d : Nat), (intToBits x d = .error .valueError ↔ (x < 0 ∨ d = 0 ∨ (2 ^ d : Nat) ≤ x)) ∧
      ∀ e, intToBits x d = .error e → e = .valueError) := by
  refine ⟨fun x d hd hx => ⟨_, intToBits_ok hd hx, ?_, ?_, bitsToInt_pad hd hx, ?_⟩,
    fun bits h hne => intToBits_bitsToInt h hne, fun x d => ?_⟩
  · rw [List.length_map]; exact digitsBE_pad_length (Nat.le_refl 2) hd hx
  · intro v hv
    rw [digitsBE_pad (Nat.le_refl 2) hd hx] at hv
    simp only [List.mem_map, List.mem_reverse] at hv
    obtain ⟨_, ⟨i, _, rfl⟩, rfl⟩ := hv
    omega
  · rw [← bitsToInt_numeral, bitsToInt_pad hd hx]
    intro v hv
    rw [digitsBE_pad (Nat.le_refl 2) hd hx] at hv
    simp only [List.mem_map, List.mem_reverse] at hv
    obtain ⟨_, ⟨i, _, rfl⟩, rfl⟩ := hv
    omega
  · by_cases hc : x < 0 ∨ d = 0 ∨ (2 ^ d : Nat) ≤ x
    · have : intToBits x d = .error .valueError := by
        rcases hc with h | h
        · exact intToBits_neg h d
        · by_cases hx : x < 0
          · exact intToBits_neg hx d
          · obtain ⟨y, rfl⟩ := Int.eq_ofNat_of_zero_le (Int.not_lt.1 hx)
            exact intToBits_error (h.imp id Int.ofNat_le.1)
      exact ⟨⟨fun _ => hc, fun _ => this⟩, fun e he => by rw [this] at he; cases he; rfl⟩
    · have hx : ¬ x < 0 := fun h => hc (.inl h)
      obtain ⟨y, rfl⟩ := Int.eq_ofNat_of_zero_le (Int.not_lt.1 hx)
      have h2 : y < 2 ^ d := by
        apply Decidable.byContradiction
        intro h; exact hc (.inr (.inr (Int.ofNat_le.2 (Nat.not_lt.1 h))))
      have h3 : 1 ≤ d := by
        apply Decidable.byContradiction
        intro h; exact hc (.inr (.inl (by omega)))
      have := intToBits_ok h3 h2
      exact ⟨⟨fun h => (by rw [this] at h; cases h), fun h => absurd h hc⟩, fun e he => by rw [this] at he; cases he⟩

example : intToBits 5 4 = .ok [0, 1, 0, 1] ∧ bitsToInt [0, 1, 0, 1] = 5 ∧ intToBits 16 4 = .error .valueError ∧
    intToBits (-1) 4 = .error .valueError := by decide +kernel

/-! ## C30 -/

/-- C30.  With `2 ≤ k ≤ 36` colours and an `n`-cell neighbourhood with cells in `0..k-1` that sum to `s`, rule number
`R < k^(n(k-1)+1)` gives digit `s` of `R` in base `k`, a colour. -/
theorem C30_totalistic {k : Nat} (hk : 2 ≤ k) (hk' : k ≤ 36) (R : Nat) (ctx : NodeCtx L A Int I)
    (hc : Colours k ctx.neighbourActs) (hR : R < k ^ (ctx.neighbourActs.length * (k - 1) + 1)) :
    ∃ s : Nat, ctx.neighbourActs.sum = (s : Int) ∧ s ≤ ctx.neighbourActs.length * (k - 1) ∧
      totalisticCa k R ctx = .ok (digit k R s : Nat) ∧ digit k R s < k := by
  have hs := sum_bounds (by omega) _ hc
  refine ⟨ctx.neighbourActs.sum.toNat, by omega, by omega, totalisticCa_ok hk hk' R ctx hc hR,
    Nat.mod_lt _ (by omega)⟩

/-- C30.  The result depends on the number of cells and their sum only, also when it raises. -/
theorem C30_depends_on_sum {k : Nat} (hk : 2 ≤ k) (hk' : k ≤ 36) (R : Nat) (ctx ctx' : NodeCtx L A Int I)
    (hc : Colours k ctx.neighbourActs) (hc' : Colours k ctx'.neighbourActs)
    (hl : ctx.neighbourActs.length = ctx'.neighbourActs.length)
    (hs : ctx.neighbourActs.sum = ctx'.neighbourActs.sum) : totalisticCa k R ctx = totalisticCa k R ctx' := by
  by_cases hR : R < k ^ (ctx.neighbourActs.length * (k - 1) + 1)
  · rw [totalisticCa_ok hk hk' R ctx hc hR, totalisticCa_ok hk hk' R ctx' hc' (by rw [← hl]; exact hR), hs]
  · rw [totalisticCa_error hk hk' R ctx (by omega), totalisticCa_error hk hk' R ctx' (by rw [← hl]; omega)]

/-- C30.  It raises exactly when the rule number is out of range. -/
theorem C30_raises_iff {k : Nat} (hk : 2 ≤ k) (hk' : k ≤ 36) (R : Nat) (ctx : NodeCtx L A Int I)
    (hc : Colours k ctx.neighbourActs) :
    (∃ e, totalisticCa k R ctx = .error e) ↔ k ^ (ctx.neighbourActs.length * (k - 1) + 1) ≤ R := by
  constructor
  · rintro ⟨e, he⟩
    apply Decidable.byContradiction
    intro h
    rw [totalisticCa_ok hk hk' R ctx hc (by omega)] at he
    cases he
  · intro h; exact ⟨_, totalisticCa_error hk hk' R ctx h⟩

/-- `777 = 1001210` in base 3; the sum 2 selects digit 2, the sum 6 digit 6. -/
example : Colours 3 [1, 0, 1] ∧ 777 < 3 ^ ([1, 0, 1].length * (3 - 1) + 1) ∧
    totalisticCa 3 777 (Ex.ctxOf 0 [1, 0, 1]) = .ok 2 ∧ totalisticCa 3 777 (Ex.ctxOf 0 [2, 2, 2]) = .ok 1 ∧
    totalisticCa 3 (3 ^ 7) (Ex.ctxOf 0 [2, 2, 2]) = .error (.exception "rule number out of range") := by
  refine ⟨?_, by decide, by decide +kernel, by decide +kernel, by decide +kernel⟩
  intro v hv; revert v; decide

/-! ## C31 -/

/-- C31 in full: on a non-empty neighbourhood the result is one of the most frequent states, whatever the random
choice and the version of Python. -/
def C31Full : Prop :=
  ∀ (py38 : Bool) (pick : Nat) (ctx : NodeCtx Nat Int Int Int), ctx.neighbourActs ≠ [] →
    ∃ v, majorityRule py38 pick ctx = .ok v ∧ MostFrequent ctx.neighbourActs v

/-- C31 fails before Python 3.8: with a tie between 0 and 1 the rule may return 2, a state that occurs once. -/
theorem C31_minority :
    majorityRule false 4 (Ex.ctxOf 0 [0, 0, 1, 1, 2]) = .ok 2 ∧ ¬ MostFrequent [0, 0, 1, 1, 2] 2 ∧ ¬ C31Full := by
  have h2 : ¬ MostFrequent [0, 0, 1, 1, 2] 2 := by
    intro h; have := h.2 0; revert this; decide
  have h1 : majorityRule false 4 (Ex.ctxOf 0 [0, 0, 1, 1, 2]) = .ok 2 := by decide +kernel
  refine ⟨h1, h2, fun h => ?_⟩
  obtain ⟨v, hv, hm⟩ := h false 4 (Ex.ctxOf 0 [0, 0, 1, 1, 2]) (by decide)
  rw [h1] at hv
  cases hv
  exact h2 hm

/-- C31: a unique most frequent state is returned, under every version of Python; from Python 3.8 on, and whenever the
result does not come from the random choice, it is a most frequent state; before, a tie may give any state of the
neighbourhood.  Missing: the result of a tie before 3.8, see `C31_minority`. -/
theorem C31_majority_partial (py38 : Bool) (pick : Nat) (ctx : NodeCtx L A Int I) :
    (∀ v, MostFrequent ctx.neighbourActs v → (∀ w, MostFrequent ctx.neighbourActs w → w = v) →
      majorityRule py38 pick ctx = .ok v) ∧
    (ctx.neighbourActs ≠ [] → ∃ v ∈ ctx.neighbourActs, majorityRule py38 pick ctx = .ok v) ∧
    (ctx.neighbourActs ≠ [] → py38 = true →
      ∃ v, majorityRule py38 pick ctx = .ok v ∧ MostFrequent ctx.neighbourActs v) ∧
    (ctx.neighbourActs = [] → majorityRule py38 pick ctx = .error .valueError) := by
  refine ⟨fun v hv hu => ?_, majority_mem py38 pick ctx, fun hne h38 => ?_, fun h => ?_⟩
  · have := modes_unique hv hu
    simp [majorityRule, statMode, this]
  · subst h38
    cases hm : modes ctx.neighbourActs with
    | nil => exact absurd hm (modes_ne_nil hne)
    | cons m l =>
      refine ⟨m, ?_, (mem_modes _ _).1 (by rw [hm]; simp)⟩
      cases l with
      | nil => simp [majorityRule, statMode, hm]
      | cons b l => simp [majorityRule, statMode, hm]
  · simp [majorityRule, statMode, h, modes, counter]

example : majorityRule false 7 (Ex.ctxOf 0 [2, 1, 2, 0]) = .ok 2 ∧ majorityRule true 7 (Ex.ctxOf 0 [1, 2, 2, 1]) = .ok 1 := by
  decide +kernel

/-! ## C32 -/

/-- C32.  If the neighbourhood consists of the cell itself and the binary cells `others`, the rule is Conway's. -/
theorem C32_life (ctx : NodeCtx L A Int I) (others : List Int)
    (hself : ctx.neighbourActs.Perm (ctx.current :: others)) (hb : Binary (ctx.current :: others)) :
    orNone gameOfLife? ctx = .ok (if conway (ctx.current == 1) (others.count 1) then 1 else 0) := by
  have hs : ctx.neighbourActs.sum = ctx.current + (others.count 1 : Int) := by
    rw [sum_binary _ (fun v hv => hb v (hself.mem_iff.1 hv)), hself.count_eq, List.count_cons]
    rcases hb ctx.current (List.mem_cons_self ..) with h | h <;> rw [h] <;> simp <;> omega
  unfold orNone gameOfLife? conway
  rw [hs]
  rcases hb ctx.current (List.mem_cons_self ..) with h | h
  · rw [h]
    by_cases h3 : others.count 1 = 3
    · simp [h3]
    · have : ¬ ((others.count 1 : Int) = 3) := by omega
      simp [h3, this]
  · rw [h]
    simp only [if_true, beq_self_eq_true]
    by_cases h2 : others.count 1 = 2
    · simp [h2]
    · by_cases h3 : others.count 1 = 3
      · simp [h3]
      · have e1 : ¬ ((1 : Int) + (others.count 1 : Int) - 1 = 2 ∨ (1 : Int) + (others.count 1 : Int) - 1 = 3) := by omega
        have e2 : (others.count 1 == 2 || others.count 1 == 3) = false := by simp [h2, h3]
        rw [if_neg e1, e2]
        by_cases hlt : (1 : Int) + (others.count 1 : Int) - 1 < 2
        · simp only [if_pos hlt]; rfl
        · rw [if_neg hlt, if_pos (by omega)]; rfl

/-- A glider cell: alive with two live neighbours, and a birth. -/
example : [0, 1, 0, 0, 1, 1, 0, 0, 0].Perm ((1 : Int) :: [0, 1, 0, 0, 1, 0, 0, 0]) ∧
    orNone gameOfLife? (Ex.ctxOf 1 [0, 1, 0, 0, 1, 1, 0, 0, 0]) = .ok 1 ∧
    orNone gameOfLife? (Ex.ctxOf 0 [0, 1, 0, 0, 0, 1, 1, 0, 0]) = .ok 1 ∧
    orNone gameOfLife? (Ex.ctxOf 1 [1, 1, 1, 0, 1, 1, 0, 0, 0]) = .ok 0 := by
  refine ⟨by decide, by decide, by decide, by decide⟩

/-! ## C33 -/

/-- C33.  Empty stays empty, a head becomes a tail, a tail becomes a conductor, a conductor becomes a head iff one or
two of the neighbourhood cells are heads and stays a conductor otherwise. -/
theorem C33_wireworld (ctx : NodeCtx L A Int I) :
    (ctx.current = 0 → orNone wireworld? ctx = .ok 0) ∧
    (ctx.current = 1 → orNone wireworld? ctx = .ok 2) ∧
    (ctx.current = 2 → orNone wireworld? ctx = .ok 3) ∧
    (ctx.current = 3 → (ctx.neighbourActs.filter (· == 1)).length ∈ [1, 2] → orNone wireworld? ctx = .ok 1) ∧
    (ctx.current = 3 → (ctx.neighbourActs.filter (· == 1)).length ∉ [1, 2] → orNone wireworld? ctx = .ok 3) := by
  have hc : (ctx.neighbourActs.filter (· == 1)).length = ctx.neighbourActs.count 1 := by
    rw [List.count, List.countP_eq_length_filter]
  rw [hc]
  refine ⟨fun h => ?_, fun h => ?_, fun h => ?_, fun h hn => ?_, fun h hn => ?_⟩
  · simp [orNone, wireworld?, h]
  · simp [orNone, wireworld?, h]
  · simp [orNone, wireworld?, h]
  · have : ctx.neighbourActs.count 1 = 1 ∨ ctx.neighbourActs.count 1 = 2 := by simpa using hn
    simp [orNone, wireworld?, h, this]
  · have : ¬ (ctx.neighbourActs.count 1 = 1 ∨ ctx.neighbourActs.count 1 = 2) := by simpa using hn
    simp [orNone, wireworld?, h, this]

/-- C33.  The states stay in `0..3`, and the rule gives a state exactly on these. -/
theorem C33_states (ctx : NodeCtx L A Int I) :
    (0 ≤ ctx.current ∧ ctx.current ≤ 3) ↔ ∃ v, orNone wireworld? ctx = .ok v ∧ 0 ≤ v ∧ v ≤ 3 := by
  constructor
  · rintro ⟨h0, h3⟩
    have h := C33_wireworld ctx
    by_cases hm : (ctx.neighbourActs.filter (· == 1)).length ∈ [1, 2]
    · have : ctx.current = 0 ∨ ctx.current = 1 ∨ ctx.current = 2 ∨ ctx.current = 3 := by omega
      rcases this with e | e | e | e
      · exact ⟨0, h.1 e, by omega, by omega⟩
      · exact ⟨2, h.2.1 e, by omega, by omega⟩
      · exact ⟨3, h.2.2.1 e, by omega, by omega⟩
      · exact ⟨1, h.2.2.2.1 e hm, by omega, by omega⟩
    · have : ctx.current = 0 ∨ ctx.current = 1 ∨ ctx.current = 2 ∨ ctx.current = 3 := by omega
      rcases this with e | e | e | e
      · exact ⟨0, h.1 e, by omega, by omega⟩
      · exact ⟨2, h.2.1 e, by omega, by omega⟩
      · exact ⟨3, h.2.2.1 e, by omega, by omega⟩
      · exact ⟨3, h.2.2.2.2 e hm, by omega, by omega⟩
  · rintro ⟨v, hv, _⟩
    unfold orNone wireworld? at hv
    by_cases h0 : ctx.current = 0
    · omega
    · by_cases h1 : ctx.current = 1
      · omega
      · by_cases h2 : ctx.current = 2
        · omega
        · by_cases h3 : ctx.current = 3
          · omega
          · simp [h0, h1, h2, h3] at hv

example : orNone wireworld? (Ex.ctxOf 3 [0, 1, 3, 1, 2]) = .ok 1 ∧ orNone wireworld? (Ex.ctxOf 3 [1, 1, 3, 1]) = .ok 3 := by
  decide

end

end Verif
