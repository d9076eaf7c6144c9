import Verif.Proofs.RuleWalk
import Verif.Props.Rules
/-! # Properties C34-C36: rule tables -/

namespace Verif

section
variable {L A I : Type}

/-! ## C34 -/

theorem strInt_digit {v : Int} (h : 0 ≤ v ∧ v < 10) : strInt v = [digitChar v.toNat] := by
  unfold strInt
  rw [if_neg (by omega), digitsBE_small (by omega : v.natAbs < 10)]
  have : v.natAbs = v.toNat := by omega
  rw [this]; rfl

theorem flatten_strInt : ∀ {vs : List Int}, Colours 10 vs →
    (vs.map strInt).flatten = vs.map (fun v => digitChar v.toNat) := by
  intro vs
  induction vs with
  | nil => intro _; rfl
  | cons v vs ih =>
    intro h
    rw [List.map_cons, List.flatten_cons, ih (fun w hw => h w (List.mem_cons_of_mem _ hw)),
      strInt_digit (h v (List.mem_cons_self ..))]
    rfl

/-- C34 in full, the part that fails: different neighbourhoods of `n` cells with `k` colours never share an entry. -/
def C34Full : Prop :=
  ∀ (k : Nat) (c c' : NodeCtx Nat Int Int Int), Colours k c.neighbourActs → Colours k c'.neighbourActs →
    c.neighbourActs.length = c'.neighbourActs.length → c.neighbourActs ≠ c'.neighbourActs →
    ∃ t : Table, tableRule t c ≠ tableRule t c'

/-- C34 fails for more than ten colours: `1, 11` and `11, 1` are both written `111`. -/
theorem C34_collision :
    (∀ t : Table, tableRule t (Ex.ctxOf 0 [1, 11]) = tableRule t (Ex.ctxOf 0 [11, 1])) ∧ ¬ C34Full := by
  have h : ∀ t : Table, tableRule t (Ex.ctxOf 0 [1, 11]) = tableRule t (Ex.ctxOf 0 [11, 1]) := by
    intro t
    have e : ((Ex.ctxOf 0 [1, 11]).neighbourActs.map strInt).flatten
        = ((Ex.ctxOf 0 [11, 1]).neighbourActs.map strInt).flatten := by decide +kernel
    unfold tableRule
    simp only [e]
  refine ⟨h, fun hf => ?_⟩
  obtain ⟨t, ht⟩ := hf 12 (Ex.ctxOf 0 [1, 11]) (Ex.ctxOf 0 [11, 1]) (by intro v hv; revert v; decide)
    (by intro v hv; revert v; decide) rfl (by decide)
  exact ht (h t)

/-- C34 for at most ten colours: the rule returns the entry of the neighbourhood, written with one digit per cell, and
raises iff there is none; different neighbourhoods have different keys.  For more colours see `C34_collision` and
`C34_letters`. -/
theorem C34_table_partial (t : Table) (ctx : NodeCtx L A Int I) (hc : Colours 10 ctx.neighbourActs) :
    (∀ v, tableRule t ctx = .ok v ↔ t.get? (ctx.neighbourActs.map (fun v => digitChar v.toNat)) = some v) ∧
    ((∃ e, tableRule t ctx = .error e) ↔ ctx.neighbourActs.map (fun v => digitChar v.toNat) ∉ t.keys) ∧
    (∀ ctx' : NodeCtx L A Int I, Colours 10 ctx'.neighbourActs →
      ctx.neighbourActs.map (fun v => digitChar v.toNat) = ctx'.neighbourActs.map (fun v => digitChar v.toNat) →
      ctx.neighbourActs = ctx'.neighbourActs) := by
  have e : tableRule t ctx = if !(t.has (ctx.neighbourActs.map (fun v => digitChar v.toNat)))
      then .error (.exception "could not find state in table")
      else t.get (ctx.neighbourActs.map (fun v => digitChar v.toNat)) := by
    unfold tableRule
    simp only [flatten_strInt hc]
  rw [e]
  refine ⟨fun v => ?_, ?_, fun ctx' hc' h => ?_⟩
  · cases hg : t.get? (ctx.neighbourActs.map (fun v => digitChar v.toNat)) with
    | none => simp [Dict.has, hg]
    | some w => simp [Dict.has, Dict.get, hg]
  · rw [← Dict.get?_eq_none_iff]
    cases hg : t.get? (ctx.neighbourActs.map (fun v => digitChar v.toNat)) with
    | none => simp [Dict.has, hg]
    | some w => simp [Dict.has, Dict.get, hg]
  · refine map_inj_on (fun x hx y hy hxy => ?_) h
    have h1 := hc x hx
    have h2 := hc' y hy
    have := digitChar_inj (by omega) (by omega) hxy
    omega

example : Colours 10 [1, 0, 9] ∧ tableRule [("109".toList, 4), ("091".toList, 2)] (Ex.ctxOf 0 [1, 0, 9]) = .ok 4 ∧
    tableRule [("109".toList, 4)] (Ex.ctxOf 0 [1, 0, 8]) = .error (.exception "could not find state in table") := by
  refine ⟨?_, by decide +kernel, by decide +kernel⟩
  intro v hv; revert v; decide

/-! ## C35 -/

/-- C35.  For every outcome of the random numbers, a table that `random_rule_table` returns has exactly the
neighbourhoods of `2r+1` cells with `k` states as keys (each once, `k^(2r+1)` of them), values in `0..k-1`, maps
uniform neighbourhoods to their state under strong quiescence, is mirror symmetric if isotropic, and the returned
lambda is the fraction of the entries that are not the returned quiescent state, which is the given one if there is
one. -/
theorem C35_random_table (a : RandTableArgs) (t : Table) (lam : Rat) (q : Int)
    (h : randomRuleTable a = .ok (t, lam, q)) :
    t.keys.Nodup ∧ (∀ s, s ∈ t.keys ↔ IsNbhd a.k (2 * a.r + 1) s) ∧ t.length = a.k ^ (2 * a.r + 1) ∧
    (∀ s v, t.get? s = some v → 0 ≤ v ∧ v < (a.k : Int)) ∧
    (a.strong = true → ∀ d, d < a.k → t.get? (uniformNbhd (2 * a.r + 1) d) = some (d : Int)) ∧
    (a.isotropic = true → Isotropic t) ∧
    lam = langtonLambda q t ∧
    (0 ≤ q ∧ q < (a.k : Int)) ∧ (∀ q', a.quiescent = some q' → q = q') := by
  obtain ⟨hk2, hk36, hq, hq', lam0, count, _, hfill, hlam⟩ := randomRuleTable_ok h
  have hinv0 : FillInv a q [] 0 :=
    ⟨List.nodup_nil, (fun s v h => by cases h), (fun _ _ _ _ v h => by cases h), (fun _ s v w h => by cases h), rfl⟩
  obtain ⟨hinv, hkeys⟩ := fillTable_inv hk36 hq _ 0 [] 0 t count hinv0 (nodup_states (by omega) hk36)
    (fun s _ hs => by simp [Dict.keys] at hs) hfill
  have hkeys' : t.keys = (List.range (a.k ^ (2 * a.r + 1))).map (strOf a.k (2 * a.r + 1)) := by
    rw [hkeys]; simp [Dict.keys]
  have hmem : ∀ s, s ∈ t.keys ↔ IsNbhd a.k (2 * a.r + 1) s := fun s => by
    rw [hkeys']; exact mem_states (by omega) s
  have hlen : t.length = a.k ^ (2 * a.r + 1) := by
    rw [← dict_length_keys, hkeys']; simp
  refine ⟨hinv.nodup, hmem, hlen, hinv.vals, fun hst d hd => ?_, fun hi s => ?_, ?_, hq, hq'⟩
  · have : uniformNbhd (2 * a.r + 1) d ∈ t.keys :=
      (hmem _).2 ⟨by simp [uniformNbhd], fun c hc => ⟨d, hd, List.eq_of_mem_replicate hc⟩⟩
    obtain ⟨v, hv⟩ := Dict.exists_get?_of_mem_keys this
    rw [hv, hinv.strong hst _ d hd v hv]
  · have hrev : ∀ x, x ∈ t.keys → x.reverse ∈ t.keys := by
      intro x hx
      rw [hmem] at hx ⊢
      exact ⟨by simpa using hx.1, fun c hc => hx.2 c (List.mem_reverse.1 hc)⟩
    by_cases hs : s ∈ t.keys
    · obtain ⟨v, hv⟩ := Dict.exists_get?_of_mem_keys hs
      obtain ⟨w, hw⟩ := Dict.exists_get?_of_mem_keys (hrev s hs)
      rw [hv, hw, hinv.iso hi s v w hv hw]
    · rw [Dict.get?_eq_none_iff.2 hs, Dict.get?_eq_none_iff.2]
      intro hc; exact hs (by have := hrev _ hc; rwa [List.reverse_reverse] at this)
  · rw [hlam, ← lambda_eq hlen q, hinv.cnt]

/-- C35.  How lambda is used: without constraints, the `i`-th entry is the quiescent state iff the `i`-th random number is
below `1 - lambda`, where lambda defaults to `1 - 1/k`. -/
theorem C35_draws (a : RandTableArgs) (t : Table) (lam : Rat) (q : Int)
    (h : randomRuleTable a = .ok (t, lam, q)) (hst : a.strong = false) (hi : a.isotropic = false)
    (i : Nat) (s : List Char) (v : Int) (hv : t[i]? = some (s, v)) :
    v = q ↔ a.draw i < (match a.lambdaVal with | some l => 1 - l | none => 1 / (a.k : Rat)) := by
  obtain ⟨hk2, hk36, hq, hq', lam0, count, hlam0, hfill, hlam⟩ := randomRuleTable_ok h
  have := fillTable_draws hst hi _ [] 0 t count (nodup_states (by omega) hk36)
    (fun s _ hs => by simp [Dict.keys] at hs) (fun i s v h => by simp at h) hfill i s v hv
  rw [this]
  unfold effectiveLambda at hlam0
  cases hl : a.lambdaVal with
  | some l => rw [hl] at hlam0; cases hlam0; rfl
  | none =>
    rw [hl] at hlam0
    simp only at hlam0
    rw [if_neg (by omega)] at hlam0
    cases hlam0
    have e : (1 : Rat) - (1 - 1 / (a.k : Rat)) = 1 / (a.k : Rat) := by grind
    simp only [e]

/-- C35.  A table is returned exactly for `2 ≤ k ≤ 36` and a quiescent state in `0..k-1`. -/
theorem C35_total (a : RandTableArgs) :
    (∃ r, randomRuleTable a = .ok r) ↔
      2 ≤ a.k ∧ a.k ≤ 36 ∧ ∀ q, a.quiescent = some q → 0 ≤ q ∧ q < (a.k : Int) := by
  constructor
  · rintro ⟨⟨t, lam, q⟩, h⟩
    obtain ⟨h1, h2, h3, h4, _⟩ := randomRuleTable_ok h
    exact ⟨h1, h2, fun q' hq' => by rw [← h4 q' hq']; exact h3⟩
  · rintro ⟨h1, h2, h3⟩
    unfold randomRuleTable
    simp only
    rw [stateStrings_ok h1 h2 (by omega) _ (fun i hi => List.mem_range.1 hi)]
    simp only
    have hlam : ∃ l, effectiveLambda a = .ok l := by
      unfold effectiveLambda
      cases a.lambdaVal with
      | some l => exact ⟨_, rfl⟩
      | none => exact ⟨_, by simp only; rw [if_neg (by omega)]⟩
    have hq : ∃ q, effectiveQuiescent a = .ok q ∧ (0 ≤ q ∧ q ≤ (a.k : Int) - 1) := by
      unfold effectiveQuiescent
      cases hqq : a.quiescent with
      | some q => exact ⟨_, rfl, by have := h3 q hqq; omega⟩
      | none =>
        refine ⟨_, by simp only; rw [if_neg (by omega)], ?_⟩
        have := Nat.mod_lt a.rndQ (by omega : a.k > 0)
        omega
    obtain ⟨l, hl⟩ := hlam
    obtain ⟨q, hq1, hq2⟩ := hq
    rw [hl]
    simp only
    rw [hq1]
    simp only
    rw [if_neg (fun hc => hc hq2)]
    obtain ⟨⟨t, count⟩, hr⟩ := fillTable_total (lam := l) (q := q) h1 h2
      ((List.range (a.k ^ (2 * a.r + 1))).map (strOf a.k (2 * a.r + 1))) 0 [] 0
      (fun s hs => ⟨2 * a.r, (mem_states (by omega) s).1 hs⟩)
    rw [hr]
    exact ⟨_, rfl⟩

/-- C35.  All other arguments raise: one state or more than 36 a `ValueError`, no state a `ZeroDivisionError` if lambda is
missing, else a `ValueError` if the quiescent state is missing; a wrong quiescent state the message. -/
theorem C35_errors (a : RandTableArgs) :
    (a.k = 1 ∨ 36 < a.k → randomRuleTable a = .error .valueError) ∧
    (a.k = 0 → a.lambdaVal = none → randomRuleTable a = .error .zeroDivision) ∧
    (a.k = 0 → a.lambdaVal ≠ none → a.quiescent = none → randomRuleTable a = .error .valueError) ∧
    (∀ q, a.quiescent = some q → ¬ (0 ≤ q ∧ q < (a.k : Int)) → a.k ≠ 1 → a.k ≤ 36 → (a.k = 0 → a.lambdaVal ≠ none) →
      randomRuleTable a = .error (.exception "quiescent state must be a number in {0,...,k - 1}")) := by
  have hz : a.k = 0 → stateStrings a.k (2 * a.r + 1) (List.range (a.k ^ (2 * a.r + 1))) = .ok [] := by
    intro h
    rw [h, Nat.zero_pow (by omega)]; rfl
  refine ⟨?_, ?_, ?_, ?_⟩
  · intro h
    have hp : 0 < a.k ^ (2 * a.r + 1) := Nat.pow_pos (by omega)
    obtain ⟨m, hm⟩ : ∃ m, a.k ^ (2 * a.r + 1) = m + 1 := ⟨_, (Nat.succ_pred_eq_of_pos hp).symm⟩
    unfold randomRuleTable
    simp only
    rw [hm, List.range_succ_eq_map, stateStrings, baseRepr, if_pos (by omega)]
  · intro h hl
    unfold randomRuleTable
    simp only
    rw [hz h]
    simp only
    unfold effectiveLambda
    rw [hl]
    simp only
    rw [if_pos h]
  · intro h hl hq
    obtain ⟨l, hl⟩ := Option.ne_none_iff_exists'.1 hl
    unfold randomRuleTable
    simp only
    rw [hz h]
    simp only [effectiveLambda, hl, effectiveQuiescent, hq, if_pos h]
  · intro q hq hbad h1 h36 hl
    have hs : ∃ ss, stateStrings a.k (2 * a.r + 1) (List.range (a.k ^ (2 * a.r + 1))) = .ok ss := by
      by_cases h : a.k = 0
      · exact ⟨_, hz h⟩
      · exact ⟨_, stateStrings_ok (by omega) h36 (by omega) _ (fun i hi => List.mem_range.1 hi)⟩
    have hlam : ∃ l, effectiveLambda a = .ok l := by
      unfold effectiveLambda
      cases ha : a.lambdaVal with
      | some l => exact ⟨_, rfl⟩
      | none => exact ⟨_, by simp only; rw [if_neg (fun h => hl h ha)]⟩
    obtain ⟨ss, hs⟩ := hs
    obtain ⟨l, hl⟩ := hlam
    unfold randomRuleTable
    simp only
    rw [hs]
    simp only
    rw [hl]
    simp only [effectiveQuiescent, hq]
    rw [if_pos (fun hc => hbad (by omega))]

/-- Arguments of a table for `k = 2`, `r = 1` with both constraints. -/
def Ex.tableArgs : RandTableArgs :=
  { k := 2, r := 1, lambdaVal := some (1 / 2), quiescent := some 1, strong := true, isotropic := true, rndQ := 0,
    draw := fun i => if i % 2 = 0 then 0 else 3 / 4, pick := fun i => i }

example : randomRuleTable Ex.tableArgs
    = .ok ([("000".toList, 0), ("001".toList, 0), ("010".toList, 1), ("011".toList, 0), ("100".toList, 0),
            ("101".toList, 0), ("110".toList, 0), ("111".toList, 1)], 3 / 4, 1) := by decide +kernel

example :
    (match randomRuleTable { Ex.tableArgs with strong := false, isotropic := false, lambdaVal := some (3 / 8) } with
      | .ok (t, _, q) => (t.map Prod.snd, q)
      | .error _ => ([], 7)) = ([1, 0, 1, 0, 1, 0, 1, 0], 1) := by decide +kernel

/-- The four kinds of errors. -/
example : randomRuleTable { Ex.tableArgs with k := 37 } = .error .valueError ∧
    randomRuleTable { Ex.tableArgs with k := 0, lambdaVal := none } = .error .zeroDivision ∧
    randomRuleTable { Ex.tableArgs with k := 0, quiescent := none } = .error .valueError ∧
    randomRuleTable { Ex.tableArgs with quiescent := some 2 } =
      .error (.exception "quiescent state must be a number in {0,...,k - 1}") :=
  ⟨(C35_errors _).1 (Or.inr (by decide)), (C35_errors _).2.1 rfl rfl, (C35_errors _).2.2.1 rfl (by decide) rfl,
    (C35_errors _).2.2.2 2 rfl (by decide) (by decide) (by decide) (by decide)⟩

/-! ## C34 and C35: letters -/

theorem strInt_length {v : Int} (h0 : 0 ≤ v) : 1 ≤ (strInt v).length ∧ (10 ≤ v → 2 ≤ (strInt v).length) := by
  unfold strInt
  rw [if_neg (by omega), List.length_map]
  refine ⟨digitsBE_pos_length 10 _ (Nat.le_refl _), fun h => ?_⟩
  have := (length_digitsBE (by omega : 2 ≤ 10) (Nat.le_refl 1) v.natAbs).1
  apply Decidable.byContradiction
  intro hc
  have := this (by omega)
  omega

/-- C34 for more than ten states: `random_rule_table` writes states from ten on as letters, `table_rule` as decimal
numbers, so a neighbourhood with such a state is not found in any table made by `random_rule_table`. -/
theorem C34_letters (a : RandTableArgs) (t : Table) (lam : Rat) (q : Int)
    (h : randomRuleTable a = .ok (t, lam, q)) (ctx : NodeCtx L A Int I) (hc : Colours a.k ctx.neighbourActs)
    (hl : ctx.neighbourActs.length = 2 * a.r + 1) (h10 : ∃ v ∈ ctx.neighbourActs, 10 ≤ v) :
    tableRule t ctx = .error (.exception "could not find state in table") := by
  have hkeys := (C35_random_table a t lam q h).2.1
  have hlen : ∀ vs : List Int, Colours a.k vs → vs.length ≤ ((vs.map strInt).flatten).length ∧
      ((∃ v ∈ vs, 10 ≤ v) → vs.length < ((vs.map strInt).flatten).length) := by
    intro vs
    induction vs with
    | nil => intro _; simp
    | cons v vs ih =>
      intro hv
      obtain ⟨i1, i2⟩ := ih (fun w hw => hv w (List.mem_cons_of_mem _ hw))
      have hs := strInt_length (hv v (List.mem_cons_self ..)).1
      rw [List.map_cons, List.flatten_cons, List.length_append, List.length_cons]
      refine ⟨by omega, ?_⟩
      rintro ⟨w, hw, hw10⟩
      rcases List.mem_cons.1 hw with rfl | hw
      · have := hs.2 hw10; omega
      · have := i2 ⟨w, hw, hw10⟩; omega
  have hnot : (ctx.neighbourActs.map strInt).flatten ∉ t.keys := by
    intro hm
    have h1 := ((hkeys _).1 hm).1
    have h2 := (hlen _ hc).2 h10
    omega
  unfold tableRule
  simp only [Dict.has_eq_false_iff.2 hnot]
  rfl

/-! ## C36 -/

theorem Steps.keys_eq {T : Rat} {k : Nat} {q : Int} {st iso red : Bool} {t t' : Table}
    (h : Steps (WalkStep T k q st iso red) t t') : t'.keys = t.keys := by
  induction h with
  | refl => rfl
  | head hs _ ih => rw [ih, hs.keys]

/-- C36.  For a table with `k^(2r+1)` entries (and mirror-closed keys, if isotropic), every target, all flags and every
outcome of the random numbers: what `table_walk_through` returns is reached from the given table by finitely many
changes of single admissible entries (with their mirror images, if isotropic), each made while lambda is short of the
target and moving lambda strictly towards it; when it stops, the target is reached or passed, or no admissible entry is
left; the returned number is the lambda of the returned table. -/
theorem C36_walk (fuel : Nat) (a : WalkArgs) (hk : 1 ≤ a.k) (t t' : Table) (lam : Rat) (hW : WalkTable a t)
    (h : tableWalkThrough fuel a t = .ok (t', lam)) :
    lam = langtonLambda a.quiescent t' ∧
    ((langtonLambda a.quiescent t = a.lambdaVal ∧ t' = t) ∨
      ∃ reduce : Bool, Short a.lambdaVal reduce (langtonLambda a.quiescent t) ∧
        Steps (WalkStep a.lambdaVal a.k a.quiescent a.strong a.isotropic reduce) t t' ∧
        (¬ Short a.lambdaVal reduce lam ∨ ∀ s, ¬ Changeable a.quiescent a.strong reduce t' s)) := by
  unfold tableWalkThrough at h
  rw [actualLambda_eq hW.len hk] at h
  simp only at h
  split at h
  · rename_i he
    cases h
    exact ⟨rfl, .inl ⟨he, rfl⟩⟩
  · rename_i he
    cases hl : walkLoop a (decide (a.lambdaVal < langtonLambda a.quiescent t)) fuel 0 t with
    | error e => rw [hl] at h; cases h
    | ok t1 =>
      rw [hl] at h
      simp only at h
      obtain ⟨hs, hstop⟩ := walkLoop_spec hk fuel 0 t t1 hW 
        (by rw [Nat.add_zero]; exact candidates_length_le a _ t) hl
      rw [actualLambda_eq (hW.of_keys hs.keys_eq).len hk] at h
      simp only [Except.ok.injEq, Prod.mk.injEq] at h
      obtain ⟨rfl, rfl⟩ := h
      refine ⟨rfl, .inr ⟨_, ?_, hs, hstop⟩⟩
      unfold Short
      by_cases hlt : a.lambdaVal < langtonLambda a.quiescent t
      · simp [hlt]
      · simp only [hlt, decide_false, Bool.false_eq_true, if_false]
        grind

theorem Steps.strong_eq {T : Rat} {k : Nat} {q : Int} {iso red : Bool} {t t' : Table}
    (h : Steps (WalkStep T k q true iso red) t t') (s : List Char) (hu : ∃ c, ∀ x ∈ s, x = c) :
    t'.get? s = t.get? s := by
  induction h with
  | refl => rfl
  | head hs _ ih =>
    obtain ⟨x, v, hch, _, _, hget⟩ := hs.change
    rw [ih, hget, if_neg]
    rintro (rfl | ⟨_, rfl⟩)
    · exact hch.2 rfl hu
    · obtain ⟨c, hc⟩ := hu
      exact hch.2 rfl ⟨c, fun y hy => hc y (List.mem_reverse.2 hy)⟩

theorem Steps.iso {T : Rat} {k : Nat} {q : Int} {st red : Bool} {t t' : Table}
    (h : Steps (WalkStep T k q st true red) t t') (hi : Isotropic t) : Isotropic t' := by
  induction h with
  | refl => exact hi
  | head hs _ ih =>
    apply ih
    obtain ⟨x, v, _, _, _, hget⟩ := hs.change
    intro s
    rw [hget, hget, hi s]
    by_cases h1 : s = x
    · subst h1; simp
    · by_cases h2 : s = x.reverse
      · subst h2; simp
      · have h3 : ¬ s.reverse = x := fun h => h2 (by rw [← h, List.reverse_reverse])
        simp [h1, h2, h3]

theorem Steps.range {T : Rat} {k : Nat} {q : Int} {st iso red : Bool} {t t' : Table}
    (h : Steps (WalkStep T k q st iso red) t t') (hq : 0 ≤ q ∧ q < (k : Int))
    (hv : ∀ s v, t.get? s = some v → 0 ≤ v ∧ v < (k : Int)) : ∀ s v, t'.get? s = some v → 0 ≤ v ∧ v < (k : Int) := by
  induction h with
  | refl => exact hv
  | head hs _ ih =>
    apply ih
    obtain ⟨x, w, _, h1, h2, hget⟩ := hs.change
    intro s v hsv
    rw [hget] at hsv
    split at hsv
    · cases hsv
      cases red with
      | true => rw [h1 rfl]; exact hq
      | false => exact (h2 rfl).2
    · exact hv s v hsv

/-- C36.  The walk keeps the keys, keeps uniform neighbourhoods under strong quiescence, keeps mirror symmetry if
isotropic, and keeps values in range. -/
theorem C36_keeps (fuel : Nat) (a : WalkArgs) (hk : 1 ≤ a.k) (t t' : Table) (lam : Rat) (hW : WalkTable a t)
    (h : tableWalkThrough fuel a t = .ok (t', lam)) :
    t'.keys = t.keys ∧
    (a.strong = true → ∀ s, (∃ c, ∀ x ∈ s, x = c) → t'.get? s = t.get? s) ∧
    (a.isotropic = true → Isotropic t → Isotropic t') ∧
    ((0 ≤ a.quiescent ∧ a.quiescent < (a.k : Int)) → (∀ s v, t.get? s = some v → 0 ≤ v ∧ v < (a.k : Int)) →
      ∀ s v, t'.get? s = some v → 0 ≤ v ∧ v < (a.k : Int)) := by
  rcases (C36_walk fuel a hk t t' lam hW h).2 with ⟨_, rfl⟩ | ⟨reduce, _, hs, _⟩
  · exact ⟨rfl, fun _ _ _ => rfl, fun _ hi => hi, fun _ hv => hv⟩
  · refine ⟨hs.keys_eq, fun hst s hu => ?_, fun hi hI => ?_, fun hq hv => hs.range hq hv⟩
    · rw [hst] at hs; exact hs.strong_eq s hu
    · rw [hi] at hs; exact hs.iso hI

/-- C36.  It terminates: the loop never needs more than `2 * len(rule_table) + 1` tests, for every table whatsoever; and
on a table as in `C36_walk` with two or more states it returns a result. -/
theorem C36_terminates (a : WalkArgs) (t : Table) (hnd : t.keys.Nodup) (fuel : Nat) (hf : 2 * t.length + 1 ≤ fuel) :
    tableWalkThrough fuel a t ≠ .error .outOfFuel ∧
    (2 ≤ a.k → WalkTable a t → ∃ r, tableWalkThrough fuel a t = .ok r) := by
  constructor
  · unfold tableWalkThrough
    have hE : ∀ x : Table, actualLambda a x ≠ .error .outOfFuel := by
      intro x; unfold actualLambda; simp only; split <;> simp
    cases hl : actualLambda a t with
    | error e => simp only; intro h; cases h; exact hE t hl
    | ok lam =>
      simp only
      split
      · simp
      · have := walkLoop_fuel (a := a) (reduce := decide (a.lambdaVal < lam)) t.keys fuel 0 t hnd (fun x hx => .inl hx)
          (by rw [dict_length_keys]; omega) (by omega)
        cases hw : walkLoop a (decide (a.lambdaVal < lam)) fuel 0 t with
        | error e => simp only; intro h; cases h; exact this hw
        | ok t1 =>
          simp only
          cases hl1 : actualLambda a t1 with
          | error e => simp only; intro h; cases h; exact hE t1 hl1
          | ok l1 => simp
  · intro hk hW
    unfold tableWalkThrough
    rw [actualLambda_eq hW.len (by omega)]
    simp only
    split
    · exact ⟨_, rfl⟩
    · obtain ⟨t1, ht1⟩ := walkLoop_total (reduce := decide (a.lambdaVal < langtonLambda a.quiescent t)) hk fuel 0 t hW
        (by omega) (by omega)
      rw [ht1]
      simp only
      have hs := (walkLoop_spec (by omega) fuel 0 t t1 hW
        (by rw [Nat.add_zero]; exact candidates_length_le a _ t) ht1).1
      rw [actualLambda_eq (hW.of_keys hs.keys_eq).len (by omega)]
      exact ⟨_, rfl⟩

/-- C36.  Without states the walk raises a `ZeroDivisionError`; with one state there is no other one to choose, so that
raising lambda raises an `IndexError` (unless strong quiescence forbids the change). -/
theorem C36_few_states (a : WalkArgs) (fuel : Nat) :
    (a.k = 0 → ∀ t, tableWalkThrough fuel a t = .error .zeroDivision) ∧
    (a.k = 1 → a.quiescent = 0 → a.strong = false → 0 < a.lambdaVal → 1 ≤ fuel → ∀ s,
      tableWalkThrough fuel a [(s, 0)] = .error .indexError) := by
  constructor
  · intro hk t
    unfold tableWalkThrough actualLambda
    simp only [hk]
    rw [if_pos (Nat.zero_pow (by omega))]
  · intro hk hq hst hl hf s
    obtain ⟨f, rfl⟩ : ∃ f, fuel = f + 1 := ⟨fuel - 1, by omega⟩
    have hlam : actualLambda a [(s, 0)] = .ok 0 := by
      unfold actualLambda
      simp only [hk, hq, Nat.one_pow]
      rw [if_neg (by decide)]
      simp [Dict.values]
      decide +kernel
    have hc : candidates a false [(s, 0)] = [s] := by
      unfold candidates
      simp [hst, hq, Dict.keys, Dict.get?]
    have ho : otherStates a.k a.quiescent = [] := by rw [hk, hq]; decide
    have hp : perturbTable a false 0 [s] [(s, 0)] = .error .indexError := by
      unfold perturbTable
      have h1 : choice (a.pickState 0) [s] = .ok s := by simp [choice, Nat.mod_one]
      rw [h1, ho]
      simp [choice]
    have hd : decide (a.lambdaVal < 0) = false := by
      rw [decide_eq_false_iff_not]; grind
    unfold tableWalkThrough
    rw [hlam]
    simp only
    rw [if_neg (by grind), hd]
    unfold walkLoop
    rw [hlam]
    simp only
    rw [if_pos ⟨by simp [notReached, hl], by simp⟩, hc, if_neg (by simp), hp]

/-- A walk from lambda 3/4 towards 1/4: `r = 1`, the quiescent state is 1, with both constraints. -/
def Ex.walkArgs : WalkArgs :=
  { lambdaVal := 1 / 4, k := 2, r := 1, quiescent := 1, strong := true, isotropic := true,
    pickState := fun i => i, pickOther := fun i => i }

/-- A table of one entry. -/
example : tableWalkThrough 9 { Ex.walkArgs with k := 1, quiescent := 0, strong := false } [("000".toList, 0)] = .error .indexError :=
  (C36_few_states _ 9).2 rfl rfl rfl (by decide +kernel) (by omega) _

/-- The table of the example of C35. -/
def Ex.walkTable : Table :=
  [("000".toList, 0), ("001".toList, 0), ("010".toList, 1), ("011".toList, 0), ("100".toList, 0),
   ("101".toList, 0), ("110".toList, 0), ("111".toList, 1)]

theorem Ex.walkTable_ok : WalkTable Ex.walkArgs Ex.walkTable := by
  refine ⟨by decide, by decide, by decide, fun _ => ?_⟩
  unfold MirrorClosed
  decide

/-- The target is crossed: a step changes two mirror images. -/
example : tableWalkThrough 17 Ex.walkArgs Ex.walkTable
    = .ok ([("000".toList, 0), ("001".toList, 1), ("010".toList, 1), ("011".toList, 1), ("100".toList, 1),
            ("101".toList, 1), ("110".toList, 1), ("111".toList, 1)], 1 / 8) := by decide +kernel

end

end Verif
