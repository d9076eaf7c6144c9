import Verif.Spec.RuleTables
import Verif.Spec.Rules
import Verif.Proofs.Digits
import Verif.Proofs.Rules
/-! # Lemmas about rule tables -/

namespace Verif

/-! ## Numbers and digit lists in base `k` -/

/-- Value of digits, least significant first. -/
def valLE (k : Nat) : List Nat → Nat
  | [] => 0
  | d :: ds => d + k * valLE k ds

theorem valLE_lt {k : Nat} : ∀ ds : List Nat, (∀ d ∈ ds, d < k) → valLE k ds < k ^ ds.length := by
  intro ds
  induction ds with
  | nil => intro _; simp [valLE]
  | cons d ds ih =>
    intro h
    have h1 := ih (fun e he => h e (List.mem_cons_of_mem _ he))
    have h2 := h d (List.mem_cons_self ..)
    rw [valLE, List.length_cons, Nat.pow_succ, Nat.mul_comm _ k]
    calc d + k * valLE k ds < k + k * valLE k ds := by omega
      _ = k * (valLE k ds + 1) := by rw [Nat.mul_add, Nat.mul_one, Nat.add_comm]
      _ ≤ k * k ^ ds.length := Nat.mul_le_mul_left k h1

theorem valLE_digits {k : Nat} : ∀ (w x : Nat), x < k ^ w →
    valLE k ((List.range w).map (fun i => x / k ^ i % k)) = x := by
  intro w
  induction w with
  | zero => intro x hx; have : x = 0 := by simpa using hx
            subst this; rfl
  | succ w ih =>
    intro x hx
    have hk : 0 < k := by
      apply Nat.pos_of_ne_zero
      rintro rfl
      simp [Nat.zero_pow] at hx
    rw [List.range_succ_eq_map, List.map_cons, valLE, List.map_map]
    have hc : ((List.range w).map ((fun i => x / k ^ i % k) ∘ Nat.succ))
        = (List.range w).map (fun i => (x / k) / k ^ i % k) := by
      apply List.map_congr_left
      intro i _
      simp only [Function.comp, Nat.succ_eq_add_one]
      rw [Nat.div_div_eq_div_mul, Nat.pow_succ, Nat.mul_comm k]
    have hb : x / k < k ^ w := by
      rw [Nat.div_lt_iff_lt_mul hk]
      rwa [Nat.pow_succ] at hx
    rw [hc, ih _ hb]
    simp only [Nat.pow_zero, Nat.div_one]
    exact Nat.mod_add_div x k

theorem digits_valLE {k : Nat} : ∀ (ds : List Nat), (∀ d ∈ ds, d < k) →
    (List.range ds.length).map (fun i => valLE k ds / k ^ i % k) = ds := by
  intro ds
  induction ds with
  | nil => intro _; rfl
  | cons d ds ih =>
    intro h
    have hd := h d (List.mem_cons_self ..)
    rw [List.length_cons, List.range_succ_eq_map, List.map_cons, List.map_map]
    congr 1
    · simp only [Nat.pow_zero, Nat.div_one, valLE, Nat.add_mul_mod_self_left]
      exact Nat.mod_eq_of_lt hd
    · conv => rhs; rw [← ih (fun v hv => h v (List.mem_cons_of_mem _ hv))]
      apply List.map_congr_left
      intro i _
      simp only [Function.comp, Nat.succ_eq_add_one]
      have e : valLE k (d :: ds) / k ^ (i + 1) = valLE k ds / k ^ i := by
        rw [Nat.pow_succ, Nat.mul_comm, ← Nat.div_div_eq_div_mul, valLE]
        congr 1
        rw [Nat.add_mul_div_left _ _ (by omega), Nat.div_eq_of_lt hd, Nat.zero_add]
      rw [e]

/-- The string of the number `i` with `n` characters. -/
def strOf (k n i : Nat) : List Char := ((List.range n).map (fun j => i / k ^ j % k)).reverse.map digitChar

theorem stateStrings_ok {k n : Nat} (hk : 2 ≤ k) (hk' : k ≤ 36) (hn : 1 ≤ n) :
    ∀ is : List Nat, (∀ i ∈ is, i < k ^ n) → stateStrings k n is = .ok (is.map (strOf k n)) := by
  intro is
  induction is with
  | nil => intro _; rfl
  | cons i is ih =>
    intro h
    have hi := h i (List.mem_cons_self ..)
    rw [stateStrings, baseRepr, if_neg (by omega)]
    simp only [ih (fun j hj => h j (List.mem_cons_of_mem _ hj))]
    rw [zfill_digits, digitsBE_pad hk hn hi]
    rfl

theorem map_inj_on {α β : Type} {f : α → β} : ∀ {xs ys : List α},
    (∀ x ∈ xs, ∀ y ∈ ys, f x = f y → x = y) → xs.map f = ys.map f → xs = ys := by
  intro xs
  induction xs with
  | nil => intro ys _ h; cases ys with
    | nil => rfl
    | cons => simp at h
  | cons x xs ih =>
    intro ys hf h
    cases ys with
    | nil => simp at h
    | cons y ys =>
      simp only [List.map_cons, List.cons.injEq] at h
      rw [hf x (List.mem_cons_self ..) y (List.mem_cons_self ..) h.1,
        ih (fun a ha b hb => hf a (List.mem_cons_of_mem _ ha) b (List.mem_cons_of_mem _ hb)) h.2]

theorem nodup_map_on {α β : Type} {f : α → β} {xs : List α} (hf : ∀ x ∈ xs, ∀ y ∈ xs, f x = f y → x = y)
    (h : xs.Nodup) : (xs.map f).Nodup := by
  rw [List.Nodup, List.pairwise_map]
  exact List.Pairwise.imp_of_mem (fun {a b} ha hb hne he => hne (hf a ha b hb he)) h

theorem strOf_inj {k n : Nat} (hk : 1 ≤ k) (hk' : k ≤ 36) {i j : Nat} (hi : i < k ^ n) (hj : j < k ^ n)
    (h : strOf k n i = strOf k n j) : i = j := by
  unfold strOf at h
  have h1 := map_inj_on (fun x hx y hy hxy => ?_) h
  · rw [List.reverse_inj] at h1
    rw [← valLE_digits n i hi, ← valLE_digits n j hj, h1]
  · simp only [List.mem_reverse, List.mem_map] at hx hy
    obtain ⟨a, _, rfl⟩ := hx
    obtain ⟨b, _, rfl⟩ := hy
    have := Nat.mod_lt (i / k ^ a) (by omega : k > 0)
    have := Nat.mod_lt (j / k ^ b) (by omega : k > 0)
    exact digitChar_inj (by omega) (by omega) hxy

theorem nodup_states {k n : Nat} (hk : 1 ≤ k) (hk' : k ≤ 36) : ((List.range (k ^ n)).map (strOf k n)).Nodup :=
  nodup_map_on (fun _ hx _ hy h => strOf_inj hk hk' (List.mem_range.1 hx) (List.mem_range.1 hy) h) List.nodup_range

theorem length_strOf (k n i : Nat) : (strOf k n i).length = n := by simp [strOf]

theorem exists_digits {k : Nat} : ∀ s : List Char, (∀ c ∈ s, ∃ d, d < k ∧ c = digitChar d) →
    ∃ ds : List Nat, s = ds.map digitChar ∧ ∀ d ∈ ds, d < k := by
  intro s
  induction s with
  | nil => intro _; exact ⟨[], rfl, by simp⟩
  | cons c s ih =>
    intro h
    obtain ⟨ds, rfl, hds⟩ := ih (fun c' hc' => h c' (List.mem_cons_of_mem _ hc'))
    obtain ⟨d, hd, rfl⟩ := h c (List.mem_cons_self ..)
    exact ⟨d :: ds, rfl, by intro e he; rcases List.mem_cons.1 he with rfl | he; exact hd; exact hds e he⟩

theorem mem_states {k n : Nat} (hk : 1 ≤ k) (s : List Char) :
    s ∈ (List.range (k ^ n)).map (strOf k n) ↔ IsNbhd k n s := by
  rw [List.mem_map]
  constructor
  · rintro ⟨i, _, rfl⟩
    refine ⟨length_strOf k n i, fun c hc => ?_⟩
    simp only [strOf, List.mem_map, List.mem_reverse] at hc
    obtain ⟨_, ⟨j, _, rfl⟩, rfl⟩ := hc
    exact ⟨_, Nat.mod_lt _ (by omega), rfl⟩
  · rintro ⟨hl, hc⟩
    obtain ⟨ds, rfl, hds⟩ := exists_digits s hc
    rw [List.length_map] at hl
    have hds' : ∀ d ∈ ds.reverse, d < k := fun d hd => hds d (List.mem_reverse.1 hd)
    have hlt := valLE_lt ds.reverse hds'
    rw [List.length_reverse, hl] at hlt
    refine ⟨valLE k ds.reverse, List.mem_range.2 hlt, ?_⟩
    have := digits_valLE ds.reverse hds'
    rw [List.length_reverse, hl] at this
    rw [strOf, this, List.reverse_reverse]

/-! ## Uniform strings -/

theorem uniform_iff (s : List Char) : uniform s = true ↔ s ≠ [] ∧ ∃ c, ∀ x ∈ s, x = c := by
  cases s with
  | nil => simp [uniform]
  | cons a s =>
    simp only [uniform, List.all_eq_true, beq_iff_eq, ne_eq, reduceCtorEq, not_false_eq_true, true_and]
    constructor
    · intro h
      exact ⟨a, fun x hx => by rcases List.mem_cons.1 hx with rfl | hx; rfl; exact h x hx⟩
    · rintro ⟨c, hc⟩ x hx
      rw [hc x (List.mem_cons_of_mem _ hx), hc a (List.mem_cons_self ..)]

theorem uniform_reverse (s : List Char) : uniform s.reverse = uniform s := by
  have : uniform s.reverse = true ↔ uniform s = true := by
    rw [uniform_iff, uniform_iff]; simp
  cases h1 : uniform s.reverse <;> cases h2 : uniform s <;> simp_all

/-! ## Counting values -/

theorem count_values_filter (q : Int) (t : Table) :
    t.values.count q + (t.filter (fun p => decide (p.2 ≠ q))).length = t.length := by
  induction t with
  | nil => rfl
  | cons p t ih =>
    rw [Dict.values, List.map_cons, List.count_cons, List.filter_cons, List.length_cons]
    rw [Dict.values] at ih
    by_cases h : p.2 = q
    · simp [h]; simp at ih; omega
    · simp [h]; simp at ih; omega

theorem lambda_eq {N : Nat} {t : Table} (hN : t.length = N) (q : Int) :
    ((N : Rat) - ((t.values.count q : Nat) : Rat)) / (N : Rat) = langtonLambda q t := by
  unfold langtonLambda
  rw [hN]
  congr 1
  have := count_values_filter q t
  rw [hN] at this
  have h2 : ((t.values.count q : Nat) : Rat) + ((t.filter (fun p => decide (p.2 ≠ q))).length : Rat) = (N : Rat) := by
    rw [← this]; simp
  grind

theorem rat_div_lt {a b c : Rat} (hc : 0 < c) (h : a < b) : a / c < b / c := by
  rw [Rat.div_def, Rat.div_def]
  exact Rat.mul_lt_mul_of_pos_right h (Rat.inv_pos.2 hc)

theorem lambda_lt {t t' : Table} {q : Int} (hl : t'.length = t.length) (h : t.values.count q < t'.values.count q) :
    langtonLambda q t' < langtonLambda q t := by
  rw [← lambda_eq (t := t') hl, ← lambda_eq (t := t) rfl]
  have h1 := count_values_filter q t
  apply rat_div_lt
  · have := count_values_filter q t'
    rw [Rat.natCast_pos]; omega
  · have : ((t.values.count q : Nat) : Rat) < ((t'.values.count q : Nat) : Rat) := Rat.natCast_lt_natCast.2 h
    grind

theorem values_set_count (t : Table) (s : List Char) (v q : Int) :
    (t.set s v).values.count q + (if t.get? s = some q then 1 else 0)
      = t.values.count q + (if v = q then 1 else 0) := by
  induction t with
  | nil =>
    simp [Dict.set, Dict.values, Dict.get?, List.count_cons]
  | cons p t ih =>
    rw [Dict.set]
    by_cases h : p.1 = s
    · simp only [if_pos h, Dict.values, List.map_cons, List.count_cons, Dict.get?_cons, Option.some.injEq]
      by_cases h1 : p.2 = q <;> by_cases h2 : v = q <;> simp [h1, h2] <;> omega
    · simp only [if_neg h, Dict.values, List.map_cons, List.count_cons, Dict.get?_cons]
      simp only [Dict.values] at ih
      omega

/-! ## `random_rule_table` -/

theorem mem_otherStates {k : Nat} {q x : Int} : x ∈ otherStates k q ↔ 0 ≤ x ∧ x < (k : Int) ∧ x ≠ q := by
  unfold otherStates
  simp only [List.mem_filter, List.mem_map, List.mem_range, decide_eq_true_eq]
  constructor
  · rintro ⟨⟨a, ha, rfl⟩, h⟩; exact ⟨by omega, by omega, h⟩
  · rintro ⟨h1, h2, h3⟩; exact ⟨⟨x.toNat, by omega, by omega⟩, h3⟩

theorem choice_mem {α : Type} {c : Nat} {xs : List α} {x : α} (h : choice c xs = .ok x) : x ∈ xs := by
  unfold choice at h
  split at h
  · rename_i y hy; cases h; exact List.mem_of_getElem? hy
  · cases h

theorem choice_total {α : Type} (c : Nat) {xs : List α} (h : xs ≠ []) : ∃ x ∈ xs, choice c xs = .ok x := by
  have hp : c % xs.length < xs.length := Nat.mod_lt _ (List.length_pos_iff.2 h)
  refine ⟨xs[c % xs.length], List.getElem_mem hp, ?_⟩
  unfold choice
  rw [List.getElem?_eq_getElem hp]

/-- What holds for the part of the table that has been filled. -/
structure FillInv (a : RandTableArgs) (q : Int) (t : Table) (count : Nat) : Prop where
  nodup : t.keys.Nodup
  vals : ∀ s v, t.get? s = some v → 0 ≤ v ∧ v < (a.k : Int)
  strong : a.strong = true → ∀ n d, d < a.k → ∀ v, t.get? (uniformNbhd (n + 1) d) = some v → v = (d : Int)
  iso : a.isotropic = true → ∀ s v w, t.get? s = some v → t.get? s.reverse = some w → v = w
  cnt : t.values.count q = count

/-- Facts about the chosen cell state. -/
theorem chooseCell_ok {a : RandTableArgs} {lam : Rat} {q : Int} {t : Table} {i : Nat} {s : List Char} {v : Int} {b : Bool}
    (hk : a.k ≤ 36) (hq : 0 ≤ q ∧ q < (a.k : Int))
    (hvals : ∀ s v, t.get? s = some v → 0 ≤ v ∧ v < (a.k : Int))
    (h : chooseCell a lam q t i s = .ok (v, b)) :
    (0 ≤ v ∧ v < (a.k : Int)) ∧ (b = true ↔ v = q) ∧
    (a.strong = true → ∀ n d, d < a.k → s = uniformNbhd (n + 1) d → v = (d : Int)) ∧
    (a.isotropic = true → s.reverse ≠ s → ∀ w, t.get? s.reverse = some w → v = w) := by
  unfold chooseCell at h
  by_cases hc : (a.strong && uniform s) = true
  · rw [if_pos hc] at h
    rw [Bool.and_eq_true] at hc
    cases s with
    | nil => simp [uniform] at hc
    | cons c cs =>
      simp only at h
      cases hi : intOfChar c a.k with
      | error e => rw [hi] at h; cases h
      | ok d =>
        rw [hi] at h
        simp only [Except.ok.injEq, Prod.mk.injEq] at h
        obtain ⟨rfl, rfl⟩ := h
        have hdk : d < a.k := by
          unfold intOfChar at hi
          split at hi
          · cases hi
          · split at hi
            · cases hi; assumption
            · cases hi
        refine ⟨⟨by omega, by omega⟩, by simp, fun _ n e he hs => ?_, fun _ hr => ?_⟩
        · rw [uniformNbhd, List.replicate_succ] at hs
          injection hs with h1 h2
          rw [h1, intOfChar_digitChar hk he] at hi
          cases hi; rfl
        · exfalso
          apply hr
          obtain ⟨_, x, hx⟩ := (uniform_iff _).1 hc.2
          have e : (c :: cs) = List.replicate (c :: cs).length x := List.eq_replicate_iff.2 ⟨rfl, hx⟩
          rw [e, List.reverse_replicate]
  · rw [if_neg hc] at h
    have hnu : a.strong = true → ∀ n d, d < a.k → s = uniformNbhd (n + 1) d → v = (d : Int) := by
      intro hst n d _ hs
      exfalso
      apply hc
      rw [Bool.and_eq_true]
      refine ⟨hst, (uniform_iff s).2 ⟨?_, digitChar d, fun x hx => ?_⟩⟩
      · rw [hs, uniformNbhd, List.replicate_succ]; simp
      · rw [hs] at hx; exact List.eq_of_mem_replicate hx
    cases hiso : (if a.isotropic then t.get? s.reverse else none) with
    | some w =>
      rw [hiso] at h
      simp only [Except.ok.injEq, Prod.mk.injEq] at h
      obtain ⟨rfl, rfl⟩ := h
      have hi : a.isotropic = true := by
        apply Decidable.byContradiction; intro hh
        rw [if_neg hh] at hiso; cases hiso
      rw [if_pos hi] at hiso
      refine ⟨hvals _ _ hiso, by simp, hnu, fun _ _ w' hw => ?_⟩
      rw [hiso] at hw; cases hw; rfl
    | none =>
      rw [hiso] at h
      have hisoc : a.isotropic = true → s.reverse ≠ s → ∀ w, t.get? s.reverse = some w → v = w := by
        intro hi _ w hw
        rw [if_pos hi, hw] at hiso
        cases hiso
      by_cases hd : a.draw i < 1 - lam
      · simp only [if_pos hd, Except.ok.injEq, Prod.mk.injEq] at h
        obtain ⟨rfl, rfl⟩ := h
        exact ⟨hq, by simp, hnu, hisoc⟩
      · simp only [if_neg hd] at h
        cases hch : choice (a.pick i) (otherStates a.k q) with
        | error e => rw [hch] at h; cases h
        | ok v' =>
          rw [hch] at h
          simp only [Except.ok.injEq, Prod.mk.injEq] at h
          obtain ⟨rfl, rfl⟩ := h
          have hm := mem_otherStates.1 (choice_mem hch)
          exact ⟨⟨hm.1, hm.2.1⟩, by simp [hm.2.2], hnu, hisoc⟩

theorem fillTable_inv {a : RandTableArgs} {lam : Rat} {q : Int} (hk : a.k ≤ 36) (hq : 0 ≤ q ∧ q < (a.k : Int)) :
    ∀ (ss : List (List Char)) (i : Nat) (t : Table) (count : Nat) (t' : Table) (count' : Nat),
      FillInv a q t count → ss.Nodup → (∀ s ∈ ss, s ∉ t.keys) →
      fillTable a lam q ss i t count = .ok (t', count') →
      FillInv a q t' count' ∧ t'.keys = t.keys ++ ss := by
  intro ss
  induction ss with
  | nil =>
    intro i t count t' count' hinv _ _ h
    simp only [fillTable, Except.ok.injEq, Prod.mk.injEq] at h
    obtain ⟨rfl, rfl⟩ := h
    exact ⟨hinv, by simp⟩
  | cons s ss ih =>
    intro i t count t' count' hinv hnd hfresh h
    rw [fillTable] at h
    cases hc : chooseCell a lam q t i s with
    | error e => rw [hc] at h; cases h
    | ok p =>
      obtain ⟨v, b⟩ := p
      rw [hc] at h
      simp only at h
      obtain ⟨f1, f2, f3, f4⟩ := chooseCell_ok hk hq hinv.vals hc
      have hs : s ∉ t.keys := hfresh s (List.mem_cons_self ..)
      have hnone : t.get? s = none := Dict.get?_eq_none_iff.2 hs
      have hinv' : FillInv a q (t.set s v) (if b then count + 1 else count) := by
        refine ⟨Dict.nodup_keys_set hinv.nodup s v, fun x w hx => ?_, fun hst n d hd w hw => ?_,
          fun hi x w w' hx hx' => ?_, ?_⟩
        · rw [Dict.get?_set] at hx
          split at hx
          · cases hx; exact f1
          · exact hinv.vals x w hx
        · rw [Dict.get?_set] at hw
          split at hw
          · rename_i he
            cases hw
            exact f3 hst n d hd (by first | exact he.symm | exact he)
          · exact hinv.strong hst n d hd w hw
        · rw [Dict.get?_set] at hx hx'
          by_cases e1 : s = x
          · subst e1
            by_cases e2 : s = s.reverse
            · rw [← e2] at hx'
              simp at hx hx'
              rw [← hx, ← hx']
            · rw [if_neg (by first | exact e2 | exact fun h => e2 h.symm)] at hx'
              simp at hx
              rw [← hx]
              exact f4 hi (fun h => e2 h.symm) w' hx'
          · rw [if_neg (by first | exact e1 | exact fun h => e1 h.symm)] at hx
            by_cases e2 : s = x.reverse
            · rw [if_pos (by first | exact e2 | exact e2.symm)] at hx'
              cases hx'
              have e3 : x = s.reverse := by rw [e2, List.reverse_reverse]
              rw [e3] at hx
              exact (f4 hi (fun h => e1 (by rw [← h, ← e3])) w hx).symm
            · rw [if_neg (by first | exact e2 | exact fun h => e2 h.symm)] at hx'
              exact hinv.iso hi x w w' hx hx'
        · have := values_set_count t s v q
          rw [hnone, hinv.cnt] at this
          simp only [reduceCtorEq, if_false, Nat.add_zero] at this
          rw [this]
          by_cases hv : v = q
          · rw [if_pos hv, f2.2 hv]; simp
          · have : b = false := by
              cases b with
              | false => rfl
              | true => exact absurd (f2.1 rfl) hv
            rw [if_neg hv, this]; simp
      have hkeys : (t.set s v).keys = t.keys ++ [s] := by
        rw [Dict.set_of_not_mem hs]; simp [Dict.keys]
      have := ih (i + 1) (t.set s v) _ t' count' hinv' (List.nodup_cons.1 hnd).2 (fun x hx => ?_) h
      · refine ⟨this.1, ?_⟩
        rw [this.2, hkeys]; simp
      · rw [hkeys, List.mem_append]
        rintro (h | h)
        · exact hfresh x (List.mem_cons_of_mem _ hx) h
        · have : x = s := by simpa using h
          subst this
          exact (List.nodup_cons.1 hnd).1 hx

/-- With at least two states and quiescent state in range, filling never raises on neighbourhood strings. -/
theorem fillTable_total {a : RandTableArgs} {lam : Rat} {q : Int} (hk2 : 2 ≤ a.k) (hk : a.k ≤ 36) :
    ∀ (ss : List (List Char)) (i : Nat) (t : Table) (count : Nat),
      (∀ s ∈ ss, ∃ n, IsNbhd a.k (n + 1) s) → ∃ r, fillTable a lam q ss i t count = .ok r := by
  intro ss
  induction ss with
  | nil => intro i t count _; exact ⟨_, rfl⟩
  | cons s ss ih =>
    intro i t count h
    have hc : ∃ v b, chooseCell a lam q t i s = .ok (v, b) := by
      unfold chooseCell
      by_cases hc : (a.strong && uniform s) = true
      · rw [if_pos hc]
        obtain ⟨n, hl, hch⟩ := h s (List.mem_cons_self ..)
        cases s with
        | nil => simp at hl
        | cons c cs =>
          obtain ⟨d, hd, rfl⟩ := hch c (List.mem_cons_self ..)
          simp only [intOfChar_digitChar hk hd]
          exact ⟨_, _, rfl⟩
      · rw [if_neg hc]
        cases (if a.isotropic then t.get? s.reverse else none) with
        | some w => exact ⟨_, _, rfl⟩
        | none =>
          simp only
          split
          · exact ⟨_, _, rfl⟩
          · have hne : otherStates a.k q ≠ [] := by
              intro he
              by_cases h0 : q = 0
              · have : (1 : Int) ∈ otherStates a.k q := mem_otherStates.2 ⟨by omega, by omega, by omega⟩
                rw [he] at this; simp at this
              · have : (0 : Int) ∈ otherStates a.k q := mem_otherStates.2 ⟨by omega, by omega, by omega⟩
                rw [he] at this; simp at this
            obtain ⟨x, _, hx⟩ := choice_total (a.pick i) hne
            rw [hx]
            exact ⟨_, _, rfl⟩
    obtain ⟨v, b, hvb⟩ := hc
    rw [fillTable, hvb]
    exact ih _ _ _ (fun x hx => h x (List.mem_cons_of_mem _ hx))

/-- Without constraints every entry is decided by its own draw. -/
theorem fillTable_draws {a : RandTableArgs} {lam : Rat} {q : Int} (hst : a.strong = false) (hi : a.isotropic = false) :
    ∀ (ss : List (List Char)) (t : Table) (count : Nat) (t' : Table) (count' : Nat),
      ss.Nodup → (∀ s ∈ ss, s ∉ t.keys) →
      (∀ i s v, t[i]? = some (s, v) → (v = q ↔ a.draw i < 1 - lam)) →
      fillTable a lam q ss t.length t count = .ok (t', count') →
      ∀ i s v, t'[i]? = some (s, v) → (v = q ↔ a.draw i < 1 - lam) := by
  intro ss
  induction ss with
  | nil =>
    intro t count t' count' _ _ hd h
    simp only [fillTable, Except.ok.injEq, Prod.mk.injEq] at h
    obtain ⟨rfl, rfl⟩ := h
    exact hd
  | cons s ss ih =>
    intro t count t' count' hnd hfresh hd h
    rw [fillTable] at h
    cases hc : chooseCell a lam q t t.length s with
    | error e => rw [hc] at h; cases h
    | ok p =>
      obtain ⟨v, b⟩ := p
      rw [hc] at h
      simp only at h
      have hv : v = q ↔ a.draw t.length < 1 - lam := by
        unfold chooseCell at hc
        simp only [hst, hi, Bool.false_and, Bool.false_eq_true, if_false] at hc
        split at hc
        · rename_i hlt
          simp only [Except.ok.injEq, Prod.mk.injEq] at hc
          exact ⟨fun _ => hlt, fun _ => hc.1.symm⟩
        · rename_i hlt
          cases hch : choice (a.pick t.length) (otherStates a.k q) with
          | error e => rw [hch] at hc; cases hc
          | ok w =>
            rw [hch] at hc
            simp only [Except.ok.injEq, Prod.mk.injEq] at hc
            have := (mem_otherStates.1 (choice_mem hch)).2.2
            rw [hc.1] at this
            exact ⟨fun h => absurd h this, fun h => absurd h hlt⟩
      have hset : t.set s v = t ++ [(s, v)] := Dict.set_of_not_mem (hfresh s (List.mem_cons_self ..)) v
      rw [hset] at h
      have hlen : t.length + 1 = (t ++ [(s, v)]).length := by rw [List.length_append]; rfl
      rw [hlen] at h
      refine ih (t ++ [(s, v)]) _ t' count' (List.nodup_cons.1 hnd).2 (fun x hx hm => ?_) (fun i x w hx => ?_) h
      · have hm' : x ∈ t.keys ∨ x = s := by simpa [Dict.keys] using hm
        rcases hm' with h | h
        · exact hfresh x (List.mem_cons_of_mem _ hx) h
        · subst h; exact (List.nodup_cons.1 hnd).1 hx
      · by_cases hil : i < t.length
        · rw [List.getElem?_append_left hil] at hx
          exact hd i x w hx
        · rw [List.getElem?_append_right (by omega)] at hx
          have : i - t.length = 0 := by
            apply Decidable.byContradiction; intro hne
            rw [List.getElem?_eq_none (by simp; omega)] at hx
            cases hx
          rw [this] at hx
          simp only [List.getElem?_cons_zero, Option.some.injEq, Prod.mk.injEq] at hx
          have : i = t.length := by omega
          rw [← hx.2, this]
          exact hv

/-- Normal results of `random_rule_table`. -/
theorem randomRuleTable_ok {a : RandTableArgs} {t : Table} {lam : Rat} {q : Int}
    (h : randomRuleTable a = .ok (t, lam, q)) :
    2 ≤ a.k ∧ a.k ≤ 36 ∧ (0 ≤ q ∧ q < (a.k : Int)) ∧ (∀ q', a.quiescent = some q' → q = q') ∧
    ∃ lam0 count, effectiveLambda a = .ok lam0 ∧ fillTable a lam0 q ((List.range (a.k ^ (2 * a.r + 1))).map (strOf a.k (2 * a.r + 1))) 0 [] 0
        = .ok (t, count) ∧
      lam = (((a.k ^ (2 * a.r + 1) : Nat) : Rat) - (count : Rat)) / ((a.k ^ (2 * a.r + 1) : Nat) : Rat) := by
  unfold randomRuleTable at h
  simp only at h
  cases hs : stateStrings a.k (2 * a.r + 1) (List.range (a.k ^ (2 * a.r + 1))) with
  | error e => rw [hs] at h; cases h
  | ok states =>
    rw [hs] at h
    simp only at h
    split at h
    · cases h
    · rename_i lam0 hlam0
      split at h
      · cases h
      · rename_i q0 hq0
        split at h
        · cases h
        · rename_i hq
          have hq' : 0 ≤ q0 ∧ q0 ≤ (a.k : Int) - 1 := Decidable.not_not.1 hq
          split at h
          · cases h
          · rename_i t0 count hfill
            simp only [Except.ok.injEq, Prod.mk.injEq] at h
            obtain ⟨rfl, rfl, rfl⟩ := h
            have hk1 : 1 ≤ a.k := by omega
            have hk : 2 ≤ a.k ∧ a.k ≤ 36 := by
              have hpos : 0 < a.k ^ (2 * a.r + 1) := Nat.pow_pos hk1
              obtain ⟨m, hm⟩ : ∃ m, a.k ^ (2 * a.r + 1) = m + 1 := ⟨_ - 1, (Nat.sub_add_cancel hpos).symm⟩
              rw [hm, List.range_succ_eq_map, stateStrings] at hs
              unfold baseRepr at hs
              by_cases hb : a.k < 2 ∨ 36 < a.k
              · rw [if_pos hb] at hs; cases hs
              · omega
            rw [stateStrings_ok hk.1 hk.2 (by omega) _ (fun i hi => List.mem_range.1 hi)] at hs
            cases hs
            refine ⟨hk.1, hk.2, by omega, fun q' hq'' => ?_, lam0, count, hlam0, hfill, rfl⟩
            rw [effectiveQuiescent, hq''] at hq0
            cases hq0; rfl

end Verif
