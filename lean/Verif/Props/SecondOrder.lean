import Verif.Spec.SecondOrder
import Verif.Props.Reversible
import Verif.Props.EndToEnd
/-! # Property C113: reversible elementary cellular automata, end to end -/

namespace Verif
open Spec
section
variable {I σ κ : Type} [DecidableEq κ]

theorem ecaTwo_lt {n R : Nat} {p s : Nat → Nat} (hp : ∀ x, x < n → p x < 2) (hs : ∀ x, x < n → s x < 2) :
    ∀ t x, x < n → ecaTwo n R p s t x < 2
  | 0, x, hx => hp x hx
  | 1, x, hx => hs x hx
  | t + 2, x, _ => by unfold ecaTwo; exact Nat.mod_lt _ (by decide)

theorem pyXor_bits {a b : Nat} (ha : a < 2) (hb : b < 2) : pyXor (a : Int) (b : Int) = (((a + b) % 2 : Nat) : Int) := by
  match a, b with
  | 0, 0 | 0, 1 | 1, 0 | 1, 1 => rfl
  | a + 2, _ => omega
  | _, b + 2 => omega

/-- The rule of the ring on binary neighbourhoods. -/
theorem nks_three {R l c r : Nat} (hR : R < 256) (hl : l < 2) (hc : c < 2) (hr : r < 2) (ctx : NodeCtx Nat Int Int I)
    (h : ctx.neighbourActs = [(l : Int), (c : Int), (r : Int)]) : nksCaRule (R : Int) ctx = .ok (ecaRule R l c r : Int) := by
  have hb : Binary ctx.neighbourActs := by
    rw [h]
    intro v hv
    simp only [List.mem_cons, List.not_mem_nil, or_false] at hv
    rcases hv with rfl | rfl | rfl <;> omega
  have h256 : 2 ^ 2 ^ ctx.neighbourActs.length = 256 := by
    have h3 : ctx.neighbourActs.length = 3 := by rw [h]; simp only [List.length_cons, List.length_nil]
    rw [h3]
  rw [(C28_binary_ca R ctx hb (by omega)).2.2.1]
  have hnum : (numeral ctx.neighbourActs).toNat = 4 * l + 2 * c + r := by
    rw [h]
    simp only [numeral, List.foldl]
    omega
  rw [hnum]
  rfl

/-- C113.  On `cellular_automaton(n)` with a rule number `R < 256`, binary initial state `s` and past conditions ending with
the binary state `p`, an ordinary call of `evolve` with `ReversibleRule(nks_ca_rule(R))`, not memoized, returns, and its
states are the second-order automaton. -/
theorem C113_run (n R : Nat) (hn : 3 ≤ n) (hR : R < 256) (cfg : Config Nat Int Int I σ κ) (T : Nat) (hT : 1 ≤ T)
    (h : cfg.Ordinary (reversibleRule (nksCaRule (R : Int))) T) (hm : cfg.memoize = false) (N : Net Nat Int)
    (hN : cellularAutomaton n 1 true = .ok N) (r : Nat) (w : World Nat Int σ) (hr : w.heap[r]? = some N) (p s : Nat → Nat)
    (hp : ∀ x, x < n → p x < 2) (hs : ∀ x, x < n → s x < 2) (P : Conds Nat Int) (hP : cfg.past.getLast? = some P)
    (hpast : ∀ x, x < n → (P.toDict cfg.natLabel).get? x = some (p x : Int)) (init : Option (Conds Nat Int))
    (hlen : (initDict cfg init).length = n) (h0 : ∀ x, x < n → (initDict cfg init).get? x = some (s x : Int)) (fuel : Nat)
    (hf : T ≤ fuel) :
    ∃ res, evolve fuel cfg init r w = .ok res ∧ ShowsRun cfg res T n (fun t x => (ecaTwo n R p s (t + 1) x : Int)) := by
  obtain ⟨N', rs, e1, e2, e3, e4⟩ := C43_left_to_right n 1 hn (by omega)
  rw [hN] at e1
  cases e1
  have hlt := ecaTwo_lt (R := R) hp hs
  have hmem : ∀ x, x ∈ N.labels ↔ x < n := fun x => by rw [e3.mem_iff, List.mem_range]
  have hne : N.labels ≠ [] := by
    intro hc
    have := (hmem 0).2 (by omega)
    rw [hc] at this
    cases this
  refine ca_run h hT (by omega) e3 (nb := fun x => [(x + n - 1) % n, x, (x + 1) % n]) ?_ hlen h0 ?_ ?_ hr hf
  · intro x hx
    refine ⟨?_, ?_⟩
    · simp only [specNbrs, e2]
      rw [e4 x hx, ringCell_three hx hn]
    · intro y hy
      simp only [List.mem_cons, List.not_mem_nil, or_false] at hy
      rcases hy with rfl | rfl | rfl
      · exact Nat.mod_lt _ (by omega)
      · exact hx
      · exact Nat.mod_lt _ (by omega)
  · intro t ht x hx
    have l1 := hlt (t + 1) ((x + n - 1) % n) (Nat.mod_lt _ (by omega))
    have l2 := hlt (t + 1) x hx
    have l3 := hlt (t + 1) ((x + 1) % n) (Nat.mod_lt _ (by omega))
    unfold reversibleRule
    rw [nks_three hR l1 l2 l3 _ rfl]
    simp only
    have hd : initDict cfg init ≠ [] := by intro hc; rw [hc] at hlen; simp at hlen; omega
    have hpa := past_last h.persist h.compression hP hne hd (f := fun t x => (ecaTwo n R p s (t + 1) x : Int))
      (nb := fun x => [(x + n - 1) % n, x, (x + 1) % n]) t x x
    have hval : pastActivityOf (plainCtx cfg N (fun x => [(x + n - 1) % n, x, (x + 1) % n]) (initDict cfg init)
        (fun t x => (ecaTwo n R p s (t + 1) x : Int)) t x) x = .ok (ecaTwo n R p s t x : Int) := by
      rw [hpa, Dict.get_eq_ok_iff]
      by_cases ht0 : t = 0
      · rw [if_pos ht0, ht0]
        exact hpast x hx
      · rw [if_neg ht0, get?_plainActs (f := fun t x => (ecaTwo n R p s (t + 1) x : Int))
          (fun y hy => h0 y ((hmem y).1 hy)) (t - 1) ((hmem x).2 hx)]
        show some ((ecaTwo n R p s (t - 1 + 1) x : Nat) : Int) = _
        rw [show t - 1 + 1 = t by omega]
    have hnode : (plainCtx cfg N (fun x => [(x + n - 1) % n, x, (x + 1) % n]) (initDict cfg init)
        (fun t x => (ecaTwo n R p s (t + 1) x : Int)) t x).node = x := rfl
    rw [hnode, hval]
    simp only
    rw [pyXor_bits (show ecaRule R _ _ _ < 2 from Nat.mod_lt _ (by decide)) (hlt t x hx)]
    rfl
  · intro hc
    rw [hm] at hc
    cases hc

end

/-- One row and the one before determine the next, and the same rule leads back. -/
theorem ecaTwo_back {n R : Nat} (hn : 0 < n) {p s p' s' : Nat → Nat} (hp : ∀ x, x < n → p x < 2) (hs : ∀ x, x < n → s x < 2) (K : Nat)
    (h0 : ∀ x, x < n → p' x = ecaTwo n R p s (K + 1) x) (h1 : ∀ x, x < n → s' x = ecaTwo n R p s K x) :
    ∀ t, t ≤ K + 1 → ∀ x, x < n → ecaTwo n R p' s' t x = ecaTwo n R p s (K + 1 - t) x
  | 0, _, x, hx => h0 x hx
  | 1, _, x, hx => h1 x hx
  | t + 2, ht, x, hx => by
    have i0 := ecaTwo_back hn hp hs K h0 h1 t (by omega)
    have i1 := ecaTwo_back hn hp hs K h0 h1 (t + 1) (by omega)
    rw [ecaTwo, i0 x hx, i1 x hx, i1 _ (Nat.mod_lt _ hn), i1 _ (Nat.mod_lt _ hn)]
    have e : K + 1 - t = (K + 1 - (t + 2)) + 2 := by omega
    have e' : K + 1 - (t + 1) = (K + 1 - (t + 2)) + 1 := by omega
    rw [e, e', ecaTwo]
    have hb := ecaTwo_lt (R := R) hp hs (K + 1 - (t + 2)) x hx
    generalize ecaRule R _ _ _ = a
    generalize ecaTwo n R p s (K + 1 - (t + 2)) x = b at *
    omega

/-- Rows are determined by any two consecutive rows. -/
theorem ecaTwo_shift {n R : Nat} (hn : 0 < n) {p s p' s' : Nat → Nat} (a b : Nat)
    (h0 : ∀ x, x < n → ecaTwo n R p' s' a x = ecaTwo n R p s b x)
    (h1 : ∀ x, x < n → ecaTwo n R p' s' (a + 1) x = ecaTwo n R p s (b + 1) x) :
    ∀ t x, x < n → ecaTwo n R p' s' (a + t) x = ecaTwo n R p s (b + t) x
  | 0, x, hx => h0 x hx
  | 1, x, hx => h1 x hx
  | t + 2, x, hx => by
    have i0 := ecaTwo_shift hn a b h0 h1 t
    have i1 := ecaTwo_shift hn a b h0 h1 (t + 1)
    show ecaTwo n R p' s' ((a + t) + 2) x = ecaTwo n R p s ((b + t) + 2) x
    rw [ecaTwo, ecaTwo]
    have j1 : ∀ y, y < n → ecaTwo n R p' s' (a + t + 1) y = ecaTwo n R p s (b + t + 1) y := i1
    rw [i0 x hx, j1 x hx, j1 _ (Nat.mod_lt _ hn), j1 _ (Nat.mod_lt _ hn)]

/-- C113.  The two evolutions of the demo (`rule214R_demo.py:10-20`), for every rule, size, initial state and number `K + 2`
of timesteps of the first: the second starts from the first's last state but one, with its last state as past, and goes on
for `2 (K + 1)` timesteps.  Its states are those of the first in reverse down to the initial state, then the initial state
again and the first evolution once more: a palindrome. -/
theorem C113_palindrome {n R : Nat} (hn : 0 < n) {s : Nat → Nat} (hs : ∀ x, x < n → s x < 2) (K : Nat) :
    let z := ecaTwo n R s s
    let y := ecaTwo n R (z (K + 2)) (z (K + 1))
    ∀ x, x < n → (∀ t, t ≤ K → y (t + 1) x = z (K - t + 1) x) ∧ (∀ t, y (K + 2 + t) x = z (t + 1) x) ∧
      ∀ t, t < 2 * (K + 1) → y (t + 1) x = y (2 * (K + 1) - 1 - t + 1) x := by
  intro z y
  have hb : ∀ t, t ≤ K + 2 → ∀ x, x < n → y t x = z (K + 2 - t) x :=
    ecaTwo_back hn hs hs (K + 1) (fun _ _ => rfl) (fun _ _ => rfl)
  have hfwd : ∀ t x, x < n → y (K + 2 + t) x = z (t + 1) x := by
    -- rows K+1 and K+2 of `y` are rows 1 and 0 of `z`, which are equal
    have k1 : ∀ x, x < n → y (K + 1) x = z 0 x := by
      intro x hx
      rw [hb (K + 1) (by omega) x hx, show K + 2 - (K + 1) = 1 by omega]
      rfl
    have k2 : ∀ x, x < n → y (K + 1 + 1) x = z (0 + 1) x := by
      intro x hx
      rw [hb (K + 2) (by omega) x hx, show K + 2 - (K + 2) = 0 by omega]
      rfl
    intro t x hx
    have := ecaTwo_shift (R := R) hn (K + 1) 0 k1 k2 (t + 1) x hx
    rw [show K + 2 + t = K + 1 + (t + 1) by omega]
    refine this.trans ?_
    rw [Nat.zero_add]
  intro x hx
  have hbk : ∀ t, t ≤ K → y (t + 1) x = z (K - t + 1) x := by
    intro t ht
    rw [hb (t + 1) (by omega) x hx, show K + 2 - (t + 1) = K - t + 1 by omega]
  refine ⟨hbk, fun t => hfwd t x hx, fun t ht => ?_⟩
  by_cases hk : t ≤ K
  · rw [hbk t hk, show 2 * (K + 1) - 1 - t + 1 = K + 2 + (K - t) by omega, hfwd _ x hx]
  · rw [hbk (2 * (K + 1) - 1 - t) (by omega), show t + 1 = K + 2 + (t - K - 1) by omega, hfwd _ x hx,
      show K - (2 * (K + 1) - 1 - t) = t - K - 1 by omega]

/-- C113: the two calls of the demo (`rule214R_demo.py:10-20`).  The first, of `K + 2` timesteps, has the initial state
also as past condition; the second starts from the first's last state but one, has its last state as past condition and
takes `2 (K + 1)` timesteps.  Both return; the second shows the first in reverse, and is a palindrome. -/
theorem C113_demo {I σ κ : Type} [DecidableEq κ] (n R : Nat) (hn : 3 ≤ n) (hR : R < 256) (K : Nat) (N : Net Nat Int)
    (hN : cellularAutomaton n 1 true = .ok N) (s : Nat → Nat) (hs : ∀ x, x < n → s x < 2)
    (cfg : Config Nat Int Int I σ κ) (h : cfg.Ordinary (reversibleRule (nksCaRule (R : Int))) (K + 2)) (hm : cfg.memoize = false)
    (r : Nat) (w : World Nat Int σ) (hr : w.heap[r]? = some N) (P : Conds Nat Int) (hP : cfg.past.getLast? = some P)
    (hpast : ∀ x, x < n → (P.toDict cfg.natLabel).get? x = some (s x : Int)) (init : Option (Conds Nat Int))
    (hlen : (initDict cfg init).length = n) (h0 : ∀ x, x < n → (initDict cfg init).get? x = some (s x : Int)) (fuel : Nat)
    (hf : 2 * (K + 1) ≤ fuel) :
    ∃ res, evolve fuel cfg init r w = .ok res ∧ res.states.length = K + 2 ∧
      ∀ (cfg' : Config Nat Int Int I σ κ), cfg'.Ordinary (reversibleRule (nksCaRule (R : Int))) (2 * (K + 1)) → cfg'.memoize = false →
      ∀ (r' : Nat) (w' : World Nat Int σ), w'.heap[r']? = some N → ∀ P', cfg'.past.getLast? = some P' →
      (∀ x, x < n → (P'.toDict cfg'.natLabel).get? x = valAt cfg res (K + 1) x) →
      ∀ init', (initDict cfg' init').length = n → (∀ x, x < n → (initDict cfg' init').get? x = valAt cfg res K x) →
      ∃ res', evolve fuel cfg' init' r' w' = .ok res' ∧ res'.states.length = 2 * (K + 1) ∧
        ∀ x, x < n → (∀ t, t ≤ K → valAt cfg' res' t x = valAt cfg res (K - t) x) ∧
          ∀ t, t < 2 * (K + 1) → ∃ v, valAt cfg' res' t x = some v ∧ valAt cfg' res' (2 * (K + 1) - 1 - t) x = some v := by
  have shown : ∀ {cfg : Config Nat Int Int I σ κ} {res : Evolved Nat Int Int σ} {T : Nat} {f : Nat → Nat → Int}, ShowsRun cfg res T n f →
      ∀ t, t < T → ∀ x, x < n → valAt cfg res t x = some (f t x) := by
    intro cfg res T f hsr t ht x hx
    obtain ⟨d, d1, _, d3⟩ := hsr.2 t ht
    unfold valAt
    rw [d1]
    exact d3 x hx
  obtain ⟨res, e1, e2⟩ := C113_run n R hn hR cfg (K + 2) (by omega) h hm N hN r w hr s s hs hs P hP hpast init hlen h0 fuel (by omega)
  have s1 := shown e2
  refine ⟨res, e1, e2.1, ?_⟩
  intro cfg' h' hm' r' w' hr' P' hP' hpast' init' hlen' h0'
  have hlt := ecaTwo_lt (R := R) hs hs
  obtain ⟨res', e1', e2'⟩ := C113_run n R hn hR cfg' (2 * (K + 1)) (by omega) h' hm' N hN r' w' hr'
    (ecaTwo n R s s (K + 2)) (ecaTwo n R s s (K + 1)) (hlt _) (hlt _) P' hP'
    (fun x hx => by rw [hpast' x hx, s1 (K + 1) (by omega) x hx])
    init' hlen' (fun x hx => by rw [h0' x hx, s1 K (by omega) x hx]) fuel hf
  have s2 := shown e2'
  refine ⟨res', e1', e2'.1, fun x hx => ?_⟩
  obtain ⟨p1, _, p3⟩ := C113_palindrome (R := R) (by omega : 0 < n) hs K x hx
  refine ⟨fun t ht => ?_, fun t ht => ⟨_, s2 t ht x hx, ?_⟩⟩
  · rw [s2 t (by omega) x hx, s1 (K - t) (by omega) x hx]
    exact congrArg (fun v : Nat => some (v : Int)) (p1 t ht)
  · rw [s2 (2 * (K + 1) - 1 - t) (by omega) x hx]
    exact congrArg (fun v : Nat => some (v : Int)) (p3 t ht).symm

/-- The hypotheses are met: rule 214 on five cells, five timesteps. -/
example : ∃ N res, cellularAutomaton 5 1 true = .ok N ∧
    evolve 8 ({ Ex.base with rule := some (pureRule (reversibleRule (nksCaRule 214))), input := .timesteps 5, past := [.list [0, 0, 1, 0, 0]] })
      (some (.list [0, 0, 1, 0, 0])) 0 ⟨[N], []⟩ = .ok res ∧ res.states.length = 5 := by
  obtain ⟨N, _, hN, _⟩ := C43_left_to_right 5 1 (by omega) (by omega)
  obtain ⟨res, h1, h2, _⟩ := C113_demo 5 214 (by omega) (by omega) 3 N hN (fun x => if x = 2 then 1 else 0) (by decide)
    { Ex.base with rule := some (pureRule (reversibleRule (nksCaRule 214))), input := .timesteps 5, past := [.list [0, 0, 1, 0, 0]] }
    ⟨rfl, rfl, rfl, rfl, rfl, rfl, rfl⟩ rfl 0 ⟨[N], []⟩ rfl (.list [0, 0, 1, 0, 0]) rfl (by decide) (some (.list [0, 0, 1, 0, 0])) rfl (by decide)
    8 (by omega)
  exact ⟨N, res, hN, h1, h2⟩
example : (List.range 7).map (ecaTwo 7 214 (fun x => if x = 3 then 1 else 0) (fun x => if x = 3 then 1 else 0) 3) = [0, 1, 1, 1, 1, 1, 0] := by
  decide +kernel

/-! ### Cycles -/

/-- Among `M + 1` numbers below `M` two are equal. -/
theorem pigeonhole {M : Nat} {f : Nat → Nat} (h : ∀ k, f k < M) : ∃ i j, i < j ∧ j ≤ M ∧ f i = f j := by
  refine Classical.byContradiction (fun hno => ?_)
  have hnd : ((List.range (M + 1)).map f).Nodup := by
    refine List.pairwise_map.2 ?_
    refine (List.pairwise_lt_range (n := M + 1)).imp_of_mem ?_
    intro a b _ hb hab he
    rw [List.mem_range] at hb
    exact hno ⟨a, b, hab, by omega, he⟩
  have := hnd.length_le_of_subset (l₂ := List.range M) (by
    intro v hv
    obtain ⟨k, _, rfl⟩ := List.mem_map.1 hv
    exact List.mem_range.2 (h k))
  simp at this
  omega

/-- A binary row as a number. -/
def rowCode (z : Nat → Nat) : Nat → Nat
  | 0 => 0
  | n + 1 => 2 * rowCode z n + z n

theorem rowCode_lt {z : Nat → Nat} : ∀ {n}, (∀ x, x < n → z x < 2) → rowCode z n < 2 ^ n
  | 0, _ => by rw [rowCode]; decide
  | n + 1, h => by
    have := rowCode_lt (z := z) (n := n) (fun x hx => h x (by omega))
    have := h n (by omega)
    rw [rowCode, Nat.pow_succ]
    omega

theorem rowCode_inj {z z' : Nat → Nat} : ∀ {n}, (∀ x, x < n → z x < 2) → (∀ x, x < n → z' x < 2) → rowCode z n = rowCode z' n →
    ∀ x, x < n → z x = z' x
  | 0, _, _, _, x, hx => by omega
  | n + 1, h, h', he, x, hx => by
    rw [rowCode, rowCode] at he
    have a := h n (by omega)
    have b := h' n (by omega)
    by_cases hxn : x = n
    · subst hxn; omega
    · exact rowCode_inj (n := n) (fun x hx => h x (by omega)) (fun x hx => h' x (by omega)) (by omega) x (by omega)

/-- C113.  A reversible elementary automaton returns to where it began: its rows are periodic from the start, with a
period of at most `4 ^ n`. -/
theorem C113_periodic {n R : Nat} (hn : 0 < n) {p s : Nat → Nat} (hp : ∀ x, x < n → p x < 2) (hs : ∀ x, x < n → s x < 2) :
    ∃ P, 0 < P ∧ P ≤ 4 ^ n ∧ ∀ t x, x < n → ecaTwo n R p s (t + P) x = ecaTwo n R p s t x := by
  have hlt := ecaTwo_lt (R := R) hp hs
  obtain ⟨i, j, hij, hj, he⟩ := pigeonhole (M := 4 ^ n) (f := fun t => 2 ^ n * rowCode (ecaTwo n R p s t) n + rowCode (ecaTwo n R p s (t + 1)) n) (by
    intro t
    have a := rowCode_lt (hlt t)
    have b := rowCode_lt (hlt (t + 1))
    have : (4 : Nat) ^ n = 2 ^ n * 2 ^ n := by rw [← Nat.mul_pow]
    rw [this]
    have := Nat.mul_le_mul_left (2 ^ n) (Nat.succ_le_of_lt a)
    rw [Nat.mul_succ] at this
    omega)
  have hc1 : rowCode (ecaTwo n R p s i) n = rowCode (ecaTwo n R p s j) n ∧
      rowCode (ecaTwo n R p s (i + 1)) n = rowCode (ecaTwo n R p s (j + 1)) n := by
    have a := rowCode_lt (hlt (i + 1))
    have b := rowCode_lt (hlt (j + 1))
    have e1 := congrArg (fun v => v / 2 ^ n) he
    have e2 := congrArg (fun v => v % 2 ^ n) he
    simp only [Nat.mul_add_mod, Nat.mod_eq_of_lt a, Nat.mod_eq_of_lt b] at e2
    simp only [Nat.mul_add_div (Nat.two_pow_pos n), Nat.div_eq_of_lt a, Nat.div_eq_of_lt b, Nat.add_zero] at e1
    exact ⟨e1, e2⟩
  have r1 := rowCode_inj (hlt i) (hlt j) hc1.1
  have r2 := rowCode_inj (hlt (i + 1)) (hlt (j + 1)) hc1.2
  -- go back to the start
  have back : ∀ k, k ≤ i → ∀ x, x < n → ecaTwo n R p s (i - k) x = ecaTwo n R p s (j - k) x ∧
      ecaTwo n R p s (i - k + 1) x = ecaTwo n R p s (j - k + 1) x := by
    intro k
    induction k with
    | zero => intro _ x hx; exact ⟨r1 x hx, r2 x hx⟩
    | succ k ih =>
      intro hk x hx
      have ih' := ih (by omega)
      have a1 : i - (k + 1) + 1 = i - k := by omega
      have a2 : j - (k + 1) + 1 = j - k := by omega
      refine ⟨?_, by rw [a1, a2]; exact (ih' x hx).1⟩
      have h2 := (ih' x hx).2
      rw [show i - k + 1 = (i - (k + 1)) + 2 by omega, show j - k + 1 = (j - (k + 1)) + 2 by omega, ecaTwo, ecaTwo] at h2
      have q : ∀ y, y < n → ecaTwo n R p s (i - (k + 1) + 1) y = ecaTwo n R p s (j - (k + 1) + 1) y := by
        intro y hy
        rw [a1, a2]
        exact (ih' y hy).1
      rw [q x hx, q _ (Nat.mod_lt _ hn), q _ (Nat.mod_lt _ hn)] at h2
      have b1 := hlt (i - (k + 1)) x hx
      have b2 := hlt (j - (k + 1)) x hx
      generalize ecaRule R _ _ _ = a at h2
      omega
  have b := back i (Nat.le_refl _)
  refine ⟨j - i, by omega, by omega, fun t x hx => ?_⟩
  have h0 : ∀ x, x < n → ecaTwo n R p s (j - i) x = ecaTwo n R p s 0 x := fun x hx => by
    have := (b x hx).1
    rw [Nat.sub_self] at this
    exact this.symm
  have h1 : ∀ x, x < n → ecaTwo n R p s (j - i + 1) x = ecaTwo n R p s (0 + 1) x := fun x hx => by
    have := (b x hx).2
    rw [Nat.sub_self] at this
    exact this.symm
  have := ecaTwo_shift (R := R) hn (j - i) 0 h0 h1 t x hx
  rw [Nat.add_comm t, this, Nat.zero_add]

/-- C113.  An elementary automaton that is not reversible runs into a cycle: two of the first `2 ^ n + 1` rows agree, and
from there on the rows repeat. -/
theorem C113_eventually_periodic {n R : Nat} (hn : 0 < n) {s : Nat → Nat} (hs : ∀ x, x < n → s x < 2) :
    ∃ a P, 0 < P ∧ a + P ≤ 2 ^ n ∧ ∀ t x, x < n → eca n R s (a + t + P) x = eca n R s (a + t) x := by
  have hlt := eca_lt_two (R := R) hn hs
  obtain ⟨i, j, hij, hj, he⟩ := pigeonhole (M := 2 ^ n) (f := fun t => rowCode (eca n R s t) n) (fun t => rowCode_lt (hlt t))
  have r := rowCode_inj (hlt i) (hlt j) he
  refine ⟨i, j - i, by omega, by omega, fun t => ?_⟩
  induction t with
  | zero =>
    intro x hx
    rw [Nat.add_zero, show i + (j - i) = j by omega]
    exact (r x hx).symm
  | succ t ih =>
    intro x hx
    rw [show i + (t + 1) + (j - i) = (i + t + (j - i)) + 1 by omega, show i + (t + 1) = i + t + 1 by omega, eca, eca, ih x hx,
      ih _ (Nat.mod_lt _ hn), ih _ (Nat.mod_lt _ hn)]

/-- Rule 30 on five cells from a single 1: state 1 comes back after five steps, the initial state does not. -/
example : (List.range 5).map (eca 5 30 (fun x => if x = 2 then 1 else 0) 6) = (List.range 5).map (eca 5 30 (fun x => if x = 2 then 1 else 0) 1) := by
  decide +kernel

end Verif
