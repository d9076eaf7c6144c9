import Verif.Proofs.LocalRuns
import Verif.Props.Density
import Verif.Props.RuleTables
import Verif.Props.Evolution
import Verif.Props.Symmetry
/-! # Properties C147 and C148: automata with Langton's tables, and totalistic automata, end to end -/

namespace Verif
open Spec
section
variable {I σ κ : Type} [DecidableEq κ]

/-- A rule that is a function of its window, on the ring. -/
theorem local_run {n r k T : Nat} (hn : 3 ≤ n) (hrn : 2 * r + 1 ≤ n) {G : NodeCtx Nat Int Int I → Except Err Int} {f : List Nat → Nat}
    (hf : ∀ l : List Nat, l.length = 2 * r + 1 → (∀ v ∈ l, v < k) → f l < k)
    (hG : ∀ (l : List Nat) (c : NodeCtx Nat Int Int I), l.length = 2 * r + 1 → (∀ v ∈ l, v < k) →
      c.neighbourActs = l.map (fun v : Nat => (v : Int)) → G c = .ok (f l : Int))
    {cfg : Config Nat Int Int I σ κ} (hT : 1 ≤ T) (h : cfg.Ordinary G T)
    {N : Net Nat Int} (hN : cellularAutomaton n r true = .ok N) {q : Nat} {w : World Nat Int σ} (hr : w.heap[q]? = some N)
    {init : Option (Conds Nat Int)} {s : Nat → Nat} (hs : ∀ x, x < n → s x < k) (hlen : (initDict cfg init).length = n)
    (h0 : ∀ x, x < n → (initDict cfg init).get? x = some (s x : Int)) {fuel : Nat} (hfu : T ≤ fuel) :
    ∃ res, evolve fuel cfg init q w = .ok res ∧ ShowsRun cfg res T n (fun t x => (localCA n r f s t x : Int)) := by
  obtain ⟨N', rs, e1, e2, e3, e4⟩ := C43_left_to_right n r hn hrn
  rw [hN] at e1
  cases e1
  have hmap : ∀ t x, ((List.range (2 * r + 1)).map (fun k => (x + n - r + k) % n)).map (fun y => (localCA n r f s t y : Int)) =
      (ringWindow n r (localCA n r f s t) x).map (fun v : Nat => (v : Int)) := by
    intro t x
    simp only [ringWindow, List.map_map]
    rfl
  refine ca_run h hT (by omega) e3 (nb := fun x => (List.range (2 * r + 1)).map (fun k => (x + n - r + k) % n)) ?_ hlen h0 ?_ ?_ hr hfu
  · intro x hx
    refine ⟨?_, ?_⟩
    · simp only [specNbrs, e2]
      rw [e4 x hx]
      congr 1
      exact List.map_congr_left (fun k _ => ringCell_window hrn)
    · intro y hy
      obtain ⟨k, _, rfl⟩ := List.mem_map.1 hy
      exact Nat.mod_lt _ (by omega)
  · intro t ht x hx
    obtain ⟨h1, h2⟩ := window_range (r := r) (by omega) (localCA_range (r := r) (by omega) hf hs t) x
    exact hG (ringWindow n r (localCA n r f s t) x) _ h1 h2 (hmap t x)
  · intro _
    refine ⟨by rw [e2]; rfl, ?_⟩
    intro t t' x x' ht ht' hx hx' heq
    rw [hmap t x, hmap t' x'] at heq
    have h3 : ringWindow n r (localCA n r f s t) x = ringWindow n r (localCA n r f s t') x' :=
      List.map_inj_right (fun _ _ e => Int.ofNat.inj e) |>.1 heq
    show ((f _ : Nat) : Int) = ((f _ : Nat) : Int)
    rw [h3]

/-! ## C147 -/

theorem nbhd_of {k : Nat} {l : List Nat} {m : Nat} (hl : l.length = m) (hv : ∀ v ∈ l, v < k) : IsNbhd k m (l.map digitChar) := by
  refine ⟨by simpa using hl, ?_⟩
  intro c hc
  obtain ⟨d, hd, rfl⟩ := List.mem_map.1 hc
  exact ⟨d, hv d hd, rfl⟩

theorem tableEntry_lt {k r : Nat} {t : Table} (ht : CompleteTable k r t) (l : List Nat) (hl : l.length = 2 * r + 1) (hv : ∀ v ∈ l, v < k) :
    t.get? (l.map digitChar) = some ((tableEntry t l : Nat) : Int) ∧ tableEntry t l < k := by
  obtain ⟨v, h1, h2, h3⟩ := ht _ (nbhd_of hl hv)
  unfold tableEntry
  rw [h1]
  simp
  omega

/-- C147.  On `cellular_automaton(n, r=r)` with at least `2r + 1` and three cells, with `table_rule` of a complete table of at most ten
states, and any initial conditions with these states, an ordinary call of `evolve` (memoized or not) returns, its states are the automaton
of radius `r` that looks its windows up in the table, and all cells keep to the `k` states. -/
theorem C147_run (n r k : Nat) (hn : 3 ≤ n) (hrn : 2 * r + 1 ≤ n) (hk : k ≤ 10) (table : Table) (ht : CompleteTable k r table)
    (cfg : Config Nat Int Int I σ κ) (T : Nat) (hT : 1 ≤ T) (h : cfg.Ordinary (tableRule table) T)
    (N : Net Nat Int) (hN : cellularAutomaton n r true = .ok N) (q : Nat) (w : World Nat Int σ) (hr : w.heap[q]? = some N)
    (init : Option (Conds Nat Int)) (s : Nat → Nat) (hs : ∀ x, x < n → s x < k) (hlen : (initDict cfg init).length = n)
    (h0 : ∀ x, x < n → (initDict cfg init).get? x = some (s x : Int)) (fuel : Nat) (hfu : T ≤ fuel) :
    ∃ res, evolve fuel cfg init q w = .ok res ∧ ShowsRun cfg res T n (fun t x => (localCA n r (tableEntry table) s t x : Int)) ∧
      ∀ t x, x < n → localCA n r (tableEntry table) s t x < k := by
  have hf := fun l h1 h2 => (tableEntry_lt (l := l) ht h1 h2).2
  obtain ⟨res, h1, h2⟩ := local_run (k := k) hn hrn (f := tableEntry table) hf (G := tableRule table) (by
    intro l c hl hv hc
    have hcol : Colours 10 c.neighbourActs := by
      intro v hv'
      rw [hc] at hv'
      obtain ⟨u, hu, rfl⟩ := List.mem_map.1 hv'
      have := hv u hu
      omega
    rw [((C34_table_partial table c hcol).1 _), hc, List.map_map]
    exact (tableEntry_lt ht l hl hv).1) hT h hN hr hs hlen h0 hfu
  exact ⟨res, h1, h2, localCA_range (by omega) hf hs⟩

theorem nbhd_reverse {k m : Nat} {s : List Char} (h : IsNbhd k m s) : IsNbhd k m s.reverse :=
  ⟨by rw [List.length_reverse]; exact h.1, fun c hc => h.2 c (List.mem_reverse.1 hc)⟩

/-- C147.  The tables that `random_rule_table` returns, and those that any number of calls of `table_walk_through` with the same `k`, `r`
and quiescent state make of them, are complete.  They are strongly quiescent if all calls ask for it, and isotropic if all calls ask for
it. -/
theorem C147_tables (a : RandTableArgs) (table : Table) (lam : Rat) (q : Int) (h : randomRuleTable a = .ok (table, lam, q))
    (P : WalkArgs → Prop) (t : Table) (hw : Walked a.k a.r q P table t) :
    CompleteTable a.k a.r t ∧ (a.strong = true → (∀ b, P b → b.strong = true) → StrongTable a.k a.r t) ∧
    (a.isotropic = true → (∀ b, P b → b.isotropic = true) → Isotropic t) := by
  obtain ⟨g1, g2, g3, g4, g5, g6, _, g8, _⟩ := C35_random_table a table lam q h
  suffices hinv : t.keys = table.keys ∧ t.length = table.length ∧ (∀ s v, t.get? s = some v → 0 ≤ v ∧ v < (a.k : Int)) ∧
      (a.strong = true → (∀ b, P b → b.strong = true) → StrongTable a.k a.r t) ∧
      (a.isotropic = true → (∀ b, P b → b.isotropic = true) → Isotropic t) by
    obtain ⟨h1, _, h3, h4, h5⟩ := hinv
    refine ⟨?_, h4, h5⟩
    intro s hs
    have hm : s ∈ t.keys := by rw [h1]; exact (g2 s).2 hs
    obtain ⟨v, hv⟩ := Dict.exists_get?_of_mem_keys hm
    exact ⟨v, hv, h3 s v hv⟩
  induction hw with
  | refl => exact ⟨rfl, rfl, g4, fun hst _ => g5 hst, fun hi _ => g6 hi⟩
  | step hw' hk hr hq hP hstep ih =>
    rename_i t' t'' fuel b lam'
    obtain ⟨i1, i2, i3, i4, i5⟩ := ih
    have hk1 : 1 ≤ b.k := by omega
    have hW : WalkTable b t' := by
      refine ⟨by rw [i1]; exact g1, ?_, by rw [i2, g3, hk, hr], ?_⟩
      · intro s hs e
        rw [i1, g2] at hs
        have := hs.1
        rw [e] at this
        simp at this
      · intro _ s hs
        rw [i1, g2] at hs ⊢
        exact nbhd_reverse hs
    obtain ⟨j1, j2, j3, j4⟩ := C36_keeps fuel b hk1 t' t'' lam' hW hstep
    have hlen : t''.length = t'.length := by
      rw [← dict_length_keys t'', ← dict_length_keys t', j1]
    refine ⟨by rw [j1, i1], by rw [hlen, i2], ?_, ?_, ?_⟩
    · rw [hk, hq] at j4
      exact j4 g8 i3
    · intro hst hall d hd
      rw [j2 (hall b hP) (uniformNbhd (2 * a.r + 1) d) ⟨digitChar d, fun x hx => List.eq_of_mem_replicate hx⟩]
      exact i4 hst hall d hd
    · intro hi hall
      exact j3 (hall b hP) (i5 hi hall)

/-- C147.  Strong quiescence: with a strongly quiescent table (as those of `C147_tables`), a cell that sees only one state within `r·t`
places shows it in state `t`; a row of one state stays as it is, whatever that state is. -/
theorem C147_quiet (n r k : Nat) (hn : 2 * r + 1 ≤ n) (table : Table) (ht : StrongTable k r table) (v : Nat) (hv : v < k) (s : Nat → Nat) :
    (∀ t x, x < n → QuietAround n s v x (r * t) → localCA n r (tableEntry table) s t x = v) ∧
    ((∀ x, x < n → s x = v) → ∀ t x, x < n → localCA n r (tableEntry table) s t x = v) := by
  have hf : tableEntry table (List.replicate (2 * r + 1) v) = v := by
    have := ht v hv
    unfold tableEntry
    rw [List.map_replicate]
    unfold uniformNbhd at this
    rw [this]
    simp
  refine ⟨localCA_quiet hn hf, ?_⟩
  intro hs t x hx
  refine localCA_quiet hn hf t x hx ?_
  intro j _ _
  exact hs _ (ringCell_lt (by omega) j)

/-- C147.  Isotropy: with a complete isotropic table (as those of `C147_tables`), the mirror image of a row,
about any axis, has the mirror image of its evolution. -/
theorem C147_mirror (n r k : Nat) (hn : 2 * r + 1 ≤ n) (table : Table) (ht : CompleteTable k r table) (hi : Isotropic table) (m : Nat)
    (hm : m < n) (s s' : Nat → Nat) (hs : ∀ x, x < n → s x < k) (hs' : ∀ x, x < n → s' x = s (reflectCell n m x)) (t x : Nat) (hx : x < n) :
    localCA n r (tableEntry table) s' t x = localCA n r (tableEntry table) s t (reflectCell n m x) := by
  refine localCA_reflect (k := k) hn hm (fun l h1 h2 => (tableEntry_lt ht l h1 h2).2) ?_ hs hs' t x hx
  intro l _ _
  unfold tableEntry
  rw [List.map_reverse, hi]

/-- C147.  With more than ten states and a row that has a state from ten on, no call of `evolve` with more than one timestep (in the default
update order, not memoized) returns: `table_rule` joins decimal numerals, `random_rule_table` writes one letter per cell. -/
theorem C147_too_many_states (a : RandTableArgs) (table : Table) (lam : Rat) (ql : Int) (ha : randomRuleTable a = .ok (table, lam, ql))
    (n : Nat) (hn : 3 ≤ n) (hrn : 2 * a.r + 1 ≤ n) (cfg : Config Nat Int Int I σ κ) (T : Nat) (hT : 2 ≤ T)
    (h : cfg.Ordinary (tableRule table) T) (hm : cfg.memoize = false) (hord : cfg.order ≠ .topologyFirst)
    (N : Net Nat Int) (hN : cellularAutomaton n a.r true = .ok N) (q : Nat) (w : World Nat Int σ) (hr : w.heap[q]? = some N)
    (init : Option (Conds Nat Int)) (s : Nat → Nat) (hs : ∀ x, x < n → s x < a.k) (x : Nat) (hx : x < n) (hx10 : 10 ≤ s x)
    (h0 : ∀ x, x < n → (initDict cfg init).get? x = some (s x : Int)) (fuel : Nat) (hfu : T ≤ fuel) (res : Evolved Nat Int Int σ) :
    evolve fuel cfg init q w ≠ .ok res := by
  intro he
  obtain ⟨N', rs, e1, e2, e3, e4⟩ := C43_left_to_right n a.r hn hrn
  rw [hN] at e1
  cases e1
  have hsafe : cfg.Safe := Or.inr (fun rule hh => by rw [h.top] at hh; cases hh)
  obtain ⟨c1, c2⟩ := C13_timesteps cfg hsafe h.packOk T (by omega) h.input init q w N hr
  have hlen : res.states.length = T := (c2 res (by rw [← c1 fuel hfu]; exact he)).1
  obtain ⟨hist, o1, o2, o3⟩ := C14_synchronous cfg hsafe h.packOk _ h.rule h.pert hm (by
    intro rule hh; rw [h.top] at hh; cases hh) init q w N hr (e3.nodup_iff.2 List.nodup_range) fuel res he
  obtain ⟨S, M, inp, S', p1, _, _, p4⟩ := o3 1 (by omega) (by rw [← o1.len]; omega)
  obtain ⟨B, hB, _⟩ := p1.prev
  have hM := p1.net
  simp only [inForce, if_neg hord] at hM
  rw [show (1 : Nat) - 1 = 0 from rfl, o2] at hB hM
  cases hB
  cases hM
  obtain ⟨c, v, q1, q2, _⟩ := p4 x (e3.mem_iff.2 (List.mem_range.2 hx))
  have hnb : c.neighbours = (List.range (2 * a.r + 1)).map (fun k => (x + n - a.r + k) % n) := by
    have := q1.neighbours
    simp only [specNbrs, e2] at this
    rw [e4 x hx] at this
    rw [← Option.some.inj this]
    exact List.map_congr_left (fun k _ => ringCell_window hrn)
  have hacts : c.neighbourActs = (ringWindow n a.r s x).map (fun v : Nat => (v : Int)) := by
    have := q1.neighbourActs
    rw [hnb, List.map_map] at this
    have e : (List.range (2 * a.r + 1)).map ((initDict cfg init).get? ∘ fun k => (x + n - a.r + k) % n) =
        ((ringWindow n a.r s x).map (fun v : Nat => (v : Int))).map some := by
      simp only [ringWindow, List.map_map]
      exact List.map_congr_left (fun k _ => h0 _ (Nat.mod_lt _ (by omega)))
    rw [e] at this
    exact List.map_inj_right (fun _ _ e => Option.some.inj e) |>.1 this
  obtain ⟨w1, w2⟩ := window_range (r := a.r) (by omega) hs x
  rw [C34_letters a table lam ql ha c (by
    intro u hu
    rw [hacts] at hu
    obtain ⟨u', hu', rfl⟩ := List.mem_map.1 hu
    have := w2 u' hu'
    omega) (by rw [hacts, List.length_map, w1]) ⟨(s x : Int), by
      rw [hacts]
      refine List.mem_map.2 ⟨s x, ?_, rfl⟩
      refine List.mem_map.2 ⟨a.r, List.mem_range.2 (by omega), ?_⟩
      rw [show x + n - a.r + a.r = x + n by omega, Nat.add_mod_right, Nat.mod_eq_of_lt hx], by omega⟩] at q2
  cases q2

/-! ## C148 -/

theorem sum_cast_nat (l : List Nat) : (l.map (fun v : Nat => (v : Int))).sum.toNat = l.sum := by
  have : (l.map (fun v : Nat => (v : Int))).sum = (l.sum : Int) := by
    induction l with
    | nil => rfl
    | cons a l ih => simp [ih]
  rw [this]
  rfl

theorem totalRule_lt {k R : Nat} (hk : 2 ≤ k) (l : List Nat) : totalRule k R l < k := Nat.mod_lt _ (by omega)

/-- C148.  On `cellular_automaton(n, r=r)` with at least `2r + 1` and three cells, with `totalistic_ca(k, rule=R)` and any initial
conditions with states in `0..k-1`, an ordinary call of `evolve` (memoized or not) returns, its states are the automaton of radius `r`
whose new states are the digits of `R` that the sums of the windows choose, and all cells keep to the `k` states. -/
theorem C148_run (n r k R : Nat) (hn : 3 ≤ n) (hrn : 2 * r + 1 ≤ n) (hk : 2 ≤ k) (hk' : k ≤ 36) (hR : R < k ^ ((2 * r + 1) * (k - 1) + 1))
    (cfg : Config Nat Int Int I σ κ) (T : Nat) (hT : 1 ≤ T) (h : cfg.Ordinary (totalisticCa k R) T)
    (N : Net Nat Int) (hN : cellularAutomaton n r true = .ok N) (q : Nat) (w : World Nat Int σ) (hr : w.heap[q]? = some N)
    (init : Option (Conds Nat Int)) (s : Nat → Nat) (hs : ∀ x, x < n → s x < k) (hlen : (initDict cfg init).length = n)
    (h0 : ∀ x, x < n → (initDict cfg init).get? x = some (s x : Int)) (fuel : Nat) (hfu : T ≤ fuel) :
    ∃ res, evolve fuel cfg init q w = .ok res ∧ ShowsRun cfg res T n (fun t x => (localCA n r (totalRule k R) s t x : Int)) ∧
      ∀ t x, x < n → localCA n r (totalRule k R) s t x < k := by
  have hf : ∀ l : List Nat, l.length = 2 * r + 1 → (∀ v ∈ l, v < k) → totalRule k R l < k := fun l _ _ => totalRule_lt hk l
  obtain ⟨res, h1, h2⟩ := local_run (k := k) hn hrn (f := totalRule k R) hf (G := totalisticCa k R) (by
    intro l c hl hv hc
    have hcol : Colours k c.neighbourActs := by
      intro v hv'
      rw [hc] at hv'
      obtain ⟨u, hu, rfl⟩ := List.mem_map.1 hv'
      have := hv u hu
      omega
    rw [totalisticCa_ok hk hk' R c hcol (by rw [hc, List.length_map, hl]; exact hR), hc, sum_cast_nat]
    rfl) hT h hN hr hs hlen h0 hfu
  exact ⟨res, h1, h2, localCA_range (by omega) hf hs⟩

theorem sum_reverse_nat (l : List Nat) : l.reverse.sum = l.sum := by
  induction l with
  | nil => rfl
  | cons a l ih => simp [ih]; omega

/-- C148.  Every totalistic rule is blind to left and right: the mirror image of a row, about any axis, has the mirror image of its
evolution; in particular a symmetric row stays symmetric. -/
theorem C148_mirror (n r k R : Nat) (hn : 2 * r + 1 ≤ n) (m : Nat) (hm : m < n) (s : Nat → Nat) :
    (∀ s' : Nat → Nat, (∀ x, x < n → s' x = s (reflectCell n m x)) → ∀ t x, x < n →
      localCA n r (totalRule k R) s' t x = localCA n r (totalRule k R) s t (reflectCell n m x)) ∧
    ((∀ x, x < n → s x = s (reflectCell n m x)) → ∀ t x, x < n →
      localCA n r (totalRule k R) s t x = localCA n r (totalRule k R) s t (reflectCell n m x)) := by
  have hrev : ∀ l : List Nat, totalRule k R l.reverse = totalRule k R l := fun l => by
    unfold totalRule
    rw [sum_reverse_nat]
  exact ⟨fun s' hs' => localCA_mirror hn hm hrev hs', fun hs => localCA_mirror hn hm hrev hs⟩

/-- C148.  If the last digit of `R` is 0, a cell that sees only zeros within `r·t` places is 0 in state `t`. -/
theorem C148_quiet (n r k R : Nat) (hn : 2 * r + 1 ≤ n) (hk : 2 ≤ k) (hR : R % k = 0) (s : Nat → Nat) (t x : Nat) (hx : x < n)
    (hq : QuietAround n s 0 x (r * t)) : localCA n r (totalRule k R) s t x = 0 := by
  refine localCA_quiet hn ?_ t x hx hq
  unfold totalRule digit
  have : (List.replicate (2 * r + 1) 0).sum = 0 := by simp
  rw [this]
  simpa using hR

/-- C148.  The demo, `totalistic_ca_demo.py:6-11`: 200 cells, `[0]*100 + [1] + [0]*99`, `totalistic_ca(k=3, rule=777)`, 100 timesteps.  The
call returns 100 states of 200 cells with states 0, 1 and 2; every one of them is symmetric about cell 100, and in state `t` all cells
further than `t` places from cell 100 are still 0. -/
theorem C148_demo (cfg : Config Nat Int Int I σ κ) (hnat : cfg.natLabel = id) (h : cfg.Ordinary (totalisticCa 3 777) 100)
    (N : Net Nat Int) (hN : cellularAutomaton 200 1 true = .ok N) (q : Nat) (w : World Nat Int σ) (hr : w.heap[q]? = some N)
    (fuel : Nat) (hfu : 100 ≤ fuel) :
    ∃ (res : Evolved Nat Int Int σ) (c : Nat → Nat → Nat),
      evolve fuel cfg (some (.list (List.replicate 100 0 ++ [1] ++ List.replicate 99 0))) q w = .ok res ∧
      ShowsRun cfg res 100 200 (fun t x => (c t x : Int)) ∧ (∀ t x, x < 200 → c t x < 3) ∧
      (∀ t j, j < 100 → c t (100 + j) = c t (100 - j)) ∧
      ∀ t x, x < 200 → (x + t < 100 ∨ 100 + t < x) → c t x = 0 := by
  let s : Nat → Nat := fun x => if x = 100 then 1 else 0
  have hrow : (List.replicate 100 (0 : Int) ++ [1] ++ List.replicate 99 0) = (List.range 200).map (fun x => (s x : Int)) := by
    decide +kernel
  obtain ⟨i1, i2⟩ := initDict_row (cfg := cfg) hnat 200 s
  rw [hrow]
  obtain ⟨res, h1, h2, h3⟩ := C148_run 200 1 3 777 (by omega) (by omega) (by omega) (by omega) (by decide) cfg 100 (by omega) h N hN q w hr
    _ s (fun x _ => by show (if x = 100 then 1 else 0) < 3; split <;> omega) i1 i2 fuel hfu
  have hsym := (C148_mirror 200 1 3 777 (by omega) 0 (by omega) s).2 (by
    intro x hx
    show (if x = 100 then 1 else 0) = if reflectCell 200 0 x = 100 then 1 else 0
    unfold reflectCell
    by_cases hx' : x = 100
    · subst hx'; rfl
    · rw [if_neg hx', if_neg (by omega)])
  have hquiet : ∀ t x, x < 200 → (x + t < 100 ∨ 100 + t < x) → localCA 200 1 (totalRule 3 777) s t x = 0 := by
    intro t x hx hd
    refine C148_quiet 200 1 3 777 (by omega) (by omega) (by decide) s t x hx ?_
    intro j hj1 hj2
    have : ringCell 200 x j ≠ 100 := by
      unfold ringCell
      omega
    show (if ringCell 200 x j = 100 then 1 else 0) = 0
    rw [if_neg this]
  generalize hc : localCA 200 1 (totalRule 3 777) s = c at *
  refine ⟨res, c, h1, h2, h3, ?_, hquiet⟩
  intro t j hj
  have e : reflectCell 200 0 (100 + j) = 100 - j := by
    unfold reflectCell
    omega
  have := hsym t (100 + j) (by omega)
  rw [e] at this
  exact this

/-! ## Examples -/

/-- A walk to lambda 5/8 that, like the one of `rule_table_walkthrough_demo.py:15-16`, does not ask for isotropy. -/
def Ex.plainWalk : WalkArgs := { Ex.walkArgs with lambdaVal := 5 / 8, isotropic := false }

/-- The table after that walk. -/
def Ex.walked : Table :=
  [("000".toList, 0), ("001".toList, 1), ("010".toList, 1), ("011".toList, 0), ("100".toList, 0), ("101".toList, 0), ("110".toList, 0),
   ("111".toList, 1)]

/-- C147, as in `rule_table_walkthrough_demo.py:4-16`: a table that was made isotropic, and walked without asking for isotropy, need not be
isotropic, and mirrored rows then need not have mirrored evolutions. -/
theorem C147_walk_loses_mirror : ∃ (a : RandTableArgs) (table : Table) (lam : Rat) (q : Int) (t : Table) (s s' : Nat → Nat),
    a.isotropic = true ∧ randomRuleTable a = .ok (table, lam, q) ∧ Isotropic table ∧ Walked a.k a.r q (fun b => b.strong = true) table t ∧
    ¬ Isotropic t ∧ (∀ x, x < 5 → s x < a.k) ∧ (∀ x, x < 5 → s' x = s (reflectCell 5 4 x)) ∧
    ∃ x, x < 5 ∧ localCA 5 a.r (tableEntry t) s' 1 x ≠ localCA 5 a.r (tableEntry t) s 1 (reflectCell 5 4 x) := by
  have e : randomRuleTable Ex.tableArgs = .ok (Ex.walkTable, 3 / 4, 1) := by decide +kernel
  refine ⟨Ex.tableArgs, Ex.walkTable, 3 / 4, 1, Ex.walked, fun x => if x = 2 then 1 else 0, fun x => if x = 2 then 1 else 0, rfl, e,
    (C35_random_table _ _ _ _ e).2.2.2.2.2.1 rfl,
    .step (fuel := 17) (a := Ex.plainWalk) (lam := 5 / 8) .refl rfl rfl rfl rfl (by decide +kernel), ?_, by decide, by decide, 1, by decide, by decide +kernel⟩
  intro h
  exact absurd (h "001".toList) (by decide)

/-- The walked table is complete and strongly quiescent. -/
example : CompleteTable 2 1 Ex.walked ∧ StrongTable 2 1 Ex.walked := by
  have e : randomRuleTable Ex.tableArgs = .ok (Ex.walkTable, 3 / 4, 1) := by decide +kernel
  obtain ⟨h1, h2, _⟩ := C147_tables Ex.tableArgs _ _ _ e (fun b => b.strong = true) Ex.walked
    (.step (fuel := 17) (a := Ex.plainWalk) (lam := 5 / 8) .refl rfl rfl rfl rfl (by decide +kernel))
  exact ⟨h1, h2 rfl (fun b hb => hb)⟩

/-- A memoized run with that table. -/
example : ∃ N res, cellularAutomaton 5 1 true = .ok N ∧
    evolve 4 ({ Ex.base with rule := some (pureRule (tableRule Ex.walked)), input := .timesteps 4, memoize := true })
      (some (.list [0, 0, 1, 0, 0])) 0 ⟨[N], []⟩ = .ok res := by
  have e : randomRuleTable Ex.tableArgs = .ok (Ex.walkTable, 3 / 4, 1) := by decide +kernel
  have ht : CompleteTable 2 1 Ex.walked := (C147_tables Ex.tableArgs _ _ _ e (fun b => b.strong = true) Ex.walked
    (.step (fuel := 17) (a := Ex.plainWalk) (lam := 5 / 8) .refl rfl rfl rfl rfl (by decide +kernel))).1
  obtain ⟨N, _, hN, _⟩ := C43_left_to_right 5 1 (by omega) (by omega)
  obtain ⟨res, h1, _⟩ := C147_run 5 1 2 (by omega) (by omega) (by omega) Ex.walked ht
    { Ex.base with rule := some (pureRule (tableRule Ex.walked)), input := .timesteps 4, memoize := true } 4 (by omega)
    ⟨rfl, rfl, rfl, rfl, rfl, rfl, rfl⟩ N hN 0 ⟨[N], []⟩ rfl (some (.list [0, 0, 1, 0, 0]))
    (fun x => if x = 2 then 1 else 0) (by decide) (by decide) (by decide) 4 (by omega)
  exact ⟨N, res, hN, h1⟩
example : (List.range 5).map (localCA 5 1 (tableEntry Ex.walked) (fun x => if x = 2 then 1 else 0) 1) = [0, 1, 1, 0, 0] := by decide +kernel

/-- The cells at the rim of a row of eleven stay quiescent for two steps. -/
example : localCA 11 1 (tableEntry Ex.walked) (fun x => if x = 5 then 1 else 0) 2 1 = 0 := by
  have e : randomRuleTable Ex.tableArgs = .ok (Ex.walkTable, 3 / 4, 1) := by decide +kernel
  have ht : StrongTable 2 1 Ex.walked := (C147_tables Ex.tableArgs _ _ _ e (fun b => b.strong = true) Ex.walked
    (.step (fuel := 17) (a := Ex.plainWalk) (lam := 5 / 8) .refl rfl rfl rfl rfl (by decide +kernel))).2.1 rfl (fun b hb => hb)
  refine (C147_quiet 11 1 2 (by omega) Ex.walked ht 0 (by omega) _).1 2 1 (by omega) ?_
  intro j h1 h2
  have : ringCell 11 1 j ≠ 5 := by
    unfold ringCell
    omega
  show (if ringCell 11 1 j = 5 then 1 else 0) = 0
  rw [if_neg this]

/-- Eleven states, and a cell in state 10: the run raises. -/
example (table : Table) (lam : Rat) (q : Int) (res : Evolved Nat Int Int (List Int))
    (h : randomRuleTable { Ex.tableArgs with k := 11 } = .ok (table, lam, q)) (N : Net Nat Int) (hN : cellularAutomaton 3 1 true = .ok N) :
    evolve 2 ({ Ex.base with rule := some (pureRule (tableRule table)), input := .timesteps 2 }) (some (.list [0, 10, 0])) 0 ⟨[N], []⟩ ≠
      .ok res :=
  C147_too_many_states _ table lam q h 3 (by omega) (by decide)
    { Ex.base with rule := some (pureRule (tableRule table)), input := .timesteps 2 } 2 (by omega) ⟨rfl, rfl, rfl, rfl, rfl, rfl, rfl⟩ rfl
    (show UpdateOrder.activitiesFirst ≠ .topologyFirst by decide) N hN 0 ⟨[N], []⟩ rfl (some (.list [0, 10, 0]))
    (fun x => if x = 1 then 10 else 0) (by decide) 1 (by omega) (by decide)
    (show ∀ x, x < 3 → (initDict Ex.base (some (.list [0, 10, 0]))).get? x = some ((if x = 1 then 10 else 0 : Nat) : Int) by decide)
    2 (by omega) res

/-- The demo call. -/
example : ∃ N res, cellularAutomaton 200 1 true = .ok N ∧
    evolve 100 ({ Ex.base with rule := some (pureRule (totalisticCa 3 777)), input := .timesteps 100 })
      (some (.list (List.replicate 100 0 ++ [1] ++ List.replicate 99 0))) 0 ⟨[N], []⟩ = .ok res := by
  obtain ⟨N, _, hN, _⟩ := C43_left_to_right 200 1 (by omega) (by omega)
  obtain ⟨res, _, h1, _⟩ := C148_demo { Ex.base with rule := some (pureRule (totalisticCa 3 777)), input := .timesteps 100 } rfl
    ⟨rfl, rfl, rfl, rfl, rfl, rfl, rfl⟩ N hN 0 ⟨[N], []⟩ rfl 100 (by omega)
  exact ⟨N, res, hN, h1⟩
example : (List.range 9).map (localCA 9 1 (totalRule 3 777) (fun x => if x = 4 then 1 else 0) 2) = [0, 0, 1, 2, 1, 2, 1, 0, 0] := by decide +kernel

end
end Verif
