import Verif.Props.Hopfield
import Verif.Props.Memo
/-! # C60 and C61 with memoization

`C60_energy` and `C61_fixed` are about calls of `evolve` without memoization.  For C60 the restriction is needed, for C61 it
is not. -/

namespace Verif
open Spec MG

/-- The activities of a run of a Hopfield net trained on `P`, with `memoize=True` (hopfield_net.py:12-47, evolution.py:273-274,
303-311). -/
def hopfieldMemoActs (T : Nat) (P : List (List Int)) (n : Nat) (sh : Nat → Nat → List Nat) (init : Conds Nat Int) :
    Except Err (List (Option (Dict Nat Int))) :=
  let cfg := ({ Ex.base with input := .timesteps T, memoize := true }).withRule (hopfieldActivityRule sh)
  match hopfieldNetwork P, asyncInit sh none (some n) with
  | .ok N, .ok a => match evolve T cfg (some init) 0 ⟨[N], (a, [])⟩ with
    | .error e => .error e
    | .ok res => .ok ((List.range res.states.length).map (fun t => res.acts cfg t))
  | .error e, _ => .error e
  | _, .error e => .error e

/-- C60 fails with `memoize=True`.  The key is made of the activities of the neighbours only: units whose neighbours have
the same activities share an entry, whatever the weights and whichever unit is chosen.  Trained on the one pattern
`1 1 -1 -1` and started with `1 -1 1 1`, with shuffles that leave the order as it is, three units change in the first timestep:
twice the energy increases from 0 to 4.  After that all units change in every timestep shown, so that the net does not come
to rest, in states that are neither the pattern nor its inverse. -/
theorem C60_memoized :
    ∃ d0 d1 d2 d3, hopfieldMemoActs 4 [[1, 1, -1, -1]] 4 (fun _ n => List.range n) (.list [1, -1, 1, 1]) =
        .ok [some d0, some d1, some d2, some d3] ∧
      energy2 4 (hebb [[1, 1, -1, -1]]) (fun x => (d0.get? x).getD 0) = 0 ∧
      energy2 4 (hebb [[1, 1, -1, -1]]) (fun x => (d1.get? x).getD 0) = 4 ∧
      d1 = [(0, -1), (1, -1), (2, -1), (3, -1)] ∧ d2 = [(0, 1), (1, 1), (2, 1), (3, 1)] ∧ d3 = d1 := by
  refine ⟨[(0, 1), (1, -1), (2, 1), (3, 1)], [(0, -1), (1, -1), (2, -1), (3, -1)], [(0, 1), (1, 1), (2, 1), (3, 1)],
    [(0, -1), (1, -1), (2, -1), (3, -1)], by decide +kernel, by decide +kernel, by decide +kernel, rfl, rfl, rfl⟩

/-- The same run without memoization comes to rest in the inverse of the pattern. -/
example : hopfieldActs 4 [[1, 1, -1, -1]] 4 (fun _ n => List.range n) (.list [1, -1, 1, 1]) =
    .ok [some [(0, 1), (1, -1), (2, 1), (3, 1)], some [(0, -1), (1, -1), (2, 1), (3, 1)], some [(0, -1), (1, -1), (2, 1), (3, 1)],
      some [(0, -1), (1, -1), (2, 1), (3, 1)]] := by decide +kernel

section
variable {I τ κ : Type} [DecidableEq κ]

/-- The counter of the asynchronous rule points into an order of all units. -/
def AsyncOk (n : Nat) (a : Async Nat) : Prop := a.order.Perm (List.range n) ∧ a.curr < n

theorem asyncOk_check {n : Nat} (hn : 1 ≤ n) {sh : Nat → Nat → List Nat} (hsh : ∀ i, (sh i n).Perm (List.range n)) {a : Async Nat}
    (h : AsyncOk n a) : AsyncOk n (asyncCheck sh true a) := by
  have hl : a.order.length = n := by rw [h.1.length_eq, List.length_range]
  unfold asyncCheck
  split
  · simp only [if_true, hl]
    exact ⟨hsh _, Nat.mod_lt _ (by omega)⟩
  · exact h

/-- A unit whose rule gives its current value keeps it, whichever unit is chosen. -/
theorem hopfieldActivityRule_keeps {n : Nat} (hn : 1 ≤ n) {sh : Nat → Nat → List Nat} (hsh : ∀ i, (sh i n).Perm (List.range n))
    {c : NodeCtx Nat Int Int I} {v : Int} (hcur : c.current = v) (hrule : hopfieldRule c = .ok v) (a : Async Nat) (u : τ)
    (h : AsyncOk n a) : ∃ a', hopfieldActivityRule sh c (a, u) = .ok (⟨v, [], []⟩, (a', u)) ∧ AsyncOk n a' := by
  unfold hopfieldActivityRule asyncRule
  simp only
  generalize hb : (if c.node ∈ a.order then { a with num := a.num + 1 } else a) = b
  have hbo : AsyncOk n b := by
    subst hb
    split
    · exact h
    · exact h
  have hlt : b.curr < b.order.length := by rw [hbo.1.length_eq, List.length_range]; exact hbo.2
  rw [List.getElem?_eq_getElem hlt]
  simp only [hrule, hcur, Except.map]
  split
  · exact ⟨_, rfl, asyncOk_check hn hsh hbo⟩
  · exact ⟨_, rfl, asyncOk_check hn hsh hbo⟩

/-- In a complete net, the activities of the others determine the own one. -/
theorem own_of_others {n x x' : Nat} (hx : x < n) (hx' : x' < n) (q : Nat → Int) {l l' : List Nat}
    (hl : l.Perm ((List.range n).filter (fun y => decide (y ≠ x)))) (hl' : l'.Perm ((List.range n).filter (fun y => decide (y ≠ x'))))
    (h : (l.map q).Perm (l'.map q)) : q x = q x' := by
  have key : ∀ {x : Nat} {l : List Nat}, x < n → l.Perm ((List.range n).filter (fun y => decide (y ≠ x))) →
      (q x :: l.map q).Perm ((List.range n).map q) := by
    intro x l hx hl
    have e : (x :: l).Perm (List.range n) := by
      refine (hl.cons x).trans ?_
      rw [List.perm_ext_iff_of_nodup]
      · intro y
        simp only [List.mem_cons, List.mem_filter, List.mem_range, decide_eq_true_eq]
        constructor
        · rintro (rfl | h)
          · exact hx
          · exact h.1
        · intro h
          by_cases hy : y = x
          · exact Or.inl hy
          · exact Or.inr ⟨h, hy⟩
      · rw [List.nodup_cons]
        exact ⟨by simp, List.nodup_range.filter _⟩
      · exact List.nodup_range
    exact e.map q
  have h1 := (key hx hl).trans (key hx' hl').symm
  have h2 := h1.count_eq (q x)
  have h3 := h.count_eq (q x)
  rw [List.count_cons, List.count_cons, h3] at h2
  by_cases e : q x' = q x
  · exact e.symm
  · simp [e] at h2

theorem single_fixed_memo (n : Nat) (hn : 2 ≤ n) (p : List Int) (hp : p.length = n) (hb : ∀ v ∈ p, v = 1 ∨ v = -1)
    (c : Int) (hc : c = 1 ∨ c = -1)
    (N : Net Nat Int) (hN : hopfieldNetwork [p] = .ok N)
    (sh : Nat → Nat → List Nat) (hsh : ∀ i, (sh i n).Perm (List.range n)) (a : Async Nat)
    (ha : asyncInit sh none (some n) = .ok a) (cfg : Config Nat Int Int I τ κ) (T : Nat) (hT : 1 ≤ T)
    (hin : cfg.input = .timesteps T) (hpt : cfg.perturbation = none) (htop : cfg.topology = none)
    (hk : cfg.key = none) (hpa : cfg.persistActs = true) (hco : cfg.compression = false) (hnat : cfg.natLabel = id)
    (heap : List (Net Nat Int)) (r : Nat) (hr : heap[r]? = some N) (u : τ) (fuel : Nat) (hf : T ≤ fuel) :
    ∃ res, evolve fuel (cfg.withRule (hopfieldActivityRule sh)) (some (.list (p.map (c * ·)))) r ⟨heap, (a, u)⟩ = .ok res ∧
      ShowsRun (cfg.withRule (α := Async Nat) (hopfieldActivityRule sh)) res T n (fun _ x => c * p.getD x 0) := by
  rw [hopfieldNetwork_eq (n := n) (by simp) (by simp [hp])] at hN
  cases hN
  cases ha
  have hb1 : ∀ x, x < n → p.getD x 0 = 1 ∨ p.getD x 0 = -1 := by
    intro x hx
    apply hb
    rw [List.getD_eq_getElem?_getD, List.getElem?_eq_getElem (show x < p.length by omega)]
    exact List.getElem_mem _
  have hW : ∀ x y, x < n → y < n → (hebb [p] y x ≠ 0 ↔ y ≠ x) := by
    intro x y hx hy
    rw [hebb_single (by omega) (by omega)]
    by_cases h : y = x
    · simp [h]
    · rw [if_neg h]
      rcases hb1 x hx with h' | h' <;> rcases hb1 y hy with h'' | h'' <;> rw [h', h''] <;> simp [h]
  have hcon : ∀ x, x < n → ∃ y, y < n ∧ hebb [p] x y ≠ 0 := by
    intro x hx
    by_cases h : x = 0
    · exact ⟨1, by omega, (hW 1 x (by omega) hx).2 (by omega)⟩
    · exact ⟨0, by omega, (hW 0 x (by omega) hx).2 h⟩
  generalize hNN : fromAdjacencyMatrix (matOf n (hebb [p])) = N at hr
  have hlab : N.labels.Perm (List.range n) := by
    subst hNN
    refine perm_range_of_mem (nodup_matOf_labels n _) (fun x => ?_)
    rw [labels_matOf]
    exact ⟨fun h => h.1, fun h => ⟨h, by obtain ⟨y, h1, h2⟩ := hcon x h; exact ⟨y, h1, Or.inl h2⟩⟩⟩
  have hmem : ∀ x, x ∈ N.labels ↔ x < n := fun x => by rw [hlab.mem_iff, List.mem_range]
  have hnb : ∀ x, x < n → specNbrs N x = some (sources (adjMG (matOf n (hebb [p]))).edges x) ∧
      (sources (adjMG (matOf n (hebb [p]))).edges x).Perm ((List.range n).filter (fun y => decide (y ≠ x))) := by
    intro x hx
    obtain ⟨c1, _, c3, _⟩ := adj_context (W := hebb [p]) hNN.symm ((hmem x).2 hx)
    refine ⟨c1, ?_⟩
    rw [show (List.range n).filter (fun y => decide (y ≠ x)) = (List.range n).filter (fun y => decide (x < n ∧ hebb [p] y x ≠ 0)) from ?_]
    · exact c3
    · apply List.filter_congr
      intro y hy
      rw [decide_eq_decide]
      exact ⟨fun h => ⟨hx, (hW x y hx (List.mem_range.1 hy)).2 h⟩, fun h => (hW x y hx (List.mem_range.1 hy)).1 h.2⟩
  have hrot : N.rotation = none := by
    rw [← hNN, (fromAdjacencyMatrix_eq (matOf n (hebb [p]))).1]
    exact adjMG_rot _
  generalize hcf : cfg.withRule (α := Async Nat) (hopfieldActivityRule (I := I) sh) = cf
  have hkey : effectiveKey cf N = .unordered := by
    unfold effectiveKey
    rw [← hcf]
    simp only [Config.withRule, hk, hrot]
  have hinp : cf.input = .timesteps T := by rw [← hcf]; simp only [Config.withRule, hin, InputSrc.beside]
  obtain ⟨hil, _, hiv⟩ := initDict_list (cfg := cf) (by rw [← hcf]; exact hnat) (p.map (c * ·))
  rw [List.length_map, hp] at hil hiv
  have h0 : ∀ x, x < n → (initDict cf (some (.list (p.map (c * ·))))).get? x = some (c * p.getD x 0) := by
    intro x hx
    rw [hiv x hx, List.getElem?_map, List.getD_eq_getElem?_getD, List.getElem?_eq_getElem (by omega)]
    rfl
  generalize hd : initDict cf (some (.list (p.map (c * ·)))) = d at hil h0
  let nb := fun x => sources (adjMG (matOf n (hebb [p]))).edges x
  let f : Nat → Nat → Int := fun _ x => c * p.getD x 0
  have hnbl : ∀ x, x < n → ∀ y ∈ nb x, y < n := by
    intro x hx y hy
    have := (hnb x hx).2.mem_iff.1 hy
    simp only [List.mem_filter, List.mem_range] at this
    exact this.1
  let Inv : Memo Int κ → Async Nat × τ → Prop := fun m s => AsyncOk n s.1 ∧
    ∀ e ∈ m, ∃ x, x < n ∧ e.1 = .counts (counter ((nb x).map (f 0))) ∧ e.2 = c * p.getD x 0
  have hR : RunSpec cf (effectiveKey cf N) (hopfieldActivityRule sh) N nb d f (fun _ => .timestep) (fun _ _ => none)
      (fun _ => Inv) (fun _ _ => Inv) T := by
    refine ⟨⟨?_, ?_, ?_, ?_⟩, ?_⟩
    · intro t m s htT h
      refine ⟨s, ?_, h⟩
      rw [hinp]
      simp only [callInput, Except.ok.injEq, Prod.mk.injEq, and_true]
      rw [if_neg (by omega)]
    · intro t x _ _; rfl
    · intro t done x rest m s htT hl ⟨hs, hm⟩
      have hxm : x ∈ N.labels := by rw [hl]; simp
      have hx := (hmem x).1 hxm
      obtain ⟨a0, u0⟩ := s
      have hrule : hopfieldRule (runCtx cf N nb d f (fun _ _ => none) t x) = .ok (f (t + 1) x) := by
        rw [hopfieldRule_eq (fun i j _ _ => hebb_symm [p] i j) hNN.symm hx hxm (f t) _ rfl rfl]
        · show Except.ok (if field n (hebb [p]) (fun x => c * p.getD x 0) x ≥ 0 then 1 else -1) = .ok (c * p.getD x 0)
          rw [field_single hp hb c hx]
          have : c * p.getD x 0 = 1 ∨ c * p.getD x 0 = -1 := by
            rcases hc with h | h <;> rcases hb1 x hx with h' | h' <;> rw [h, h'] <;> simp
          rcases this with h' | h' <;> rw [h']
          · rw [if_pos (by omega)]
          · rw [if_neg (by omega)]
        · intro y hy
          exact get?_plainActs (fun z hz => h0 z ((hmem z).1 hz)) t ((hmem y).2 (hnbl x hx y hy))
      obtain ⟨a', h1, h2⟩ := hopfieldActivityRule_keeps (τ := τ) (by omega) hsh
        (show (runCtx cf N nb d f (fun _ _ => none) t x).current = f (t + 1) x from rfl) hrule a0 u0 hs
      unfold applyRule
      by_cases hme : cf.memoize = true
      · rw [if_pos hme]
        cases hfd : m.find (toKey (effectiveKey cf N) (runCtx cf N nb d f (fun _ _ => none) t x)) with
        | some v =>
          simp only
          unfold Memo.find at hfd
          obtain ⟨e, he1, rfl⟩ := Option.map_eq_some_iff.1 hfd
          have he2 := List.find?_some he1
          obtain ⟨x', b1, b2, b3⟩ := hm e (List.mem_of_find?_eq_some he1)
          rw [b2, hkey] at he2
          have hperm : ((nb x').map (f 0)).Perm ((nb x).map (f 0)) :=
            (counts_eq_iff_perm _ _).1 (by simpa [toKey, MemoKey.eq, runCtx] using he2)
          have := own_of_others b1 hx (f 0) (hnb x' b1).2 (hnb x hx).2 hperm
          refine ⟨m, (a0, u0), ?_, hs, hm⟩
          rw [b3]
          show Except.ok ((⟨f 0 x', [], []⟩ : RuleOut Nat Int Int), _) = _
          rw [this]
        | none =>
          simp only [h1]
          refine ⟨_, _, rfl, h2, ?_⟩
          intro e he
          rcases List.mem_append.1 he with he | he
          · exact hm e he
          · simp only [List.mem_singleton] at he
            subst he
            exact ⟨x, hx, by rw [hkey]; rfl, rfl⟩
      · rw [if_neg hme]
        simp only [h1]
        exact ⟨_, _, rfl, h2, hm⟩
    · intro t m s _ h; exact h
    · intro m s h
      refine ⟨s, ?_⟩
      rw [hinp]
      simp only [callInput, Except.ok.injEq, Prod.mk.injEq, and_true]
      rw [if_pos trivial]
  have hc' : cf.compression = false := by rw [← hcf]; exact hco
  obtain ⟨res, m, s, ext, e1, _, e3, _, _⟩ := evolve_run (cfg := cf) (rule := hopfieldActivityRule sh) (by rw [← hcf]; rfl)
    (by rw [← hcf]; simp only [Config.withRule, hpt, Option.map_none]) (by rw [← hcf]; simp only [Config.withRule, htop, Option.map_none])
    (fun h => by rw [hc'] at h; cases h) (hlab.nodup_iff.2 List.nodup_range) (nb := nb)
    (fun x hx => ⟨(hnb x ((hmem x).1 hx)).1, fun y hy => (hmem y).2 (hnbl x ((hmem x).1 hx) y hy)⟩)
    (init := some (.list (p.map (c * ·)))) (f := f) (Pre := fun _ => Inv) (Mid := fun _ _ => Inv) (inp := fun _ => .timestep) (nin := fun _ _ => none) (by
      rw [hd, hil]
      have := hlab.length_eq
      simp [Net.labels, Dict.keys, Net.size] at this ⊢
      omega)
    (fun x hx => by rw [hd]; exact h0 x ((hmem x).1 hx)) (by rw [hd]; exact hR) hT (by rw [hinp]; intro h; cases h)
    (w := ⟨heap, (⟨sh 0 n, 0, 0, 1⟩, u)⟩) hr ⟨⟨hsh 0, by show 0 < n; omega⟩, fun e he => by cases he⟩ hf
  rw [hd] at e3
  exact ⟨res, e1, shows_plain_of (by rw [← hcf]; exact hpa) hc' (by omega) hlab hil h0 e3⟩
/-- C61 with or without memoization: after training on one bipolar pattern of length `n ≥ 2`, the run from that pattern shows it
at every timestep, and the run from the inverted pattern the inverted one, whatever the shuffles and whether or not `memoize` is
set.  Units share entries of the cache, but the activities of all other units determine the own one. -/
theorem C61_memoized (n : Nat) (hn : 2 ≤ n) (p : List Int) (hp : p.length = n) (hb : ∀ v ∈ p, v = 1 ∨ v = -1)
    (N : Net Nat Int) (hN : hopfieldNetwork [p] = .ok N)
    (sh : Nat → Nat → List Nat) (hsh : ∀ i, (sh i n).Perm (List.range n)) (a : Async Nat)
    (ha : asyncInit sh none (some n) = .ok a) (cfg : Config Nat Int Int I τ κ) (T : Nat) (hT : 1 ≤ T)
    (hin : cfg.input = .timesteps T) (hpt : cfg.perturbation = none) (htop : cfg.topology = none)
    (hk : cfg.key = none) (hpa : cfg.persistActs = true) (hco : cfg.compression = false) (hnat : cfg.natLabel = id)
    (heap : List (Net Nat Int)) (r : Nat) (hr : heap[r]? = some N) (u : τ) (fuel : Nat) (hf : T ≤ fuel) :
    (∃ res, evolve fuel (cfg.withRule (hopfieldActivityRule sh)) (some (.list p)) r ⟨heap, (a, u)⟩ = .ok res ∧
      ShowsRun (cfg.withRule (α := Async Nat) (hopfieldActivityRule sh)) res T n (fun _ x => p.getD x 0)) ∧
    ∃ res, evolve fuel (cfg.withRule (hopfieldActivityRule sh)) (some (.list (p.map (fun v => -v)))) r ⟨heap, (a, u)⟩ = .ok res ∧
      ShowsRun (cfg.withRule (α := Async Nat) (hopfieldActivityRule sh)) res T n (fun _ x => - p.getD x 0) := by
  constructor
  · simpa using single_fixed_memo n hn p hp hb 1 (Or.inl rfl) N hN sh hsh a ha cfg T hT hin hpt htop hk hpa hco hnat heap r hr u fuel hf
  · have h := single_fixed_memo n hn p hp hb (-1) (Or.inr rfl) N hN sh hsh a ha cfg T hT hin hpt htop hk hpa hco hnat heap r hr u fuel hf
    have e : (fun v : Int => -1 * v) = fun v => -v := by funext v; omega
    have e2 : (fun (_ : Nat) (x : Nat) => -1 * p.getD x 0) = fun _ x => - p.getD x 0 := by funext _ x; omega
    rw [e, e2] at h
    exact h

end

/-- The hypotheses are met by the pattern `1 1 -1 -1` with memoization. -/
example : ∃ N res, hopfieldNetwork [[1, 1, -1, -1]] = .ok N ∧
    evolve 5 (({ Ex.base with input := .timesteps 5, memoize := true }).withRule (hopfieldActivityRule (fun _ n => List.range n)))
      (some (.list [1, 1, -1, -1])) 0 ⟨[N], (⟨List.range 4, 0, 0, 1⟩, [])⟩ = .ok res ∧
    ShowsRun (({ Ex.base with input := .timesteps 5, memoize := true }).withRule (α := Async Nat)
      (hopfieldActivityRule (fun _ n => List.range n))) res 5 4 (fun _ x => [1, 1, -1, -1].getD x 0) := by
  obtain ⟨res, h1, h2⟩ := (C61_memoized 4 (by omega) [1, 1, -1, -1] rfl (by decide) _ (hopfieldNetwork_eq (n := 4) (by simp) (by simp))
    (fun _ n => List.range n) (fun _ => List.Perm.refl _) _ rfl ({ Ex.base with input := .timesteps 5, memoize := true }) 5 (by omega)
    rfl rfl rfl rfl rfl rfl rfl [fromAdjacencyMatrix (matOf 4 (hebb [[1, 1, -1, -1]]))] 0 rfl [] 5 (by omega)).1
  exact ⟨_, res, hopfieldNetwork_eq (n := 4) (by simp) (by simp), h1, h2⟩

end Verif
