import Verif.Proofs.Order
import Verif.Props.Cycles
import Verif.Props.Elementary
/-! # Property C160: order-preserving automata -/

namespace Verif
open Spec
section
variable {L A I σ κ I' σ' κ' : Type} [DecidableEq L] [DecidableEq κ] [DecidableEq κ']

omit [DecidableEq L] in
/-- The values of a run from values between 0 and `K` are between 0 and `K`. -/
theorem run_between {ls : List L} {nb : L → List L} (hnb : ∀ x ∈ ls, ∀ y ∈ nb x, y ∈ ls) {g : L → Int → List Int → Int} {K : Nat}
    (hg : OrderPreserving ls nb K g) {s : L → Int} (hs : ∀ x ∈ ls, 0 ≤ s x ∧ s x ≤ K) (t : Nat) :
    ∀ x ∈ ls, 0 ≤ localRun nb g s t x ∧ localRun nb g s t x ≤ K := by
  induction t with
  | zero => exact hs
  | succ t ih =>
    intro x hx
    refine hg.range x hx _ (ih x hx).1 (ih x hx).2 _ (List.length_map ..) ?_
    intro u hu
    obtain ⟨y, hy, rfl⟩ := List.mem_map.1 hu
    exact ih y (hnb x hx y hy)

/-- The integers from 0 to `K`. -/
def upTo (K : Nat) : List Int := (List.range (K + 1)).map Int.ofNat

theorem mem_upTo {K : Nat} {v : Int} : v ∈ upTo K ↔ 0 ≤ v ∧ v ≤ K := by
  constructor
  · intro h
    obtain ⟨k, hk, rfl⟩ := List.mem_map.1 h
    have := List.mem_range.1 hk
    exact ⟨Int.natCast_nonneg k, by show (k : Int) ≤ K; omega⟩
  · intro h
    refine List.mem_map.2 ⟨v.toNat, List.mem_range.2 (by omega), ?_⟩
    show ((v.toNat : Nat) : Int) = v
    omega

/-- C140 for integers from 0 to `K`. -/
theorem order_run (N : Net L A) (nb : L → List L) (hne : N.labels ≠ []) (hnd : N.labels.Nodup)
    (hnb : ∀ x ∈ N.labels, specNbrs N x = some (nb x) ∧ ∀ y ∈ nb x, y ∈ N.labels) (g : L → Int → List Int → Int) (K : Nat)
    (hg : OrderPreserving N.labels nb K g) (G : NodeCtx L A Int I → Except Err Int)
    (hG : ∀ c, c.node ∈ N.labels → ((0 : Int) ≤ c.current ∧ c.current ≤ (K : Int)) → (∀ u ∈ c.neighbourActs, (0 : Int) ≤ u ∧ u ≤ K) →
      c.neighbourActs.length = (nb c.node).length → G c = .ok (g c.node c.current c.neighbourActs))
    (s : L → Int) (hs : ∀ x ∈ N.labels, 0 ≤ s x ∧ s x ≤ K) (T : Nat) (hT : 1 ≤ T) (fuel : Nat) (hfu : T ≤ fuel)
    (cfg : Config L A Int I σ κ) (h : cfg.Ordinary G T) (hmz : cfg.memoize = false)
    (init : Option (Conds L Int)) (hlen : (initDict cfg init).length = N.labels.length)
    (h0 : ∀ x ∈ N.labels, (initDict cfg init).get? x = some (s x)) (r : Nat) (w : World L A σ) (hr : w.heap[r]? = some N) :
    ∃ res, evolve fuel cfg init r w = .ok res ∧ ShowsOn cfg res T N.labels (localRun nb g s) :=
  C140_run N nb hne hnd hnb g G (upTo K) s (fun x hx => mem_upTo.2 (hs x hx))
    (fun x hx v hv l hl hu => mem_upTo.2 (hg.range x hx v (mem_upTo.1 hv).1 (mem_upTo.1 hv).2 l hl fun u h => mem_upTo.1 (hu u h)))
    (fun c hc hv hu hl => hG c hc (mem_upTo.1 hv) (fun u h => mem_upTo.1 (hu u h)) hl) cfg T hT h hmz init hlen h0 r w hr fuel hfu

/-- C160: with an order-preserving rule the greater initial conditions have the greater states, for ever. -/
theorem C160_order (N : Net L A) (nb : L → List L) (hne : N.labels ≠ []) (hnd : N.labels.Nodup)
    (hnb : ∀ x ∈ N.labels, specNbrs N x = some (nb x) ∧ ∀ y ∈ nb x, y ∈ N.labels) (g : L → Int → List Int → Int) (K : Nat)
    (hg : OrderPreserving N.labels nb K g) (G : NodeCtx L A Int I → Except Err Int) (G' : NodeCtx L A Int I' → Except Err Int)
    (hG : ∀ c, c.node ∈ N.labels → ((0 : Int) ≤ c.current ∧ c.current ≤ (K : Int)) → (∀ u ∈ c.neighbourActs, (0 : Int) ≤ u ∧ u ≤ K) →
      c.neighbourActs.length = (nb c.node).length → G c = .ok (g c.node c.current c.neighbourActs))
    (hG' : ∀ c, c.node ∈ N.labels → ((0 : Int) ≤ c.current ∧ c.current ≤ (K : Int)) → (∀ u ∈ c.neighbourActs, (0 : Int) ≤ u ∧ u ≤ K) →
      c.neighbourActs.length = (nb c.node).length → G' c = .ok (g c.node c.current c.neighbourActs))
    (s s' : L → Int) (hs : ∀ x ∈ N.labels, 0 ≤ s x ∧ s x ≤ s' x ∧ s' x ≤ K) (T : Nat) (hT : 1 ≤ T) (fuel : Nat) (hfu : T ≤ fuel)
    (cfg : Config L A Int I σ κ) (h : cfg.Ordinary G T) (hmz : cfg.memoize = false)
    (init : Option (Conds L Int)) (hlen : (initDict cfg init).length = N.labels.length)
    (h0 : ∀ x ∈ N.labels, (initDict cfg init).get? x = some (s x)) (r : Nat) (w : World L A σ) (hr : w.heap[r]? = some N)
    (cfg' : Config L A Int I' σ' κ') (h' : cfg'.Ordinary G' T) (hmz' : cfg'.memoize = false)
    (init' : Option (Conds L Int)) (hlen' : (initDict cfg' init').length = N.labels.length)
    (h0' : ∀ x ∈ N.labels, (initDict cfg' init').get? x = some (s' x)) (r' : Nat) (w' : World L A σ') (hr' : w'.heap[r']? = some N) :
    ∃ res res' f f', evolve fuel cfg init r w = .ok res ∧ evolve fuel cfg' init' r' w' = .ok res' ∧
      ShowsOn cfg res T N.labels f ∧ ShowsOn cfg' res' T N.labels f' ∧ ∀ t, ∀ x ∈ N.labels, f t x ≤ f' t x := by
  obtain ⟨res, e1, e2⟩ := order_run N nb hne hnd hnb g K hg G hG s (fun x hx => by have := hs x hx; omega) T hT fuel hfu cfg h hmz init hlen h0 r w hr
  obtain ⟨res', e1', e2'⟩ := order_run N nb hne hnd hnb g K hg G' hG' s' (fun x hx => by have := hs x hx; omega) T hT fuel hfu cfg' h' hmz' init'
    hlen' h0' r' w' hr'
  refine ⟨res, res', _, _, e1, e1', e2, e2', ?_⟩
  have b := run_between (fun x hx => (hnb x hx).2) hg (s := s) (fun x hx => by have := hs x hx; omega)
  have b' := run_between (fun x hx => (hnb x hx).2) hg (s := s') (fun x hx => by have := hs x hx; omega)
  intro t
  induction t with
  | zero => intro x hx; exact (hs x hx).2.1
  | succ t ih => exact hg.mono _ _ fun x hx => ⟨(b t x hx).1, ih x hx, (b' t x hx).2⟩

/-- C160: with an order-preserving rule and values from 0 to `K`, an evolution in which no node goes down in the first step never goes
down, and is at rest after `K` steps for each node; likewise if no node goes up in the first step. -/
theorem C160_rest (N : Net L A) (nb : L → List L) (hne : N.labels ≠ []) (hnd : N.labels.Nodup)
    (hnb : ∀ x ∈ N.labels, specNbrs N x = some (nb x) ∧ ∀ y ∈ nb x, y ∈ N.labels) (g : L → Int → List Int → Int) (K : Nat)
    (hg : OrderPreserving N.labels nb K g) (G : NodeCtx L A Int I → Except Err Int)
    (hG : ∀ c, c.node ∈ N.labels → ((0 : Int) ≤ c.current ∧ c.current ≤ (K : Int)) → (∀ u ∈ c.neighbourActs, (0 : Int) ≤ u ∧ u ≤ K) →
      c.neighbourActs.length = (nb c.node).length → G c = .ok (g c.node c.current c.neighbourActs))
    (s : L → Int) (hs : ∀ x ∈ N.labels, 0 ≤ s x ∧ s x ≤ K) (T : Nat) (hT : 1 ≤ T) (fuel : Nat) (hfu : T ≤ fuel)
    (cfg : Config L A Int I σ κ) (h : cfg.Ordinary G T) (hmz : cfg.memoize = false)
    (init : Option (Conds L Int)) (hlen : (initDict cfg init).length = N.labels.length)
    (h0 : ∀ x ∈ N.labels, (initDict cfg init).get? x = some (s x)) (r : Nat) (w : World L A σ) (hr : w.heap[r]? = some N) :
    ∃ res f, evolve fuel cfg init r w = .ok res ∧ ShowsOn cfg res T N.labels f ∧
      ((∀ x ∈ N.labels, s x ≤ g x (s x) ((nb x).map s)) → (∀ t, ∀ x ∈ N.labels, f t x ≤ f (t + 1) x) ∧
        ∀ t, N.labels.length * K ≤ t → ∀ x ∈ N.labels, f t x = f (N.labels.length * K) x) ∧
      ((∀ x ∈ N.labels, g x (s x) ((nb x).map s) ≤ s x) → (∀ t, ∀ x ∈ N.labels, f (t + 1) x ≤ f t x) ∧
        ∀ t, N.labels.length * K ≤ t → ∀ x ∈ N.labels, f t x = f (N.labels.length * K) x) := by
  obtain ⟨res, e1, e2⟩ := order_run N nb hne hnd hnb g K hg G hG s hs T hT fuel hfu cfg h hmz init hlen h0 r w hr
  have b := run_between (fun x hx => (hnb x hx).2) hg hs
  have m : ∀ t u, (∀ x ∈ N.labels, localRun nb g s t x ≤ localRun nb g s u x) → ∀ x ∈ N.labels, localRun nb g s (t + 1) x ≤ localRun nb g s (u + 1) x :=
    fun t u hle => hg.mono _ _ fun x hx => ⟨(b t x hx).1, hle x hx, (b u x hx).2⟩
  exact ⟨res, _, e1, e2, fun hu => chain_up N.labels K _ b m hu, fun hd => chain_down N.labels K _ b m hd⟩

end

/-- Two nodes that copy each other and keep what they have: the rule "1 if some neighbour or the node is 1" preserves the order. -/
theorem Ex.or_order : OrderPreserving Ex.copyNet.labels (fun x => [1 - x]) 1 (fun _ v l => if 1 ≤ v + l.sum then 1 else 0) where
  range := by intro x _ v _ _ l _ _; split <;> decide
  mono := by
    intro p q h x hx
    have hy : 1 - x ∈ Ex.copyNet.labels := by
      have : ∀ x ∈ Ex.copyNet.labels, 1 - x ∈ Ex.copyNet.labels := by decide
      exact this x hx
    have h1 := h x hx
    have h2 := h (1 - x) hy
    simp only [List.map_cons, List.map_nil, List.sum_cons, List.sum_nil]
    split <;> split <;> omega

example : ∃ res f, evolve 9 { Ex.base with rule := some (pureRule fun c => .ok (if 1 ≤ c.current + c.neighbourActs.sum then 1 else 0)), input := .timesteps 9 }
      (some (.list [1, 0])) 0 ⟨[Ex.copyNet], []⟩ = .ok res ∧
    ShowsOn { Ex.base with rule := some (pureRule fun c => .ok (if 1 ≤ c.current + c.neighbourActs.sum then 1 else 0)), input := .timesteps 9 } res 9
      Ex.copyNet.labels f ∧ (∀ t, ∀ x ∈ Ex.copyNet.labels, f t x ≤ f (t + 1) x) ∧ ∀ t, 2 ≤ t → ∀ x ∈ Ex.copyNet.labels, f t x = f 2 x := by
  obtain ⟨res, f, h1, h2, h3, _⟩ := C160_rest Ex.copyNet (fun x => [1 - x]) (by decide) (by decide) (by decide) _ 1 Ex.or_order
    (fun c => .ok (if 1 ≤ c.current + c.neighbourActs.sum then 1 else 0)) (fun _ _ _ _ _ => rfl) (fun x => if x = 0 then 1 else 0) (by decide) 9
    (by decide) 9 (by decide)
    { Ex.base with rule := some (pureRule fun c => .ok (if 1 ≤ c.current + c.neighbourActs.sum then 1 else 0)), input := .timesteps 9 }
    ⟨rfl, rfl, rfl, rfl, rfl, rfl, rfl⟩ rfl (some (.list [1, 0])) (by decide) (by decide) 0 ⟨[Ex.copyNet], []⟩ rfl
  exact ⟨res, f, h1, h2, h3 (by decide)⟩

example : ∃ res res' f f', evolve 9 { Ex.base with rule := some (pureRule fun c => .ok (if 1 ≤ c.current + c.neighbourActs.sum then 1 else 0)), input := .timesteps 9 }
      (some (.list [0, 0])) 0 ⟨[Ex.copyNet], []⟩ = .ok res ∧
    evolve 9 { Ex.base with rule := some (pureRule fun c => .ok (if 1 ≤ c.current + c.neighbourActs.sum then 1 else 0)), input := .timesteps 9 }
      (some (.list [1, 0])) 0 ⟨[Ex.copyNet], []⟩ = .ok res' ∧
    ShowsOn { Ex.base with rule := some (pureRule fun c => .ok (if 1 ≤ c.current + c.neighbourActs.sum then 1 else 0)), input := .timesteps 9 } res 9
      Ex.copyNet.labels f ∧
    ShowsOn { Ex.base with rule := some (pureRule fun c => .ok (if 1 ≤ c.current + c.neighbourActs.sum then 1 else 0)), input := .timesteps 9 } res' 9
      Ex.copyNet.labels f' ∧ ∀ t, ∀ x ∈ Ex.copyNet.labels, f t x ≤ f' t x :=
  C160_order Ex.copyNet (fun x => [1 - x]) (by decide) (by decide) (by decide) _ 1 Ex.or_order
    (fun c => .ok (if 1 ≤ c.current + c.neighbourActs.sum then 1 else 0)) (fun c => .ok (if 1 ≤ c.current + c.neighbourActs.sum then 1 else 0))
    (fun _ _ _ _ _ => rfl) (fun _ _ _ _ _ => rfl) (fun _ => 0) (fun x => if x = 0 then 1 else 0) (by decide) 9
    (by decide) 9 (by decide)
    { Ex.base with rule := some (pureRule fun c => .ok (if 1 ≤ c.current + c.neighbourActs.sum then 1 else 0)), input := .timesteps 9 }
    ⟨rfl, rfl, rfl, rfl, rfl, rfl, rfl⟩ rfl (some (.list [0, 0])) (by decide) (by decide) 0 ⟨[Ex.copyNet], []⟩ rfl
    { Ex.base with rule := some (pureRule fun c => .ok (if 1 ≤ c.current + c.neighbourActs.sum then 1 else 0)), input := .timesteps 9 }
    ⟨rfl, rfl, rfl, rfl, rfl, rfl, rfl⟩ rfl (some (.list [1, 0])) (by decide) (by decide) 0 ⟨[Ex.copyNet], []⟩ rfl

/-- C160: the elementary rules that preserve the order, on a ring of any size. -/
theorem C160_rules (n R : Nat) (hn : 3 ≤ n) (hR : R < 256) : KeepsOrder n R ↔
    R ∈ [0, 128, 136, 160, 168, 170, 192, 200, 204, 224, 232, 234, 236, 238, 240, 248, 250, 252, 254, 255] := by
  rw [keepsOrder_iff n R hn]
  exact tableUp_list ⟨R, hR⟩

example : KeepsOrder 100 232 ∧ ¬ KeepsOrder 100 110 :=
  ⟨(C160_rules _ _ (by decide) (by decide)).2 (by decide), fun h => absurd ((C160_rules _ _ (by decide) (by decide)).1 h) (by decide)⟩

theorem eca_state_lt (n R : Nat) (s : Nat → Nat) (hs : BinaryRow n s) (t x : Nat) (hx : x < n) : eca n R s t x < 2 := by
  cases t with
  | zero => exact hs x hx
  | succ t => exact Nat.mod_lt _ (by decide)

theorem keepsOrder_step {n R : Nat} (hk : KeepsOrder n R) {s s' : Nat → Nat} (hs : BinaryRow n s) (hs' : BinaryRow n s') (t u : Nat)
    (h : ∀ x, x < n → eca n R s t x ≤ eca n R s' u x) : ∀ x, x < n → eca n R s (t + 1) x ≤ eca n R s' (u + 1) x :=
  hk (eca n R s t) (eca n R s' u) (eca_state_lt n R s hs t) (eca_state_lt n R s' hs' u) h

section
variable {I σ κ I' σ' κ' : Type} [DecidableEq κ] [DecidableEq κ']

/-- C160: two evolutions with one of these rules from rows `s ≤ s'` are ordered at all timesteps. -/
theorem C160_elementary {n R T T' : Nat} {s s' : Nat → Nat} {cfg : Config Nat Int Int I σ κ} {res : Evolved Nat Int Int σ}
    {cfg' : Config Nat Int Int I' σ' κ'} {res' : Evolved Nat Int Int σ'} (h : EcaCall n R T s cfg res) (h' : EcaCall n R T' s' cfg' res')
    (hR : R ∈ [0, 128, 136, 160, 168, 170, 192, 200, 204, 224, 232, 234, 236, 238, 240, 248, 250, 252, 254, 255])
    (hle : ∀ x, x < n → s x ≤ s' x) (t : Nat) (ht : t < T) (ht' : t < T') (x : Nat) (hx : x < n) :
    ∃ a b, actOf cfg res t x = some a ∧ actOf cfg' res' t x = some b ∧ a ≤ b := by
  refine ⟨_, _, h.act t ht x hx, h'.act t ht' x hx, Int.ofNat_le.2 ?_⟩
  have hk := (C160_rules n R h.cells h.number).2 hR
  clear ht ht'
  induction t generalizing x with
  | zero => exact hle x hx
  | succ t ih => exact keepsOrder_step hk h.row h'.row t t (fun x hx => ih x hx) x hx

/-- C160: an evolution with one of these rules whose first step changes no 1 into 0, or no 0 into 1, does so in no step, and is at rest from
timestep `n` on. -/
theorem C160_elementary_rest {n R T : Nat} {s : Nat → Nat} {cfg : Config Nat Int Int I σ κ} {res : Evolved Nat Int Int σ}
    (h : EcaCall n R T s cfg res)
    (hR : R ∈ [0, 128, 136, 160, 168, 170, 192, 200, 204, 224, 232, 234, 236, 238, 240, 248, 250, 252, 254, 255]) :
    ((∀ x, x < n → s x ≤ ecaRule R (s ((x + n - 1) % n)) (s x) (s ((x + 1) % n))) →
      (∀ t, t + 1 < T → ∀ x, x < n → ∃ a b, actOf cfg res t x = some a ∧ actOf cfg res (t + 1) x = some b ∧ a ≤ b) ∧
      ∀ t, n ≤ t → t < T → ∀ x, x < n → actOf cfg res t x = actOf cfg res n x) ∧
    ((∀ x, x < n → ecaRule R (s ((x + n - 1) % n)) (s x) (s ((x + 1) % n)) ≤ s x) →
      (∀ t, t + 1 < T → ∀ x, x < n → ∃ a b, actOf cfg res t x = some a ∧ actOf cfg res (t + 1) x = some b ∧ b ≤ a) ∧
      ∀ t, n ≤ t → t < T → ∀ x, x < n → actOf cfg res t x = actOf cfg res n x) := by
  have hk := (C160_rules n R h.cells h.number).2 hR
  have b : ∀ t, ∀ x ∈ List.range n, 0 ≤ (eca n R s t x : Int) ∧ (eca n R s t x : Int) ≤ (1 : Nat) := by
    intro t x hx
    have := eca_state_lt n R s h.row t x (List.mem_range.1 hx)
    omega
  have m : ∀ t u, (∀ x ∈ List.range n, (eca n R s t x : Int) ≤ eca n R s u x) → ∀ x ∈ List.range n, (eca n R s (t + 1) x : Int) ≤ eca n R s (u + 1) x :=
    fun t u hle x hx => Int.ofNat_le.2 (keepsOrder_step hk h.row h.row t u (fun y hy => Int.ofNat_le.1 (hle y (List.mem_range.2 hy))) x
      (List.mem_range.1 hx))
  constructor
  · intro h0
    obtain ⟨c1, c2⟩ := chain_up (List.range n) 1 (fun t x => (eca n R s t x : Int)) b m
      (fun x hx => Int.ofNat_le.2 (h0 x (List.mem_range.1 hx)))
    rw [List.length_range, Nat.mul_one] at c2
    refine ⟨fun t ht x hx => ⟨_, _, h.act t (by omega) x hx, h.act (t + 1) ht x hx, c1 t x (List.mem_range.2 hx)⟩, fun t h1 h2 x hx => ?_⟩
    rw [h.act t h2 x hx, h.act n (by omega) x hx]
    exact congrArg some (c2 t h1 x (List.mem_range.2 hx))
  · intro h0
    obtain ⟨c1, c2⟩ := chain_down (List.range n) 1 (fun t x => (eca n R s t x : Int)) b m
      (fun x hx => Int.ofNat_le.2 (h0 x (List.mem_range.1 hx)))
    rw [List.length_range, Nat.mul_one] at c2
    refine ⟨fun t ht x hx => ⟨_, _, h.act t (by omega) x hx, h.act (t + 1) ht x hx, c1 t x (List.mem_range.2 hx)⟩, fun t h1 h2 x hx => ?_⟩
    rw [h.act t h2 x hx, h.act n (by omega) x hx]
    exact congrArg some (c2 t h1 x (List.mem_range.2 hx))

end

/-- A call from one cell in state 1 with rule 254, where no 1 becomes 0. -/
example : (∃ res, EcaCall 8 254 12 (fun x => if x = 2 then 1 else 0)
      ({ Ex.base with rule := some (pureRule (nksCaRule 254)), input := .timesteps 12, memoize := true }) res) ∧
    (∀ x, x < 8 → (if x = 2 then 1 else 0) ≤ ecaRule 254 (if (x + 8 - 1) % 8 = 2 then 1 else 0) (if x = 2 then 1 else 0) (if (x + 1) % 8 = 2 then 1 else 0)) ∧
    254 ∈ [0, 128, 136, 160, 168, 170, 192, 200, 204, 224, 232, 234, 236, 238, 240, 248, 250, 252, 254, 255] := by
  refine ⟨?_, by decide, by decide⟩
  obtain ⟨N, _, hN, _⟩ := C43_left_to_right 8 1 (by omega) (by omega)
  obtain ⟨res, h1, h2⟩ := C46_elementary_ca 8 254 (by omega) (by omega)
    { Ex.base with rule := some (pureRule (nksCaRule 254)), input := .timesteps 12, memoize := true } 12 (by omega)
    ⟨rfl, rfl, rfl, rfl, rfl, rfl, rfl⟩ N hN 0 ⟨[N], []⟩ rfl (some (.list [0, 0, 1, 0, 0, 0, 0, 0]))
    (fun x => if x = 2 then 1 else 0) (by decide) (by decide) (by decide) 12 (by omega)
  exact ⟨res, by decide, by decide, by decide, ⟨rfl, rfl, rfl, rfl, rfl, rfl, rfl⟩, by unfold BinaryRow; decide,
    N, 0, ⟨[N], []⟩, some (.list [0, 0, 1, 0, 0, 0, 0, 0]), 12, hN, rfl, by decide, by decide, by decide, h1⟩

/-- Not so for all rules: with rule 110 the first step of this row only adds, a later one takes away. -/
example : (∀ x, x < 8 → (if x = 2 then 1 else 0) ≤ eca 8 110 (fun x => if x = 2 then 1 else 0) 1 x) ∧
    ∃ t x, x < 8 ∧ eca 8 110 (fun x => if x = 2 then 1 else 0) (t + 1) x < eca 8 110 (fun x => if x = 2 then 1 else 0) t x :=
  ⟨by decide, 2, 1, by decide, by decide⟩

end Verif
