import Verif.Props.Cycles
/-! # Property C163: parts without links from outside, and feed-forward networks -/

namespace Verif
open Spec
section
variable {L A A' V I I' σ σ' κ κ' : Type} [DecidableEq L] [DecidableEq V] [DecidableEq κ] [DecidableEq κ']

/-- C140_run for rules that never raise on lists of neighbours of the right length, with any states. -/
theorem any_run (N : Net L A) (nb : L → List L) (hne : N.labels ≠ []) (hnd : N.labels.Nodup)
    (hnb : ∀ x ∈ N.labels, specNbrs N x = some (nb x) ∧ ∀ y ∈ nb x, y ∈ N.labels) (g : L → V → List V → V)
    (G : NodeCtx L A V I → Except Err V) (s : L → V)
    (hG : ∀ c, c.node ∈ N.labels → c.neighbourActs.length = (nb c.node).length → G c = .ok (g c.node c.current c.neighbourActs))
    (cfg : Config L A V I σ κ) (T : Nat) (hT : 1 ≤ T) (h : cfg.Ordinary G T) (hm : cfg.memoize = false)
    (init : Option (Conds L V)) (hlen : (initDict cfg init).length = N.labels.length)
    (h0 : ∀ x ∈ N.labels, (initDict cfg init).get? x = some (s x)) (r : Nat) (w : World L A σ) (hr : w.heap[r]? = some N) (fuel : Nat)
    (hfu : T ≤ fuel) : ∃ res, evolve fuel cfg init r w = .ok res ∧ ShowsOn cfg res T N.labels (localRun nb g s) := by
  have hsz : N.size = N.labels.length := by simp [Net.labels, Net.size, Dict.keys]
  have hpk : cfg.PackOk := by intro hc; rw [h.compression] at hc; cases hc
  obtain ⟨res, _, e1, _, e3⟩ := evolve_pure h.rule h.pert h.top hpk hnd (nb := nb) hnb (init := init) (f := localRun nb g s)
    (by rw [hlen, hsz]) h0 (T := T) (by
      intro t _ x hx
      exact (hG _ hx (List.length_map ..)).trans rfl) (fun hc => by rw [hm] at hc; cases hc) hT h.input hr hfu
  exact ⟨res, e1, shows_on h.persist h.compression hne hlen h0 e3⟩

/-- C163: a set `S` of nodes into which no link leads from outside evolves on its own.  Two networks may differ in everything but the neighbours of
the nodes of `S`, two rules in everything but what they do at the nodes of `S`, and two initial conditions in everything but the states of `S`: the
states of `S` are the same for ever. -/
theorem C163_upstream (N : Net L A) (nb : L → List L) (hne : N.labels ≠ []) (hnd : N.labels.Nodup)
    (hnb : ∀ x ∈ N.labels, specNbrs N x = some (nb x) ∧ ∀ y ∈ nb x, y ∈ N.labels)
    (N' : Net L A') (nb' : L → List L) (hne' : N'.labels ≠ []) (hnd' : N'.labels.Nodup)
    (hnb' : ∀ x ∈ N'.labels, specNbrs N' x = some (nb' x) ∧ ∀ y ∈ nb' x, y ∈ N'.labels)
    (S : List L) (hS : ∀ x ∈ S, nb x = nb' x ∧ ∀ y ∈ nb x, y ∈ S)
    (g g' : L → V → List V → V) (hg : ∀ x ∈ S, ∀ v l, l.length = (nb x).length → g x v l = g' x v l)
    (G : NodeCtx L A V I → Except Err V) (G' : NodeCtx L A' V I' → Except Err V)
    (hG : ∀ c, c.node ∈ N.labels → c.neighbourActs.length = (nb c.node).length → G c = .ok (g c.node c.current c.neighbourActs))
    (hG' : ∀ c, c.node ∈ N'.labels → c.neighbourActs.length = (nb' c.node).length → G' c = .ok (g' c.node c.current c.neighbourActs))
    (s s' : L → V) (hs : ∀ x ∈ S, s x = s' x) (T T' : Nat) (hT : 1 ≤ T) (hT' : 1 ≤ T') (fuel : Nat) (hfu : T ≤ fuel) (hfu' : T' ≤ fuel)
    (cfg : Config L A V I σ κ) (h : cfg.Ordinary G T) (hm : cfg.memoize = false)
    (init : Option (Conds L V)) (hlen : (initDict cfg init).length = N.labels.length)
    (h0 : ∀ x ∈ N.labels, (initDict cfg init).get? x = some (s x)) (r : Nat) (w : World L A σ) (hr : w.heap[r]? = some N)
    (cfg' : Config L A' V I' σ' κ') (h' : cfg'.Ordinary G' T') (hm' : cfg'.memoize = false)
    (init' : Option (Conds L V)) (hlen' : (initDict cfg' init').length = N'.labels.length)
    (h0' : ∀ x ∈ N'.labels, (initDict cfg' init').get? x = some (s' x)) (r' : Nat) (w' : World L A' σ') (hr' : w'.heap[r']? = some N') :
    ∃ res res' f f', evolve fuel cfg init r w = .ok res ∧ evolve fuel cfg' init' r' w' = .ok res' ∧
      ShowsOn cfg res T N.labels f ∧ ShowsOn cfg' res' T' N'.labels f' ∧ ∀ t, ∀ x ∈ S, f t x = f' t x := by
  obtain ⟨res, e1, e2⟩ := any_run N nb hne hnd hnb g G s hG cfg T hT h hm init hlen h0 r w hr fuel hfu
  obtain ⟨res', e1', e2'⟩ := any_run N' nb' hne' hnd' hnb' g' G' s' hG' cfg' T' hT' h' hm' init' hlen' h0' r' w' hr' fuel hfu'
  refine ⟨res, res', _, _, e1, e1', e2, e2', ?_⟩
  intro t
  induction t with
  | zero => exact hs
  | succ t ih =>
    intro x hx
    obtain ⟨h1, h2⟩ := hS x hx
    show g x (localRun nb g s t x) ((nb x).map (localRun nb g s t)) = g' x (localRun nb' g' s' t x) ((nb' x).map (localRun nb' g' s' t))
    rw [← h1, ← ih x hx, hg x hx _ _ (List.length_map ..)]
    congr 1
    exact List.map_congr_left fun y hy => ih y (h2 y hy)

/-- C163: a network that is feed-forward (every node is of higher rank than its neighbours), with a rule that does not look at the state of the node
itself, forgets its initial conditions: there are states `v`, the only ones at rest, which every node has from the timestep after its rank on. -/
theorem C163_forgets [Inhabited V] (N : Net L A) (nb : L → List L) (hne : N.labels ≠ []) (hnd : N.labels.Nodup)
    (hnb : ∀ x ∈ N.labels, specNbrs N x = some (nb x) ∧ ∀ y ∈ nb x, y ∈ N.labels)
    (rank : L → Nat) (hrank : ∀ x ∈ N.labels, ∀ y ∈ nb x, rank y < rank x) (g : L → List V → V) (G : NodeCtx L A V I → Except Err V)
    (hG : ∀ c, c.node ∈ N.labels → c.neighbourActs.length = (nb c.node).length → G c = .ok (g c.node c.neighbourActs)) :
    ∃ v : L → V, (∀ x ∈ N.labels, v x = g x ((nb x).map v)) ∧
      (∀ u : L → V, (∀ x ∈ N.labels, u x = g x ((nb x).map u)) → ∀ x ∈ N.labels, u x = v x) ∧
      ∀ (s : L → V) (cfg : Config L A V I σ κ) (T : Nat) (_ : 1 ≤ T) (_ : cfg.Ordinary G T) (_ : cfg.memoize = false)
        (init : Option (Conds L V)) (_ : (initDict cfg init).length = N.labels.length)
        (_ : ∀ x ∈ N.labels, (initDict cfg init).get? x = some (s x)) (r : Nat) (w : World L A σ) (_ : w.heap[r]? = some N) (fuel : Nat)
        (_ : T ≤ fuel), ∃ res f, evolve fuel cfg init r w = .ok res ∧ ShowsOn cfg res T N.labels f ∧
          ∀ t, ∀ x ∈ N.labels, rank x < t → f t x = v x := by
  -- two runs agree beyond the rank
  have agree : ∀ (s s' : L → V) (t t' : Nat), ∀ x ∈ N.labels, rank x < t → rank x < t' →
      localRun nb (fun x _ l => g x l) s t x = localRun nb (fun x _ l => g x l) s' t' x := by
    intro s s' t
    induction t with
    | zero => intro t' x _ h; omega
    | succ t ih =>
      intro t' x hx h1 h2
      obtain ⟨t', rfl⟩ : ∃ k, t' = k + 1 := ⟨t' - 1, by omega⟩
      show g x ((nb x).map _) = g x ((nb x).map _)
      congr 1
      refine List.map_congr_left fun y hy => ?_
      have := hrank x hx y hy
      exact ih t' y ((hnb x hx).2 y hy) (by omega) (by omega)
  let v : L → V := fun x => localRun nb (fun x _ l => g x l) (fun _ => default) (rank x + 1) x
  have hv : ∀ x ∈ N.labels, v x = g x ((nb x).map v) := by
    intro x hx
    show g x ((nb x).map _) = _
    congr 1
    refine List.map_congr_left fun y hy => ?_
    exact agree _ _ _ _ y ((hnb x hx).2 y hy) (hrank x hx y hy) (by omega)
  refine ⟨v, hv, ?_, ?_⟩
  · intro u hu
    have : ∀ k, ∀ x ∈ N.labels, rank x < k → u x = v x := by
      intro k
      induction k with
      | zero => intro x _ h; omega
      | succ k ih =>
        intro x hx hk
        rw [hu x hx, hv x hx]
        congr 1
        refine List.map_congr_left fun y hy => ih y ((hnb x hx).2 y hy) ?_
        have := hrank x hx y hy
        omega
    exact fun x hx => this _ x hx (Nat.lt_succ_self _)
  · intro s cfg T hT h hm init hlen h0 r w hr fuel hfu
    obtain ⟨res, e1, e2⟩ := any_run N nb hne hnd hnb (fun x _ l => g x l) G s hG cfg T hT h hm init hlen h0 r w hr fuel hfu
    exact ⟨res, _, e1, e2, fun t x hx ht => agree _ _ _ _ x hx ht (by omega)⟩

end

section
variable {L A I σ κ : Type} [DecidableEq L] [DecidableEq κ]

/-- C163: this needs the ranks.  If some nodes, `C`, each have a neighbour among them (as the nodes of a cycle do), then with the rule "1 if some
neighbour is 1" they keep a memory of the initial conditions for ever: they stay 0 if all nodes start with 0, and 1 if all start with 1. -/
theorem C163_cycle (N : Net L A) (nb : L → List L) (hne : N.labels ≠ []) (hnd : N.labels.Nodup)
    (hnb : ∀ x ∈ N.labels, specNbrs N x = some (nb x) ∧ ∀ y ∈ nb x, y ∈ N.labels)
    (C : List L) (hC : ∀ x ∈ C, ∃ y ∈ nb x, y ∈ C) (b : Int) (hb : b = 0 ∨ b = 1) (T : Nat) (hT : 1 ≤ T) (cfg : Config L A Int I σ κ)
    (h : cfg.Ordinary (fun c => .ok (if 1 ∈ c.neighbourActs then 1 else 0)) T) (hm : cfg.memoize = false)
    (init : Option (Conds L Int)) (hlen : (initDict cfg init).length = N.labels.length)
    (h0 : ∀ x ∈ N.labels, (initDict cfg init).get? x = some b) (r : Nat) (w : World L A σ) (hr : w.heap[r]? = some N) (fuel : Nat)
    (hfu : T ≤ fuel) : ∃ res f, evolve fuel cfg init r w = .ok res ∧ ShowsOn cfg res T N.labels f ∧ ∀ t, ∀ x ∈ C, f t x = b := by
  obtain ⟨res, e1, e2⟩ := any_run N nb hne hnd hnb (fun _ _ l => if 1 ∈ l then 1 else 0) _ (fun _ => b) (fun _ _ _ => rfl) cfg T hT h hm init hlen h0
    r w hr fuel hfu
  refine ⟨res, _, e1, e2, ?_⟩
  rcases hb with rfl | rfl
  · have : ∀ t x, localRun nb (fun _ _ l => if (1 : Int) ∈ l then (1 : Int) else 0) (fun _ => 0) t x = 0 := by
      intro t
      induction t with
      | zero => intro x; rfl
      | succ t ih =>
        intro x
        show (if (1 : Int) ∈ (nb x).map _ then (1 : Int) else 0) = 0
        rw [if_neg]
        intro hm
        obtain ⟨y, _, hy⟩ := List.mem_map.1 hm
        rw [ih y] at hy
        cases hy
    exact fun t x _ => this t x
  · intro t
    induction t with
    | zero => intro x _; rfl
    | succ t ih =>
      intro x hx
      obtain ⟨y, hy, hyC⟩ := hC x hx
      show (if (1 : Int) ∈ (nb x).map _ then (1 : Int) else 0) = 1
      rw [if_pos (List.mem_map.2 ⟨y, hy, ih y hyC⟩)]

end

/-! Examples: three nodes in a row, with links forward only; the same with a link back from the last node to the second; and the two nodes of C140. -/

def Ex.forward : Net Nat Int := fromAdjacencyMatrix [[0, 1, 1], [0, 0, 1], [0, 0, 0]]
def Ex.backward : Net Nat Int := fromAdjacencyMatrix [[0, 1, 1], [0, 0, 1], [0, 1, 0]]

def Ex.sumCfg (T : Nat) : Config Nat Int Int Int (List Int) Unit :=
  { Ex.base with rule := some (pureRule fun c => .ok (c.node + c.neighbourActs.sum)), input := .timesteps T }

/-- The rule adds the states of the neighbours and the number of the node.  The states at rest are 0, 1 and 3. -/
example : ∃ v : Nat → Int, (v 0 = 0 ∧ v 1 = 1 ∧ v 2 = 3) ∧
    ∃ res f, evolve 5 (Ex.sumCfg 5) (some (.list [7, 8, 9])) 0 ⟨[Ex.forward], []⟩ = .ok res ∧ ShowsOn (Ex.sumCfg 5) res 5 Ex.forward.labels f ∧
      ∀ t, ∀ x ∈ Ex.forward.labels, x < t → f t x = v x := by
  obtain ⟨v, h1, _, h3⟩ := C163_forgets (I := Int) (σ := List Int) (κ := Unit) Ex.forward (fun x => List.range x) (by decide) (by decide) (by decide) id
    (by decide) (fun x l => (x : Int) + l.sum) (fun c => .ok (c.node + c.neighbourActs.sum)) (fun _ _ _ => rfl)
  have v0 : v 0 = 0 := h1 0 (by decide)
  have v1 : v 1 = 1 := by
    have : v 1 = 1 + (v 0 + 0) := h1 1 (by decide)
    omega
  have v2 : v 2 = 3 := by
    have : v 2 = 2 + (v 0 + (v 1 + 0)) := h1 2 (by decide)
    omega
  exact ⟨v, ⟨v0, v1, v2⟩, h3 (fun x => 7 + x) (Ex.sumCfg 5) 5 (by decide) ⟨rfl, rfl, rfl, rfl, rfl, rfl, rfl⟩ rfl (some (.list [7, 8, 9])) (by decide)
    (by decide) 0 ⟨[Ex.forward], []⟩ rfl 5 (by decide)⟩

/-- The first node evolves alike in both networks. -/
example : ∃ res res' f f', evolve 9 (Ex.sumCfg 5) (some (.list [7, 8, 9])) 0 ⟨[Ex.forward], []⟩ = .ok res ∧
    evolve 9 (Ex.sumCfg 9) (some (.list [7, 1, 1])) 0 ⟨[Ex.backward], []⟩ = .ok res' ∧
    ShowsOn (Ex.sumCfg 5) res 5 Ex.forward.labels f ∧ ShowsOn (Ex.sumCfg 9) res' 9 Ex.backward.labels f' ∧ ∀ t, ∀ x ∈ [0], f t x = f' t x :=
  C163_upstream Ex.forward (fun x => List.range x) (by decide) (by decide) (by decide)
    Ex.backward (fun x => [[], [0, 2], [0, 1]].getD x []) (by decide) (by decide) (by decide) [0] (by decide) (fun x _ l => (x : Int) + l.sum)
    (fun x _ l => (x : Int) + l.sum) (fun _ _ _ _ _ => rfl)
    (fun c => .ok (c.node + c.neighbourActs.sum)) (fun c => .ok (c.node + c.neighbourActs.sum)) (fun _ _ _ => rfl) (fun _ _ _ => rfl)
    (fun x => 7 + x) (fun x => if x = 0 then 7 else 1) (by decide) 5 9 (by decide) (by decide) 9 (by decide) (by decide)
    (Ex.sumCfg 5) ⟨rfl, rfl, rfl, rfl, rfl, rfl, rfl⟩ rfl (some (.list [7, 8, 9])) (by decide) (by decide) 0 ⟨[Ex.forward], []⟩ rfl
    (Ex.sumCfg 9) ⟨rfl, rfl, rfl, rfl, rfl, rfl, rfl⟩ rfl (some (.list [7, 1, 1])) (by decide) (by decide) 0 ⟨[Ex.backward], []⟩ rfl

/-- Two of the nodes of the second network form a cycle. -/
example : ∃ res f, evolve 9 { Ex.base with rule := some (pureRule fun c => .ok (if 1 ∈ c.neighbourActs then 1 else 0)), input := .timesteps 9 }
      (some (.list [1, 1, 1])) 0 ⟨[Ex.backward], []⟩ = .ok res ∧
    ShowsOn { Ex.base with rule := some (pureRule fun c => .ok (if 1 ∈ c.neighbourActs then 1 else 0)), input := .timesteps 9 } res 9 Ex.backward.labels f ∧
      ∀ t, ∀ x ∈ [1, 2], f t x = 1 :=
  C163_cycle Ex.backward (fun x => [[], [0, 2], [0, 1]].getD x []) (by decide) (by decide) (by decide) [1, 2] (by decide) 1 (by decide) 9 (by decide)
    { Ex.base with rule := some (pureRule fun c => .ok (if 1 ∈ c.neighbourActs then 1 else 0)), input := .timesteps 9 }
    ⟨rfl, rfl, rfl, rfl, rfl, rfl, rfl⟩ rfl (some (.list [1, 1, 1])) (by decide) (by decide) 0 ⟨[Ex.backward], []⟩ rfl 9 (by decide)

end Verif
