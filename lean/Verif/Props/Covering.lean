import Verif.Props.Motions
import Verif.Props.Cycles
import Verif.Spec.Covering
/-! # Property C159: coverings of networks -/

namespace Verif
open Spec
section
variable {L L' V : Type}

theorem cover_run {ls : List L'} {nb' : L' → List L'} (hc : ∀ x ∈ ls, ∀ y ∈ nb' x, y ∈ ls) {nb : L → List L} {φ : L' → L} {g : V → List V → V}
    (h : LiesOver ls nb' nb φ g) (s : L → V) (t : Nat) : ∀ x ∈ ls,
    localRun nb' (fun _ => g) (fun x => s (φ x)) t x = localRun nb (fun _ => g) s t (φ x) := by
  induction t with
  | zero => intro x _; rfl
  | succ t ih =>
    intro x hx
    rw [localRun, localRun, ih x hx]
    have e : (nb' x).map (localRun nb' (fun _ => g) (fun x => s (φ x)) t) = ((nb' x).map φ).map (localRun nb (fun _ => g) s t) := by
      rw [List.map_map]
      exact List.map_congr_left fun y hy => ih y (hc x hx y hy)
    rw [e]
    rcases h with h | ⟨h1, h2⟩
    · rw [h x hx]
    · exact h1 _ _ _ ((h2 x hx).map _)

end

section
variable {L L' A A' V I I' σ σ' κ κ' : Type} [DecidableEq L] [DecidableEq L'] [DecidableEq V] [DecidableEq κ] [DecidableEq κ']

/-- C159: if a network `N'` lies over a network `N`, and every node of `N'` starts with the state of the node it lies over, it has the state of that
node for ever. -/
theorem C159_cover (N : Net L A) (nb : L → List L) (hne : N.labels ≠ []) (hnd : N.labels.Nodup)
    (hnb : ∀ x ∈ N.labels, specNbrs N x = some (nb x) ∧ ∀ y ∈ nb x, y ∈ N.labels)
    (N' : Net L' A') (nb' : L' → List L') (hne' : N'.labels ≠ []) (hnd' : N'.labels.Nodup)
    (hnb' : ∀ x ∈ N'.labels, specNbrs N' x = some (nb' x) ∧ ∀ y ∈ nb' x, y ∈ N'.labels)
    (φ : L' → L) (hφ : ∀ x ∈ N'.labels, φ x ∈ N.labels) (g : V → List V → V) (hover : LiesOver N'.labels nb' nb φ g)
    (G : NodeCtx L A V I → Except Err V) (G' : NodeCtx L' A' V I' → Except Err V) (vals : List V)
    (hg : ∀ v ∈ vals, ∀ l : List V, (∃ x ∈ N.labels, l.length = (nb x).length) → (∀ u ∈ l, u ∈ vals) → g v l ∈ vals)
    (hG : ∀ c, c.current ∈ vals → (∀ u ∈ c.neighbourActs, u ∈ vals) → (∃ x ∈ N.labels, c.neighbourActs.length = (nb x).length) →
      G c = .ok (g c.current c.neighbourActs))
    (hG' : ∀ c, c.current ∈ vals → (∀ u ∈ c.neighbourActs, u ∈ vals) → (∃ x ∈ N.labels, c.neighbourActs.length = (nb x).length) →
      G' c = .ok (g c.current c.neighbourActs))
    (s : L → V) (hs : ∀ x ∈ N.labels, s x ∈ vals) (T : Nat) (hT : 1 ≤ T) (fuel : Nat) (hfu : T ≤ fuel)
    (cfg : Config L A V I σ κ) (h : cfg.Ordinary G T) (hm : cfg.memoize = false)
    (init : Option (Conds L V)) (hlen : (initDict cfg init).length = N.labels.length)
    (h0 : ∀ x ∈ N.labels, (initDict cfg init).get? x = some (s x)) (r : Nat) (w : World L A σ) (hr : w.heap[r]? = some N)
    (cfg' : Config L' A' V I' σ' κ') (h' : cfg'.Ordinary G' T) (hm' : cfg'.memoize = false)
    (init' : Option (Conds L' V)) (hlen' : (initDict cfg' init').length = N'.labels.length)
    (h0' : ∀ x ∈ N'.labels, (initDict cfg' init').get? x = some (s (φ x))) (r' : Nat) (w' : World L' A' σ') (hr' : w'.heap[r']? = some N') :
    ∃ res res' f, evolve fuel cfg init r w = .ok res ∧ evolve fuel cfg' init' r' w' = .ok res' ∧
      ShowsOn cfg res T N.labels f ∧ ShowsOn cfg' res' T N'.labels (fun t x => f t (φ x)) := by
  have hlen2 : ∀ x ∈ N'.labels, (nb' x).length = (nb (φ x)).length := by
    intro x hx
    rcases hover with h | ⟨_, h⟩
    · rw [← h x hx, List.length_map]
    · rw [← (h x hx).length_eq, List.length_map]
  obtain ⟨res, e1, e2⟩ := C140_run N nb hne hnd hnb (fun _ => g) G vals s hs (fun x hx v hv l hl hu => hg v hv l ⟨x, hx, hl⟩ hu)
    (fun c hc h1 h2 h3 => hG c h1 h2 ⟨c.node, hc, h3⟩) cfg T hT h hm init hlen h0 r w hr fuel hfu
  obtain ⟨res', e1', e2', e3'⟩ := C140_run N' nb' hne' hnd' hnb' (fun _ => g) G' vals (fun x => s (φ x)) (fun x hx => hs _ (hφ x hx))
    (fun x hx v hv l hl hu => hg v hv l ⟨φ x, hφ x hx, hl.trans (hlen2 x hx)⟩ hu)
    (fun c hc h1 h2 h3 => hG' c h1 h2 ⟨φ c.node, hφ _ hc, h3.trans (hlen2 _ hc)⟩) cfg' T hT h' hm' init' hlen' h0' r' w' hr' fuel hfu
  refine ⟨res, res', _, e1, e1', e2, e2', ?_⟩
  intro t ht
  obtain ⟨d, d1, d2, d3⟩ := e3' t ht
  refine ⟨d, d1, d2, ?_⟩
  intro x hx
  rw [d3 x hx, cover_run (fun x hx => (hnb' x hx).2) hover s t x hx]

/-- C159: on a network all of whose nodes have `k` neighbours, equal states stay equal, whatever the edges: the common state is that of one cell
with `k` copies of itself as neighbours. -/
theorem C159_equal (N : Net L A) (nb : L → List L) (hne : N.labels ≠ []) (hnd : N.labels.Nodup)
    (hnb : ∀ x ∈ N.labels, specNbrs N x = some (nb x) ∧ ∀ y ∈ nb x, y ∈ N.labels) (k : Nat) (hk : ∀ x ∈ N.labels, (nb x).length = k)
    (g : V → List V → V) (G : NodeCtx L A V I → Except Err V) (vals : List V)
    (hg : ∀ v ∈ vals, ∀ l : List V, l.length = k → (∀ u ∈ l, u ∈ vals) → g v l ∈ vals)
    (hG : ∀ c, c.current ∈ vals → (∀ u ∈ c.neighbourActs, u ∈ vals) → c.neighbourActs.length = k → G c = .ok (g c.current c.neighbourActs))
    (v : V) (hv : v ∈ vals) (T : Nat) (hT : 1 ≤ T) (fuel : Nat) (hfu : T ≤ fuel)
    (cfg : Config L A V I σ κ) (h : cfg.Ordinary G T) (hm : cfg.memoize = false)
    (init : Option (Conds L V)) (hlen : (initDict cfg init).length = N.labels.length)
    (h0 : ∀ x ∈ N.labels, (initDict cfg init).get? x = some v) (r : Nat) (w : World L A σ) (hr : w.heap[r]? = some N) :
    ∃ res, evolve fuel cfg init r w = .ok res ∧
      ShowsOn cfg res T N.labels (fun t _ => Nat.repeat (fun u => g u (List.replicate k u)) t v) := by
  obtain ⟨res, e1, e2, e3⟩ := C140_run N nb hne hnd hnb (fun _ => g) G vals (fun _ => v) (fun _ _ => hv) (fun x hx v hv l hl hu => hg v hv l (hl.trans (hk x hx)) hu)
    (fun c hc h1 h2 h3 => hG c h1 h2 (h3.trans (hk _ hc))) cfg T hT h hm init hlen h0 r w hr fuel hfu
  refine ⟨res, e1, e2, ?_⟩
  intro t ht
  obtain ⟨d, d1, d2, d3⟩ := e3 t ht
  refine ⟨d, d1, d2, ?_⟩
  intro x hx
  rw [d3 x hx]
  have hmap : ∀ (l : List L), l.map (fun _ => ()) = List.replicate l.length () := by
    intro l
    induction l with
    | nil => rfl
    | cons a l ih => rw [List.map_cons, ih, List.length_cons, List.replicate_succ]
  have hcov := cover_run (fun x hx => (hnb x hx).2) (nb := fun _ : Unit => List.replicate k ()) (φ := fun _ => ()) (g := g)
    (.inl fun x hx => by rw [hmap, hk x hx]) (fun _ => v) t x hx
  rw [hcov]
  have : ∀ t, localRun (fun _ : Unit => List.replicate k ()) (fun _ => g) (fun _ => v) t () = Nat.repeat (fun u => g u (List.replicate k u)) t v := by
    intro t
    induction t with
    | zero => rfl
    | succ t ih => rw [localRun, Nat.repeat, List.map_replicate, ih]
  rw [this]

end

section
variable {V I σ κ : Type} [DecidableEq V] [DecidableEq κ]

/-- C159: on the `m n` cells of a ring, initial conditions that repeat after `n` cells evolve as on the ring of `n` cells. -/
theorem C159_ring (n m r : Nat) (hn : 3 ≤ n) (hm0 : 1 ≤ m) (hrn : 2 * r + 1 ≤ n) (g : V → List V → V)
    (G : NodeCtx Nat Int V I → Except Err V) (vals : List V) (hg : ∀ v ∈ vals, ∀ l : List V, l.length = 2 * r + 1 → (∀ u ∈ l, u ∈ vals) → g v l ∈ vals)
    (hG : ∀ c, c.current ∈ vals → (∀ u ∈ c.neighbourActs, u ∈ vals) → c.neighbourActs.length = 2 * r + 1 → G c = .ok (g c.current c.neighbourActs))
    (s : Nat → V) (hs : ∀ x, x < n → s x ∈ vals) (T : Nat) (hT : 1 ≤ T) (fuel : Nat) (hfu : T ≤ fuel)
    (cfg : Config Nat Int V I σ κ) (h : cfg.Ordinary G T) (hm : cfg.memoize = false) (N N' : Net Nat Int)
    (hN : cellularAutomaton n r true = .ok N) (hN' : cellularAutomaton (m * n) r true = .ok N')
    (init init' : Option (Conds Nat V)) (hlen : (initDict cfg init).length = n) (hlen' : (initDict cfg init').length = m * n)
    (h0 : ∀ x, x < n → (initDict cfg init).get? x = some (s x)) (h0' : ∀ x, x < m * n → (initDict cfg init').get? x = some (s (x % n)))
    (p p' : Nat) (w w' : World Nat Int σ) (hr : w.heap[p]? = some N) (hr' : w'.heap[p']? = some N') :
    ∃ res res' f, evolve fuel cfg init p w = .ok res ∧ evolve fuel cfg init' p' w' = .ok res' ∧
      ShowsRun cfg res T n f ∧ ShowsRun cfg res' T (m * n) (fun t x => f t (x % n)) := by
  have hmn : n ≤ m * n := Nat.le_mul_of_pos_left n (by omega)
  obtain ⟨_, rs, e1, e2, e3, e4⟩ := C43_left_to_right n r hn hrn
  rw [hN] at e1
  cases e1
  obtain ⟨_, rs', e1', e2', e3', e4'⟩ := C43_left_to_right (m * n) r (by omega) (by omega)
  rw [hN'] at e1'
  cases e1'
  have hmem : ∀ x, x ∈ N.labels ↔ x < n := fun x => by rw [e3.mem_iff, List.mem_range]
  have hmem' : ∀ x, x ∈ N'.labels ↔ x < m * n := fun x => by rw [e3'.mem_iff, List.mem_range]
  have hl : N.labels.length = n := by rw [e3.length_eq, List.length_range]
  have hl' : N'.labels.length = m * n := by rw [e3'.length_eq, List.length_range]
  have hcell : ∀ k : Nat, 0 < k → ∀ x d, ringCell k x d < k := by
    intro k hk x d
    exact emod_toNat_lt _ hk
  have hne0 : ∀ {l : List Nat} {k : Nat}, l.length = k → 0 < k → l ≠ [] := by
    rintro l k h1 h2 rfl
    simp at h1
    omega
  obtain ⟨res, res', f, q1, q2, q3, q4⟩ := C159_cover N (fun x => (List.range (2 * r + 1)).map (fun (k : Nat) => ringCell n x ((k : Int) - (r : Int))))
    (hne0 hl (by omega)) (e3.nodup_iff.2 List.nodup_range) (by
      intro x hx
      refine ⟨by rw [specNbrs, e2]; exact e4 x ((hmem x).1 hx), ?_⟩
      intro y hy
      obtain ⟨k, _, rfl⟩ := List.mem_map.1 hy
      exact (hmem _).2 (hcell n (by omega) _ _))
    N' (fun x => (List.range (2 * r + 1)).map (fun (k : Nat) => ringCell (m * n) x ((k : Int) - (r : Int))))
    (hne0 hl' (by omega)) (e3'.nodup_iff.2 List.nodup_range) (by
      intro x hx
      refine ⟨by rw [specNbrs, e2']; exact e4' x ((hmem' x).1 hx), ?_⟩
      intro y hy
      obtain ⟨k, _, rfl⟩ := List.mem_map.1 hy
      exact (hmem' _).2 (hcell (m * n) (by omega) _ _))
    (fun x => x % n) (fun x _ => (hmem _).2 (Nat.mod_lt _ (by omega))) g (.inl (by
      intro x _
      rw [List.map_map]
      apply List.map_congr_left
      intro k _
      show ringCell (m * n) x _ % n = ringCell n (x % n) _
      unfold ringCell
      have h1 : (0 : Int) ≤ ((x : Int) + ((k : Int) - (r : Int))) % ((m * n : Nat) : Int) := Int.emod_nonneg _ (by omega)
      have h2 : (0 : Int) ≤ ((x : Int) + ((k : Int) - (r : Int))) % (n : Int) := Int.emod_nonneg _ (by omega)
      apply Int.ofNat_inj.1
      rw [Int.natCast_emod, Int.toNat_of_nonneg h1, Int.natCast_emod, Int.emod_add_emod, Int.toNat_of_nonneg h2]
      exact Int.emod_emod_of_dvd _ ⟨(m : Int), by rw [Int.natCast_mul, Int.mul_comm]⟩)) G G vals
    (by
      rintro v hv l ⟨x, _, hx⟩ hu
      exact hg v hv l (by rw [hx, List.length_map, List.length_range]) hu) (by
      rintro c h1 h2 ⟨x, _, hx⟩
      exact hG c h1 h2 (by rw [hx, List.length_map, List.length_range])) (by
      rintro c h1 h2 ⟨x, _, hx⟩
      exact hG c h1 h2 (by rw [hx, List.length_map, List.length_range])) s (fun x hx => hs x ((hmem x).1 hx)) T hT fuel hfu cfg h hm init
    (by rw [hlen, hl]) (fun x hx => h0 x ((hmem x).1 hx)) p w hr cfg h hm init' (by rw [hlen', hl']) (fun x hx => h0' x ((hmem' x).1 hx)) p' w' hr'
  refine ⟨res, res', f, q1, q2, ⟨q3.1, fun t ht => ?_⟩, ⟨q4.1, fun t ht => ?_⟩⟩
  · obtain ⟨d, d1, d2, d3⟩ := q3.2 t ht
    exact ⟨d, d1, by rw [d2, hl], fun x hx => d3 x ((hmem x).2 hx)⟩
  · obtain ⟨d, d1, d2, d3⟩ := q4.2 t ht
    exact ⟨d, d1, by rw [d2, hl'], fun x hx => d3 x ((hmem' x).2 hx)⟩

/-- C159: on the `p rows × q cols` torus, initial conditions that repeat after `rows` rows and after `cols` columns evolve as on the
`rows × cols` torus, with either neighbourhood and with or without memoization. -/
theorem C159_torus (rows cols p q : Nat) (hrw : 3 ≤ rows) (hcl : 3 ≤ cols) (hp : 1 ≤ p) (hq : 1 ≤ q) {hood : String}
    (hh : hood = "Moore" ∨ hood = "von Neumann")
    {Good : V → Prop} {G : NodeCtx Nat Int V I → Except Err V} {F : V → List V → V}
    (hG : OrderFree (if hood = "Moore" then 8 else 4) Good G F)
    (cfg : Config Nat Int V I σ κ) (T : Nat) (hT : 1 ≤ T) (h : cfg.Ordinary G T) (N N' : Net Nat Int)
    (hN : cellularAutomaton2d rows cols 1 hood true = .ok N) (hN' : cellularAutomaton2d (p * rows) (q * cols) 1 hood true = .ok N')
    (r r' : Nat) (w w' : World Nat Int σ) (hr : w.heap[r]? = some N) (hr' : w'.heap[r']? = some N')
    (init init' : Option (Conds Nat V)) (s : Nat → Nat → V) (hs : ∀ a b, a < rows → b < cols → Good (s a b))
    (hlen : (initDict cfg init).length = rows * cols) (hlen' : (initDict cfg init').length = (p * rows) * (q * cols))
    (h0 : ∀ a b, a < rows → b < cols → (initDict cfg init).get? (a * cols + b) = some (s a b))
    (h0' : ∀ a b, a < p * rows → b < q * cols → (initDict cfg init').get? (a * (q * cols) + b) = some (s (a % rows) (b % cols)))
    (fuel : Nat) (hf : T ≤ fuel) :
    ∃ res res' f, evolve fuel cfg init r w = .ok res ∧ evolve fuel cfg init' r' w' = .ok res' ∧
      ShowsRun cfg res T (rows * cols) f ∧
      ShowsRun cfg res' T ((p * rows) * (q * cols)) (fun t x => f t (x / (q * cols) % rows * cols + x % (q * cols) % cols)) := by
  have hk : (if hood = "Moore" then 8 else 4) = (squareHood hood).length := by rcases hh with rfl | rfl <;> rfl
  rw [hk] at hG
  have hpr : rows ≤ p * rows := Nat.le_mul_of_pos_left rows (by omega)
  have hqc : cols ≤ q * cols := Nat.le_mul_of_pos_left cols (by omega)
  obtain ⟨res, e1, e2⟩ := square_run_plane rows cols hrw hcl hh hG cfg T hT h N hN r w hr init s hs hlen h0 fuel hf
  obtain ⟨res', e1', e2', e3'⟩ := square_run_plane (p * rows) (q * cols) (by omega) (by omega) hh hG cfg T hT h N' hN' r' w' hr' init'
    (fun a b => s (a % rows) (b % cols)) (fun a b _ _ => hs _ _ (Nat.mod_lt _ (by omega)) (Nat.mod_lt _ (by omega))) hlen' h0' fuel hf
  refine ⟨res, res', _, e1, e1', e2, e2', ?_⟩
  intro t ht
  obtain ⟨d, d1, d2, d3⟩ := e3' t ht
  refine ⟨d, d1, d2, ?_⟩
  intro x hx
  rw [d3 x hx]
  congr 1
  have hmod : ∀ (n k : Nat) (z : Int), 0 < n → 0 < k → ((z % ((k * n : Nat) : Int)).toNat % n) = (z % (n : Int)).toNat := by
    intro n k z hn hk
    have hkn : 0 < k * n := Nat.mul_pos hk hn
    apply Int.ofNat_inj.1
    rw [Int.natCast_emod, Int.toNat_of_nonneg (Int.emod_nonneg _ (by omega)), Int.toNat_of_nonneg (Int.emod_nonneg _ (by omega))]
    exact Int.emod_emod_of_dvd _ ⟨(k : Int), by rw [Int.natCast_mul, Int.mul_comm]⟩
  have htl : tiled (p * rows) (q * cols) (fun a b => s (a % rows) (b % cols)) = tiled rows cols s := by
    funext a b
    show s _ _ = s _ _
    rw [hmod rows p a (by omega) (by omega), hmod cols q b (by omega) (by omega)]
  rw [htl]
  have hlt : x % (q * cols) % cols < cols := Nat.mod_lt _ (by omega)
  simp only
  rw [(label_parts (a := x / (q * cols) % rows) hlt).1, (label_parts (a := x / (q * cols) % rows) hlt).2]
  have hper := planeCA_periodic (D := squareHood hood) (F := F) (rows := rows) (cols := cols) s t ((x / (q * cols) : Nat) : Int) ((x % (q * cols) : Nat) : Int) 0 0
  simp only [Int.add_zero] at hper
  rw [Int.natCast_emod, Int.natCast_emod _ cols]
  exact hper.symm

end

/-- Copies of a ring of three cells: the rule that adds up its three cells modulo 2, from `0, 1, 1` and from `0, 1, 1, 0, 1, 1`. -/
example : ∃ N N' res res' f, cellularAutomaton 3 1 true = .ok N ∧ cellularAutomaton 6 1 true = .ok N' ∧
    evolve 9 ({ Ex.base with rule := some (pureRule fun c => .ok (c.neighbourActs.sum % 2)), input := .timesteps 9 })
      (some (.list [0, 1, 1])) 0 ⟨[N], []⟩ = .ok res ∧
    evolve 9 ({ Ex.base with rule := some (pureRule fun c => .ok (c.neighbourActs.sum % 2)), input := .timesteps 9 })
      (some (.list [0, 1, 1, 0, 1, 1])) 0 ⟨[N'], []⟩ = .ok res' ∧
    ShowsRun { Ex.base with rule := some (pureRule fun c => .ok (c.neighbourActs.sum % 2)), input := .timesteps 9 } res 9 3 f ∧
    ShowsRun { Ex.base with rule := some (pureRule fun c => .ok (c.neighbourActs.sum % 2)), input := .timesteps 9 } res' 9 6
      (fun t x => f t (x % 3)) := by
  obtain ⟨N, _, e, _⟩ := C43_left_to_right 3 1 (by omega) (by omega)
  obtain ⟨N', _, e', _⟩ := C43_left_to_right 6 1 (by omega) (by omega)
  obtain ⟨i1, _, i3⟩ := initDict_list (cfg := { Ex.base with rule := some (pureRule fun c => .ok (c.neighbourActs.sum % 2)), input := .timesteps 9 })
    rfl [0, 1, 1]
  obtain ⟨j1, _, j3⟩ := initDict_list (cfg := { Ex.base with rule := some (pureRule fun c => .ok (c.neighbourActs.sum % 2)), input := .timesteps 9 })
    rfl [0, 1, 1, 0, 1, 1]
  obtain ⟨res, res', f, h1, h2, h3, h4⟩ := C159_ring 3 2 1 (by omega) (by omega) (by omega) (fun _ l => l.sum % 2) _ [0, 1] (by
      intro v _ l _ _
      rcases Int.emod_two_eq l.sum with h | h <;> rw [h] <;> decide) (fun _ _ _ _ => rfl) (fun x => if x = 0 then 0 else 1) (by
      intro x _
      show (if x = 0 then (0 : Int) else 1) ∈ _
      split <;> decide) 9 (by omega) 9 (by omega)
    { Ex.base with rule := some (pureRule fun c => .ok (c.neighbourActs.sum % 2)), input := .timesteps 9 } ⟨rfl, rfl, rfl, rfl, rfl, rfl, rfl⟩ rfl
    N N' e e' (some (.list [0, 1, 1])) (some (.list [0, 1, 1, 0, 1, 1])) i1 j1 (by
      intro x hx
      rw [i3 x hx]
      have : x = 0 ∨ x = 1 ∨ x = 2 := by omega
      rcases this with rfl | rfl | rfl <;> rfl) (by
      intro x hx
      rw [j3 x hx]
      have : x = 0 ∨ x = 1 ∨ x = 2 ∨ x = 3 ∨ x = 4 ∨ x = 5 := by omega
      rcases this with rfl | rfl | rfl | rfl | rfl | rfl <;> rfl) 0 0 ⟨[N], []⟩ ⟨[N'], []⟩ rfl rfl
  exact ⟨N, N', res, res', f, e, e', h1, h2, h3, h4⟩

/-- Renaming nodes: the two nodes of C140 over themselves, with their names exchanged. -/
example : LiesOver [0, 1] (fun x => [1 - x]) (fun x => [1 - x]) (fun x => 1 - x) (fun (_ : Int) l => l.sum % 2) := .inl (by decide)
/-- Not every map will do: three nodes in a row do not lie over two. -/
example : ¬ LiesOver [0, 1, 2] (fun x => if x = 1 then [0, 2] else [1]) (fun x => [1 - x]) (fun x => x % 2) (fun (_ : Int) l => l.sum % 2) := by
  rintro (h | ⟨_, h⟩)
  · exact absurd (h 1 (by decide)) (by decide)
  · exact absurd (h 1 (by decide)).length_eq (by decide)

/-- Equal states: on the two nodes of C140 both nodes are 1 for ever with the rule that adds up its neighbours modulo 2. -/
example : ∃ res, evolve 5 ({ Ex.base with rule := some (pureRule fun c => .ok (c.neighbourActs.sum % 2)), input := .timesteps 5 })
      (some (.list [1, 1])) 0 ⟨[Ex.copyNet], []⟩ = .ok res ∧
    ShowsOn { Ex.base with rule := some (pureRule fun c => .ok (c.neighbourActs.sum % 2)), input := .timesteps 5 } res 5 Ex.copyNet.labels
      (fun t _ => Nat.repeat (fun u => (List.replicate 1 u).sum % 2) t 1) :=
  C159_equal Ex.copyNet (fun x => [1 - x]) (by decide) (by decide) (by decide) 1 (by decide) (fun _ l => l.sum % 2) _ [0, 1] (by
      intro v _ l _ _
      rcases Int.emod_two_eq l.sum with h | h <;> rw [h] <;> decide) (fun _ _ _ _ => rfl) 1 (by decide) 5 (by omega) 5 (by omega)
    { Ex.base with rule := some (pureRule fun c => .ok (c.neighbourActs.sum % 2)), input := .timesteps 5 }
    ⟨rfl, rfl, rfl, rfl, rfl, rfl, rfl⟩ rfl (some (.list [1, 1])) (by decide) (by decide) 0 _ rfl

/-- The Game of Life on the 6 × 9 torus, tiled by a pattern of the 3 × 3 torus: the hypotheses about the rule and the networks are met. -/
example : OrderFree (I := Unit) (if "Moore" = "Moore" then 8 else 4) (fun v => v = 0 ∨ v = 1) (orNone gameOfLife?)
    (fun v l => if conway (v == 1) (l.count 1) then 1 else 0) := C157_rules.1
example : ∃ N N', cellularAutomaton2d 3 3 1 "Moore" true = .ok N ∧ cellularAutomaton2d (2 * 3) (3 * 3) 1 "Moore" true = .ok N' := by
  obtain ⟨N, hN, _⟩ := C44_centre_partial.2 3 3 1 "Moore" (by decide) (by decide)
  obtain ⟨N', hN', _⟩ := C44_centre_partial.2 (2 * 3) (3 * 3) 1 "Moore" (by decide) (by decide)
  exact ⟨N, N', hN, hN'⟩

end Verif
