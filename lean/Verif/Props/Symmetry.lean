import Verif.Props.EndToEnd
import Verif.Props.Memo
/-! # Properties C76, C77: light cones and translation -/

namespace Verif
open Spec

/-! ## C76 -/
section
variable {L A V I σ κ : Type} [DecidableEq L] [DecidableEq V] [DecidableEq κ]

/-- `y` is reached from `x` by following at most `k` links from a node to one of its neighbours. -/
def Within (n : Net L A) (x : L) : Nat → L → Prop
  | 0, y => y = x
  | k + 1, y => Within n x k y ∨ ∃ z nb, Within n x k z ∧ specNbrs n z = some nb ∧ y ∈ nb

/-- The rule looks at the node, its own activity and its neighbours' only (not at `ctx.activities` or the past). -/
def LocalRule (G : NodeCtx L A V I → Except Err V) : Prop :=
  ∀ c c' : NodeCtx L A V I, c.node = c'.node → c.t = c'.t → c.neighbours = c'.neighbours →
    c.neighbourActs = c'.neighbourActs → c.connections = c'.connections → c.current = c'.current → c.input = c'.input →
    G c = G c'

/-- A path of `k` links can start with its first link. -/
theorem within_step {n : Net L A} {x y z : L} {nb : List L} (hx : specNbrs n x = some nb) (hy : y ∈ nb) :
    ∀ {k}, Within n y k z → Within n x (k + 1) z := by
  intro k
  induction k generalizing z with
  | zero => intro h; cases h; exact Or.inr ⟨x, nb, rfl, hx, hy⟩
  | succ k ih =>
    rintro (h | ⟨w, nb', hw, hn, hz⟩)
    · exact Or.inl (ih h)
    · exact Or.inr ⟨w, nb', ih hw, hn, hz⟩

theorem within_mono {n : Net L A} {x y : L} {k : Nat} (h : Within n x k y) : Within n x (k + 1) y := Or.inl h

omit [DecidableEq κ] in
theorem memoSafe_off {cfg : Config L A V I σ κ} {G T} (h : cfg.Ordinary G T) :
    ({ cfg with memoize := false } : Config L A V I σ κ).Ordinary G T :=
  ⟨h.rule, h.pert, h.top, h.input, h.key, h.persist, h.compression⟩

/-- Memoization can be switched off. -/
theorem evolve_memo_off {cfg : Config L A V I σ κ} {G T} (h : cfg.Ordinary G T) {n : Net L A} {r : Nat}
    {w : World L A σ} (hr : w.heap[r]? = some n)
    (hk : cfg.memoize = true → MemoSafe cfg.key n.rotation.isSome G) (fuel : Nat) (init : Option (Conds L V)) :
    evolve fuel cfg init r w = evolve fuel { cfg with memoize := false } init r w := by
  by_cases hm : cfg.memoize = true
  · have := C17_memoize_transparent cfg G h.rule init r w n hr (hk hm) fuel
    rw [← this]
    congr 1
    cases cfg; simp only at hm; subst hm; rfl
  · congr 1
    cases cfg; simp only [Bool.not_eq_true] at hm; subst hm; rfl

/-- C76.  For a rule that looks only at a node and its neighbours, on a fixed network: if two finished runs start from
conditions that agree on every node within `t` links of `x`, then `x` has the same activity in state `t` of both. -/
theorem C76_light_cone (cfg : Config L A V I σ κ) (T : Nat) (hT : 1 ≤ T) (G : NodeCtx L A V I → Except Err V)
    (hG : LocalRule G) (h : cfg.Ordinary G T) (n : Net L A) (hn : n.labels.Nodup) (hcl : NetClosed n) (r r' : Nat)
    (w w' : World L A σ) (hr : w.heap[r]? = some n) (hr' : w'.heap[r']? = some n)
    (hk : cfg.memoize = true → MemoSafe cfg.key n.rotation.isSome G)
    (init init' : Option (Conds L V)) (hi : ∀ x ∈ n.labels, x ∈ (initDict cfg init).keys)
    (hi' : ∀ x ∈ n.labels, x ∈ (initDict cfg init').keys) (fuel : Nat) (hf : T ≤ fuel) (res res' : Evolved L A V σ)
    (he : evolve fuel cfg init r w = .ok res) (he' : evolve fuel cfg init' r' w' = .ok res')
    (x : L) (hx : x ∈ n.labels) (t : Nat) (ht : t < T)
    (hag : ∀ y, Within n x t y → (initDict cfg init).get? y = (initDict cfg init').get? y) :
    ∃ d d' v, res.acts cfg t = some d ∧ res'.acts cfg t = some d' ∧ d.get? x = some v ∧ d'.get? x = some v := by
  rw [evolve_memo_off h hr hk] at he
  rw [evolve_memo_off h hr' hk] at he'
  have h0 := memoSafe_off h
  have hpk : ({ cfg with memoize := false } : Config L A V I σ κ).PackOk := by
    intro hc; rw [h0.compression] at hc; cases hc
  let nb : L → List L := fun x => (specNbrs n x).getD []
  have hnb : ∀ x ∈ n.labels, specNbrs n x = some (nb x) ∧ ∀ y ∈ nb x, y ∈ n.labels := by
    intro x hx
    obtain ⟨l, h1, h2⟩ := hcl x hx
    have : nb x = l := by show (specNbrs n x).getD [] = l; rw [h1]; rfl
    rw [this]
    exact ⟨h1, h2⟩
  have hv : ∀ x ∈ n.labels, ∃ v, (initDict cfg init).get? x = some v := fun x hx => Dict.exists_get?_of_mem_keys (hi x hx)
  obtain ⟨v0, _⟩ := hv x hx
  obtain ⟨f, a1, a2, a3⟩ := pure_of_evolve h0.rule h0.pert rfl h0.top hpk hn hnb (init := init)
    (f0 := fun y => ((initDict cfg init).get? y).getD v0)
    (by intro y hy; obtain ⟨u, hu⟩ := hv y hy
        show (initDict cfg init).get? y = _
        rw [hu]; rfl) hT h0.input hr hf he
  obtain ⟨f', b1, b2, b3⟩ := pure_of_evolve h0.rule h0.pert rfl h0.top hpk hn hnb (init := init')
    (f0 := fun y => ((initDict cfg init').get? y).getD v0)
    (by intro y hy; obtain ⟨u, hu⟩ := Dict.exists_get?_of_mem_keys (hi' y hy)
        show (initDict cfg init').get? y = _
        rw [hu]; rfl) hT h0.input hr' hf he'
  have key : ∀ s, s < T → ∀ y ∈ n.labels,
      (∀ z, Within n y s z → (initDict cfg init).get? z = (initDict cfg init').get? z) → f s y = f' s y := by
    intro s
    induction s with
    | zero =>
      intro _ y hy hz
      rw [a1 y hy, b1 y hy, hz y rfl]
    | succ s ih =>
      intro hs y hy hz
      have hcur : f s y = f' s y := ih (by omega) y hy (fun z hw => hz z (within_mono hw))
      have hnbs : (nb y).map (f s) = (nb y).map (f' s) := by
        apply List.map_congr_left
        intro u hu
        exact ih (by omega) u ((hnb y hy).2 u hu) (fun z hw => hz z (within_step (hnb y hy).1 hu hw))
      have e1 := a2 s hs y hy
      have e2 := b2 s hs y hy
      have e3 := hG (plainCtx { cfg with memoize := false } n nb (initDict { cfg with memoize := false } init) f s y)
        (plainCtx { cfg with memoize := false } n nb (initDict { cfg with memoize := false } init') f' s y)
        rfl rfl rfl hnbs rfl hcur rfl
      rw [e1, e2] at e3
      exact Except.ok.inj e3
  have hfin := key t ht x hx hag
  have shows : ∀ (init : Option (Conds L V)) (f : Nat → L → V) (res : Evolved L A V σ),
      (∀ y ∈ n.labels, (initDict cfg init).get? y = some (f 0 y)) →
      Observes { cfg with memoize := false } res
        ((List.range T).map (fun s => (plainActs n.labels (initDict cfg init) f s, n))) →
      ∃ d, res.acts cfg t = some d ∧ d.get? x = some (f t x) := by
    intro init f res hf0 ho
    have hg := get?_plainActs hf0 t hx
    refine ⟨plainActs n.labels (initDict cfg init) f t, ?_, hg⟩
    have hne : (plainActs n.labels (initDict cfg init) f t).isEmpty = false := by
      cases hp : plainActs n.labels (initDict cfg init) f t with
      | nil => rw [hp] at hg; cases hg
      | cons a l => rfl
    have : res.acts cfg t = _ := ho.acts t
    rw [this]
    simp only [List.getElem?_map, List.getElem?_range ht, Option.map_some, Option.bind_some, obsActs]
    rw [if_pos ⟨Or.inr h.persist, hne⟩, h.compression]
    rfl
  obtain ⟨d, d1, d2⟩ := shows init f res (by
    intro y hy
    obtain ⟨u, hu⟩ := hv y hy
    rw [a1 y hy, hu]; rfl) a3
  obtain ⟨d', d1', d2'⟩ := shows init' f' res' (by
    intro y hy
    obtain ⟨u, hu⟩ := Dict.exists_get?_of_mem_keys (hi' y hy)
    rw [b1 y hy, hu]; rfl) b3
  exact ⟨d, d', f t x, d1, d1', d2, by rw [d2', hfin]⟩

/-- Rules that look at their neighbourhood only are local: the sum rule of the examples is. -/
example : LocalRule (fun c : NodeCtx Nat Int Int Int => .ok (Ex.sumRule c)) := by
  intro c c' _ ht _ hn _ _ _
  simp only [Ex.sumRule, ht, hn]
/-- On the directed triangle the conditions of node 0 cannot be seen at node 2 after one step, but after two. -/
example : ¬ Within Ex.tri 2 1 0 ∧ Within Ex.tri 2 2 0 := by
  constructor
  · rintro (h | ⟨z, nb, hz, hn, hy⟩)
    · cases h
    · cases hz
      have : specNbrs Ex.tri 2 = some [1] := by decide
      rw [this] at hn
      cases hn
      simp at hy
  · exact Or.inr ⟨1, [0], Or.inr ⟨2, [1], rfl, by decide, by decide⟩, by decide, by decide⟩
/-- Two runs that differ at node 0: node 2 shows the difference in state 2. -/
example : Ex.runActs 3 { Ex.base with rule := some (pureRule (fun c => .ok (Ex.sumRule c))), input := .timesteps 3 }
    [1, 0, 0] Ex.tri = .ok [some [(0, 1), (1, 0), (2, 0)], some [(0, 2), (1, 2), (2, 1)], some [(0, 5), (1, 4), (2, 4)]] ∧
  Ex.runActs 3 { Ex.base with rule := some (pureRule (fun c => .ok (Ex.sumRule c))), input := .timesteps 3 }
    [5, 0, 0] Ex.tri = .ok [some [(0, 5), (1, 0), (2, 0)], some [(0, 6), (1, 6), (2, 1)], some [(0, 9), (1, 8), (2, 8)]] := by
  decide
example : NetClosed Ex.tri ∧ Ex.tri.labels.Nodup := by
  refine ⟨?_, by decide⟩
  intro x hx
  have : Ex.tri.labels = [0, 1, 2] := by decide
  rw [this] at hx
  simp only [List.mem_cons, List.not_mem_nil, or_false] at hx
  rcases hx with rfl | rfl | rfl
  · exact ⟨[2, 0], by decide, by decide⟩
  · exact ⟨[0], by decide, by decide⟩
  · exact ⟨[1], by decide, by decide⟩

end

/-! ## C77 -/
section
variable {V I σ κ : Type} [DecidableEq V] [DecidableEq κ]

/-- The rule looks at the timestep, the activities of the neighbourhood and the node's own activity only: it is the
same for all nodes. -/
def HomogeneousRule (G : NodeCtx Nat Int V I → Except Err V) : Prop :=
  ∀ c c' : NodeCtx Nat Int V I, c.t = c'.t → c.neighbourActs = c'.neighbourActs → c.current = c'.current →
    c.input = c'.input → G c = G c'

/-- The ring automaton network lists the neighbourhood of every node in the same relative order. -/
theorem ring_neighbours {n r : Nat} (hn : 3 ≤ n) (hr : r ≤ n) :
    ∃ N rs m c, cellularAutomaton n r true = .ok N ∧ N.rotation = some rs ∧ N.labels.Perm (List.range n) ∧
      ∀ w, w < n → rs.get? w = some ((List.range m).map (fun (k : Nat) => ringCell n w ((k : Int) - ((c : Nat) : Int)))) := by
  by_cases h : 2 * r + 1 ≤ n
  · obtain ⟨N, rs, h1, h2, h3, h4⟩ := C43_left_to_right n r hn h
    exact ⟨N, rs, 2 * r + 1, r, h1, h2, h3, h4⟩
  · obtain ⟨N, rs, h1, h2, h3, h4⟩ := C43_whole_ring n r hn (by omega) hr
    exact ⟨N, rs, n, n / 2, h1, h2, h3, h4⟩

/-- The cell `k` places to the left of `y`. -/
def unshift (n k y : Nat) : Nat := ringCell n y (-(k : Int))

theorem unshift_lt {n k y : Nat} (hn : 0 < n) : unshift n k y < n := by
  have h1 := Int.emod_lt_of_pos ((y : Int) + -(k : Int)) (by omega : (0 : Int) < n)
  have h2 := Int.emod_nonneg ((y : Int) + -(k : Int)) (by omega : (n : Int) ≠ 0)
  unfold unshift ringCell
  omega

theorem ringCell_lt {n y : Nat} (hn : 0 < n) (j : Int) : ringCell n y j < n := by
  have h1 := Int.emod_lt_of_pos ((y : Int) + j) (by omega : (0 : Int) < n)
  have h2 := Int.emod_nonneg ((y : Int) + j) (by omega : (n : Int) ≠ 0)
  unfold ringCell
  omega

theorem ringCell_ringCell {n y : Nat} (hn : 0 < n) (i j : Int) : ringCell n (ringCell n y i) j = ringCell n y (i + j) := by
  have h2 := Int.emod_nonneg ((y : Int) + i) (by omega : (n : Int) ≠ 0)
  have : ((ringCell n y i : Nat) : Int) = ((y : Int) + i) % (n : Int) := by unfold ringCell; omega
  rw [ringCell.eq_1 n (ringCell n y i), this]
  show ((((y : Int) + i) % (n : Int) + j) % (n : Int)).toNat = _
  rw [Int.emod_add_emod, Int.add_assoc]
  rfl

/-- C77.  On the ring `cellular_automaton(n, r)`, `n ≥ 3`, `r ≤ n` (other arguments raise), with a rule that is the same
for all nodes, and initial conditions `s'` which are `s` shifted by `k` cells: if the run from `s` returns then so does
the run from `s'`, and its states are those of the run from `s` shifted by `k` cells. -/
theorem C77_translation (n r : Nat) (hn : 3 ≤ n) (hrn : r ≤ n) (cfg : Config Nat Int V I σ κ) (T : Nat) (hT : 1 ≤ T)
    (G : NodeCtx Nat Int V I → Except Err V) (hG : HomogeneousRule G) (h : cfg.Ordinary G T)
    (hk : cfg.memoize = true → ∀ c c', c.neighbourActs = c'.neighbourActs → G c = G c')
    (N : Net Nat Int) (hN : cellularAutomaton n r true = .ok N) (p p' : Nat) (w w' : World Nat Int σ)
    (hr : w.heap[p]? = some N) (hr' : w'.heap[p']? = some N) (init init' : Option (Conds Nat V)) (s : Nat → V) (k : Nat)
    (hlen' : (initDict cfg init').length = n) (hlen : (initDict cfg init).length = n)
    (h0 : ∀ x, x < n → (initDict cfg init).get? x = some (s x))
    (h0' : ∀ x, x < n → (initDict cfg init').get? ((x + k) % n) = some (s x)) (fuel : Nat) (hf : T ≤ fuel)
    (res : Evolved Nat Int V σ) (he : evolve fuel cfg init p w = .ok res) :
    ∃ f f' res', evolve fuel cfg init' p' w' = .ok res' ∧ ShowsRun cfg res T n f ∧ ShowsRun cfg res' T n f' ∧
      ∀ t x, x < n → f' t ((x + k) % n) = f t x := by
  obtain ⟨N', rs, m, c, e1, e2, e3, e4⟩ := ring_neighbours hn hrn
  rw [hN] at e1
  cases e1
  have hsafe : cfg.memoize = true → MemoSafe cfg.key N.rotation.isSome G := by
    intro hm
    rw [h.key, e2]
    exact hk hm
  rw [evolve_memo_off h hr hsafe] at he
  have hm0 := memoSafe_off h
  have hpk : ({ cfg with memoize := false } : Config Nat Int V I σ κ).PackOk := by
    intro hc; rw [hm0.compression] at hc; cases hc
  have hmem : ∀ x, x ∈ N.labels ↔ x < n := fun x => by rw [e3.mem_iff, List.mem_range]
  have hn0 : 0 < n := by omega
  let nb : Nat → List Nat := fun w => (List.range m).map (fun (k : Nat) => ringCell n w ((k : Int) - (c : Int)))
  have hnb : ∀ x, x < n → specNbrs N x = some (nb x) ∧ ∀ y ∈ nb x, y < n := by
    intro x hx
    refine ⟨by simp only [specNbrs, e2]; exact e4 x hx, ?_⟩
    intro y hy
    obtain ⟨j, _, rfl⟩ := List.mem_map.1 hy
    exact ringCell_lt hn0 _
  obtain ⟨f, a1, a2, a3⟩ := pure_of_evolve hm0.rule hm0.pert rfl hm0.top hpk (e3.nodup_iff.2 List.nodup_range)
    (nb := nb) (fun x hx => ⟨(hnb x ((hmem x).1 hx)).1, fun y hy => (hmem y).2 ((hnb x ((hmem x).1 hx)).2 y hy)⟩)
    (init := init) (f0 := s) (fun x hx => h0 x ((hmem x).1 hx)) hT hm0.input hr hf he
  have hun : ∀ x, x < n → unshift n k ((x + k) % n) = x := by
    intro x hx
    have : (x + k) % n = ringCell n x (k : Int) := by
      unfold ringCell
      have : ((x : Int) + (k : Int)) % (n : Int) = (((x + k) % n : Nat) : Int) := by
        rw [Int.natCast_emod]; rfl
      rw [this]; rfl
    rw [this, unshift, ringCell_ringCell hn0]
    unfold ringCell
    rw [show (x : Int) + ((k : Int) + -(k : Int)) = x by omega, Int.emod_eq_of_lt (by omega) (by omega)]
    rfl
  have hsh : ∀ y, y < n → (unshift n k y + k) % n = y := by
    intro y hy
    have : (unshift n k y + k) % n = ringCell n (unshift n k y) (k : Int) := by
      unfold ringCell
      have : ((unshift n k y : Nat) : Int) + (k : Int) = ((unshift n k y + k : Nat) : Int) := by omega
      rw [this, ← Int.natCast_emod]; rfl
    rw [this, unshift, ringCell_ringCell hn0]
    unfold ringCell
    rw [show (y : Int) + (-(k : Int) + (k : Int)) = y by omega, Int.emod_eq_of_lt (by omega) (by omega)]
    rfl
  obtain ⟨res', r1, r2⟩ := ca_run hm0 hT (by omega) e3 hnb (init := init') hlen' (f := fun t y => f t (unshift n k y))
    (by
      intro y hy
      have := h0' (unshift n k y) (unshift_lt hn0)
      rw [hsh y hy] at this
      show (initDict cfg init').get? y = some (f 0 (unshift n k y))
      rw [this, a1 _ ((hmem _).2 (unshift_lt hn0))])
    (by
      intro t ht y hy
      have hg := a2 t ht (unshift n k y) ((hmem _).2 (unshift_lt hn0))
      rw [← hg]
      apply hG
      · rfl
      · show (nb y).map (fun y => f t (unshift n k y)) = (nb (unshift n k y)).map (f t)
        simp only [nb, List.map_map]
        apply List.map_congr_left
        intro j _
        simp only [Function.comp]
        congr 1
        unfold unshift
        rw [ringCell_ringCell hn0, ringCell_ringCell hn0, Int.add_comm]
      · rfl
      · rfl)
    (fun hm => by cases hm) hr' hf
  refine ⟨f, fun t y => f t (unshift n k y), res', ?_, ?_, r2, ?_⟩
  · rw [evolve_memo_off h hr' hsafe]; exact r1
  · exact shows_plain hm0 (by omega) e3 hlen (fun x hx => by
      rw [a1 x ((hmem x).2 hx)]; exact h0 x hx) a3
  · intro t x hx
    show f t (unshift n k ((x + k) % n)) = f t x
    rw [hun x hx]

/-- The rules of the package that look at their neighbourhood only are homogeneous, and safe with the ordered key. -/
theorem nks_homogeneous (R : Int) : HomogeneousRule (nksCaRule R : NodeCtx Nat Int Int I → Except Err Int) ∧
    ∀ c c' : NodeCtx Nat Int Int I, c.neighbourActs = c'.neighbourActs → nksCaRule R c = nksCaRule R c' := by
  have : ∀ c c' : NodeCtx Nat Int Int I, c.neighbourActs = c'.neighbourActs → nksCaRule R c = nksCaRule R c' := by
    intro c c' h
    unfold nksCaRule binaryCaRule
    rw [h]
  exact ⟨fun c c' _ h _ _ => this c c' h, this⟩

/-- Rule 30 on seven cells, shifted by three, memoized: all hypotheses are met. -/
example : ∃ f f' res res' N, cellularAutomaton 7 1 true = .ok N ∧
    evolve 5 { Ex.base with rule := some (pureRule (nksCaRule 30)), input := .timesteps 5, memoize := true }
      (some (.list [1, 0, 0, 0, 1, 1, 0])) 0 ⟨[N], []⟩ = .ok res ∧
    evolve 5 { Ex.base with rule := some (pureRule (nksCaRule 30)), input := .timesteps 5, memoize := true }
      (some (.list [1, 1, 0, 1, 0, 0, 0])) 0 ⟨[N], []⟩ = .ok res' ∧
    ShowsRun { Ex.base with rule := some (pureRule (nksCaRule 30)), input := .timesteps 5, memoize := true } res 5 7 f ∧
    ShowsRun { Ex.base with rule := some (pureRule (nksCaRule 30)), input := .timesteps 5, memoize := true } res' 5 7 f' ∧
    ∀ t x, x < 7 → f' t ((x + 3) % 7) = f t x := by
  obtain ⟨N, _, hN, _⟩ := C43_left_to_right 7 1 (by omega) (by omega)
  obtain ⟨res, h1, _⟩ := C46_elementary_ca 7 30 (by omega) (by omega)
    { Ex.base with rule := some (pureRule (nksCaRule 30)), input := .timesteps 5, memoize := true } 5 (by omega)
    ⟨rfl, rfl, rfl, rfl, rfl, rfl, rfl⟩ N hN 0 ⟨[N], []⟩ rfl (some (.list [1, 0, 0, 0, 1, 1, 0]))
    (fun x => if x = 0 ∨ x = 4 ∨ x = 5 then 1 else 0) (by decide) (by decide) (by decide) 5 (by omega)
  obtain ⟨f, f', res', e1, e2, e3, e4⟩ := C77_translation 7 1 (by omega) (by omega)
    { Ex.base with rule := some (pureRule (nksCaRule 30)), input := .timesteps 5, memoize := true } 5 (by omega)
    (nksCaRule 30) (nks_homogeneous 30).1 ⟨rfl, rfl, rfl, rfl, rfl, rfl, rfl⟩ (fun _ => (nks_homogeneous 30).2) N hN 0 0
    ⟨[N], []⟩ ⟨[N], []⟩ rfl rfl (some (.list [1, 0, 0, 0, 1, 1, 0])) (some (.list [1, 1, 0, 1, 0, 0, 0]))
    (fun x => if x = 0 ∨ x = 4 ∨ x = 5 then 1 else 0) 3 (by decide) (by decide) (by decide) (by decide) 5 (by omega) res h1
  exact ⟨f, f', res, res', N, hN, h1, e1, e2, e3, e4⟩

end
end Verif
