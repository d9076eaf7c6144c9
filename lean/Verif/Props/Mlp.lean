import Verif.Proofs.Mlp
import Verif.Props.Growth
/-! # C107: the multilayer perceptron demo -/

namespace Verif
open Spec MG
section
variable {I σ κ : Type} [DecidableEq κ]

/-- The call of the demo: both rules, activities first, a number of timesteps. -/
structure MlpCall (cfg : Config Nat Rat Rat I σ κ) (ws : Nat → Option Weights) (activation : Nat → Option (Rat → Rat)) (T : Nat) : Prop where
  rule : cfg.PureRule (mlpRule activation)
  topology : cfg.topology = some (mlpTopology ws)
  order : cfg.order = .activitiesFirst
  perturbation : cfg.perturbation = none
  memoize : cfg.memoize = false
  copy : cfg.copyNetwork = true
  input : cfg.input = .timesteps T
  persistActs : cfg.persistActs = true
  persistNet : cfg.persistNet = true
  compression : cfg.compression = false
  labels : ∀ x, cfg.labelCodec.ExactAt x
  attrs : ∀ q, cfg.attrCodec.ExactAt q

/-- `ws` are dicts over the nodes `0 .. n-1`, and the matrix `W'` has their entries and those of `W` elsewhere. -/
def Overwrites (n : Nat) (ws : Weights) (W W' : Nat → Nat → Rat) : Prop :=
  WeightsOk n ws ∧ ∀ i j, i < n → j < n → W' i j = (lookupW ws i j).getD (W i j)

theorem rule_fullG {n t : Nat} {activation : Nat → Option (Rat → Rat)} {φ : Rat → Rat} (ha : activation t = some φ) {W : Nat → Nat → Rat} {f : Nat → Rat}
    {d : Dict Nat Rat} (hd : ∀ x, x < n → d.get? x = some (f x)) {x : Nat} (hx : x < n) (ctx : NodeCtx Nat Rat Rat I)
    (h1 : ctx.t = t) (h2 : ctx.activities = d)
    (h3 : ctx.neighbours = sources (fullG n (fun i j => [("weight", W i j)])).edges x)
    (h4 : ctx.connections = incomingOf (fullG n (fun i j => [("weight", W i j)])).edges x) :
    mlpRule activation ctx = .ok (φ (((List.range n).map (fun i => W i x * f i)).sum)) := by
  unfold mlpRule
  rw [h3, sources_fullG hx, mlpAdd_fold (w := fun i => W i x) (f := f)]
  · simp only [h1, ha, Rat.zero_add]
  · intro i hi
    rw [List.mem_range] at hi
    rw [h4, h2, get?_incomingOf, sources_fullG hx, if_pos (List.mem_range.2 hi), between_fullG hi hx]
    exact ⟨rfl, hd i hi⟩

/-- C107.  On the complete network with self-loops on `n` nodes, `evolve` with the two rules of the demo computes, layer by layer, a feed-forward
network: in state `t` the activities are the outputs of layer `t`, and every edge carries the weight used for the next layer: the weight given for
timestep `t` if there is one, otherwise the earlier one. -/
theorem C107_forward {cfg : Config Nat Rat Rat I σ κ} {ws : Nat → Option Weights} {activation : Nat → Option (Rat → Rat)} {T : Nat}
    (h : MlpCall cfg ws activation T) {n : Nat} (hn : 1 ≤ n) {ws0 : Weights} (hok0 : WeightsOk n ws0) {W : Nat → Nat → Nat → Rat}
    (hW0 : ∀ i j, i < n → j < n → lookupW ws0 i j = some (W 0 i j))
    (hW : ∀ t, t + 1 < T → ∃ wt, ws (t + 1) = some wt ∧ Overwrites n wt (W t) (W (t + 1)))
    {φ : Nat → Rat → Rat} (hφ : ∀ t, t + 1 < T → activation (t + 1) = some (φ (t + 1)))
    {N : Net Nat Rat} (hN : mlpNetwork n ws0 = (.ok (), N)) (hT : 1 ≤ T) {r : Nat} {w : World Nat Rat σ} (hr : w.heap[r]? = some N)
    {init : Option (Conds Nat Rat)} {x : Nat → Rat} (hlen : (initDict cfg init).length = n)
    (h0 : ∀ i, i < n → (initDict cfg init).get? i = some (x i)) {fuel : Nat} (hf : T ≤ fuel) :
    ∃ res, evolve fuel cfg init r w = .ok res ∧ res.states.length = T ∧ ∀ t, t < T → ∃ d N', res.acts cfg t = some d ∧ res.net cfg t = some N' ∧
      d.length = n ∧ (∀ j, j < n → d.get? j = some (feedForward n W φ x t j)) ∧
      ∀ i j, i < n → j < n → N'.edge i j = .ok [[("weight", W t i j)]] := by
  have hN' : N = ofMG (fullG n (fun i j => [("weight", W 0 i j)])) := by
    rw [mlpNetwork_eq hn hok0] at hN
    rw [← (Prod.mk.inj hN).2]
    congr 1
    apply fullG_congr
    intro i j hi hj
    rw [hW0 i j hi hj]
  subst hN'
  have hnodes : ∀ a, (fullG n a).nodes ≠ [] := by
    intro a
    have : (fullG n a).nodes.length = n := by simp [fullG]
    intro hc
    rw [hc] at this
    simp at this
    omega
  obtain ⟨res, ds, gs, e1, e2, _, _, e5⟩ := joint_run (g0 := fullG n (fun i j => [("weight", W 0 i j)])) (init := init) h.rule h.perturbation h.memoize h.order
    h.topology h.copy h.input h.persistActs h.persistNet h.compression
    (Inv := fun t d g _ => g = fullG n (fun i j => [("weight", W t i j)]) ∧ d.length = n ∧ ∀ j, j < n → d.get? j = some (feedForward n W φ x t j)) (by
    rintro t d g u ht ⟨rfl, i2, i3⟩
    obtain ⟨wt, hwt, hok, hov⟩ := hW t ht
    refine ⟨fun j => feedForward n W φ x (t + 1) j, ⟨ofMG (fullG n (fun i j => [("weight", W (t + 1) i j)])), .same⟩,
      fullG n (fun i j => [("weight", W (t + 1) i j)]), u, (valid_fullG n _).nodup, ?_, ?_, ?_, ?_, rfl, ?_, ?_⟩
    · intro past y hy
      refine nodeVal_ofMG (valid_fullG n _) rfl (f := feedForward n W φ x t) (fun z hz => ?_) (t + 1) past hy ?_
      · rw [labels_fullG, List.mem_range] at hz
        exact i3 z hz
      · intro ctx _ c2 c3 c4 _ c6 _ _ _
        rw [labels_fullG, List.mem_range] at hy
        exact rule_fullG (hφ t ht) i3 hy ctx c2 c3 c4 c6
    · exact copy_ofMG (valid_fullG n _) (fun y _ => h.labels y) (fun e _ kv _ => h.attrs kv.2) (fun p _ kv _ => h.attrs kv.2)
    · simp only [mlpTopology, hwt]
      have : ({ fullG n (fun i j => [("weight", W t i j)]) with rot := none } : MG Nat Rat) = fullG n (fun i j => [("weight", W t i j)]) := rfl
      rw [this, setWeights_fullG wt _ hok]
      simp only
      congr 4
      apply fullG_congr
      intro i j hi hj
      rw [hov i j hi hj]
      cases lookupW wt i j <;> rfl
    · have : (ofMG (fullG n (fun i j => [("weight", W (t + 1) i j)]))).nodes.isEmpty = false :=
        ofMG_nonempty (by rw [labels_fullG]; intro hc; have := congrArg List.length hc; simp at this; omega)
      simp only [TopOut.value, this, Bool.false_eq_true, if_false]
    · rw [labels_fullG, List.length_map, List.length_range]
    · intro j hj
      rw [labels_fullG]
      refine Dict.get?_of_mem ?_ (List.mem_map_of_mem (List.mem_range.2 hj))
      rw [Dict.keys, List.map_map]
      simpa [Function.comp_def] using List.nodup_range)
    (by
      rintro t d g u ⟨rfl, i2, _⟩
      refine ⟨hnodes _, ?_⟩
      intro hc
      rw [hc] at i2
      simp at i2
      omega) hT (by rw [hlen]; simp [Net.size, ofMG, fullG]) hr ⟨rfl, hlen, h0⟩ hf
  refine ⟨res, e1, e2, ?_⟩
  intro t ht
  obtain ⟨f1, f2, u, f3, f4, f5⟩ := e5 t ht
  refine ⟨_, _, f1, f2, f4, f5, ?_⟩
  intro i j hi hj
  rw [f3, edge_ofMG (valid_fullG n _), between_fullG hi hj]
  rfl

/-- Entry in row `i`, column `j` of a matrix given by its rows. -/
def ent (M : List (List Rat)) (i j : Nat) : Rat := ((M[i]?).bind (fun l => l[j]?)).getD 0

/-- The product of the rows of a matrix with `n` columns with a vector. -/
def matVec (n : Nat) (M : List (List Rat)) (v : Nat → Rat) (i : Nat) : Rat := ((List.range n).map (fun j => ent M i j * v j)).sum

/-- `timestep_to_weights` and `timestep_to_activation` of the demo. -/
def demoWeights (M2 M3 : List (List Rat)) (t : Nat) : Option Weights :=
  if t = 1 then some (readWeights M2) else if t = 2 then some (readWeights M3) else if t = 3 then some [] else none
def demoActivation (t : Nat) : Option (Rat → Rat) := if t = 1 ∨ t = 2 then some relu else if t = 3 then some id else none

theorem relu_eq (x : Rat) : relu x = posPart x := by
  unfold relu posPart
  by_cases h : x > 0
  · rw [if_pos h]; grind
  · rw [if_neg h]; grind

theorem ent_some {n : Nat} {M : List (List Rat)} (h : ∀ l ∈ M, l.length = n) {i j : Nat} (hi : i < M.length) (hj : j < n) :
    (M[i]?).bind (fun l => l[j]?) = some (ent M i j) := by
  unfold ent
  rw [List.getElem?_eq_getElem hi]
  have hl := h _ (List.getElem_mem hi)
  simp only [Option.bind_some]
  rw [List.getElem?_eq_getElem (by omega)]
  rfl

/-- C107.  `read_weights` transposes: the weight from node `i` to node `j` is the entry in row `j`, column `i`. -/
theorem C107_read {c : Nat} {rows : List (List Rat)} (hl : ∀ l ∈ rows, l.length = c) (i j : Nat) :
    ((readWeights rows).get? i).bind (fun d => d.get? j) = if i < c ∧ j < rows.length then some (ent rows j i) else none := by
  have := (readWeights_ok (n := c + rows.length) (c := c) (by omega) (by omega) hl).2 i j
  rw [lookupW] at this
  rw [this]
  split
  · next hh => exact ent_some hl hh.2 hh.1
  · rfl

/-- C107.  The demo: with the matrices `M1`, `M2` (`n` rows) and `M3` (`m ≤ n` rows), all with `n` columns, read from the files, and the image `x`, the
activity of node `j < m` in the last state is entry `j` of `M3 · relu(M2 · relu(M1 · x))`.  The other nodes hold the entries of
`M2 · relu(M2 · relu(M1 · x))`: the weights of their edges are not overwritten. -/
theorem C107_demo {M1 M2 M3 : List (List Rat)} {n m : Nat} (hn : 1 ≤ n) (hm : m ≤ n) (l1 : M1.length = n) (l2 : M2.length = n) (l3 : M3.length = m)
    (r1 : ∀ l ∈ M1, l.length = n) (r2 : ∀ l ∈ M2, l.length = n) (r3 : ∀ l ∈ M3, l.length = n)
    {cfg : Config Nat Rat Rat I σ κ} (h : MlpCall cfg (demoWeights M2 M3) demoActivation 4)
    {r : Nat} {w : World Nat Rat σ} (hr : w.heap[r]? = some (mlpNetwork n (readWeights M1)).2)
    {init : Option (Conds Nat Rat)} {x : Nat → Rat} (hlen : (initDict cfg init).length = n)
    (h0 : ∀ i, i < n → (initDict cfg init).get? i = some (x i)) {fuel : Nat} (hf : 4 ≤ fuel) :
    ∃ res d, evolve fuel cfg init r w = .ok res ∧ res.states.length = 4 ∧ res.acts cfg 3 = some d ∧
      (∀ j, j < m → d.get? j = some (matVec n M3 (fun i => posPart (matVec n M2 (fun k => posPart (matVec n M1 x k)) i)) j)) ∧
      (∀ j, m ≤ j → j < n → d.get? j = some (matVec n M2 (fun i => posPart (matVec n M2 (fun k => posPart (matVec n M1 x k)) i)) j)) := by
  obtain ⟨o1, k1⟩ := readWeights_ok (n := n) (Nat.le_refl n) (by omega) r1
  obtain ⟨o2, k2⟩ := readWeights_ok (n := n) (Nat.le_refl n) (by omega) r2
  obtain ⟨o3, k3⟩ := readWeights_ok (n := n) (Nat.le_refl n) (by omega) r3
  have hnet : mlpNetwork n (readWeights M1) = (.ok (), (mlpNetwork n (readWeights M1)).2) := by
    rw [mlpNetwork_eq hn o1]
  let W : Nat → Nat → Nat → Rat := fun t i j => if t = 0 then ent M1 j i else if t = 1 then ent M2 j i else if j < m then ent M3 j i else ent M2 j i
  obtain ⟨res, e1, e2, e3⟩ := C107_forward h hn o1 (W := W) (φ := fun t => if t = 3 then id else posPart)
    (by
      intro i j hi hj
      rw [k1, if_pos ⟨hi, by omega⟩, ent_some r1 (by omega) hi]
      rfl)
    (by
      intro t ht
      have : t = 0 ∨ t = 1 ∨ t = 2 := by omega
      rcases this with rfl | rfl | rfl
      · refine ⟨readWeights M2, rfl, o2, ?_⟩
        intro i j hi hj
        rw [k2, if_pos ⟨hi, by omega⟩, ent_some r2 (by omega) hi]
        rfl
      · refine ⟨readWeights M3, rfl, o3, ?_⟩
        intro i j hi hj
        rw [k3]
        by_cases hjm : j < m
        · rw [if_pos ⟨hi, by omega⟩, ent_some r3 (by omega) hi]
          simp [W, hjm]
        · rw [if_neg (by omega)]
          simp [W, hjm]
      · exact ⟨[], rfl, ⟨by simp [Dict.keys], by simp⟩, fun i j _ _ => rfl⟩)
    (by
      intro t ht
      have : t = 0 ∨ t = 1 ∨ t = 2 := by omega
      have hre : relu = posPart := funext relu_eq
      rcases this with rfl | rfl | rfl
      · simp [demoActivation, hre]
      · simp [demoActivation, hre]
      · simp [demoActivation])
    hnet (by omega) hr hlen h0 hf
  obtain ⟨d, N', g1, _, _, g4, _⟩ := e3 3 (by omega)
  refine ⟨res, d, e1, e2, g1, ?_, ?_⟩
  · intro j hj
    rw [g4 j (by omega)]
    simp [feedForward, matVec, W, hj]
  · intro j hj hjn
    rw [g4 j hjn]
    simp [feedForward, matVec, W, show ¬ j < m from by omega]

/-- C107.  Weights for an edge that does not exist make the call raise at the end of the first timestep. -/
theorem C107_no_edge {cfg : Config Nat Rat Rat I σ κ} {ws : Nat → Option Weights} {activation : Nat → Option (Rat → Rat)} {T : Nat}
    (h : MlpCall cfg ws activation T) {n : Nat} (hn : 1 ≤ n) {ws0 : Weights} (hok0 : WeightsOk n ws0) {W : Nat → Nat → Rat}
    (hW0 : ∀ i j, i < n → j < n → lookupW ws0 i j = some (W i j)) {φ : Rat → Rat} (hφ : activation 1 = some φ)
    {w1 : Weights} (h1 : ws 1 = some w1) (hbad : ∃ p ∈ w1, ∃ q ∈ p.2, ¬ (p.1 < n ∧ q.1 < n))
    {N : Net Nat Rat} (hN : mlpNetwork n ws0 = (.ok (), N)) (hT : 2 ≤ T) {r : Nat} {w : World Nat Rat σ} (hr : w.heap[r]? = some N)
    {init : Option (Conds Nat Rat)} {x : Nat → Rat} (hlen : (initDict cfg init).length = n)
    (h0 : ∀ i, i < n → (initDict cfg init).get? i = some (x i)) {fuel : Nat} (hf : 1 ≤ fuel) :
    evolve fuel cfg init r w = .error (.exception "edge does not exist") := by
  have hN' : N = ofMG (fullG n (fun i j => [("weight", W i j)])) := by
    rw [mlpNetwork_eq hn hok0] at hN
    rw [← (Prod.mk.inj hN).2]
    congr 1
    apply fullG_congr
    intro i j hi hj
    rw [hW0 i j hi hj]
  subst hN'
  obtain ⟨N', hfail⟩ := setWeights_fail w1 (fun i j => [("weight", W i j)]) hbad
  refine joint_fail (g0 := fullG n (fun i j => [("weight", W i j)])) h.rule h.perturbation h.memoize h.order h.topology h.copy h.input h.compression
    (F := fun j => φ (((List.range n).map (fun i => W i j * x i)).sum)) (by rw [hlen]; simp [Net.size, ofMG, fullG]) (valid_fullG n _).nodup ?_
    (copy_ofMG (valid_fullG n _) (fun y _ => h.labels y) (fun e _ kv _ => h.attrs kv.2) (fun p _ kv _ => h.attrs kv.2)) ?_ hT hr hf
  · intro past y hy
    refine nodeVal_ofMG (valid_fullG n _) rfl (f := x) (fun z hz => ?_) 1 past hy ?_
    · rw [labels_fullG, List.mem_range] at hz
      exact h0 z hz
    · intro ctx _ c2 c3 c4 _ c6 _ _ _
      rw [labels_fullG, List.mem_range] at hy
      exact rule_fullG hφ h0 hy ctx c2 c3 c4 c6
  · simp only [mlpTopology, h1]
    have : ({ fullG n (fun i j => [("weight", W i j)]) with rot := none } : MG Nat Rat) = fullG n (fun i j => [("weight", W i j)]) := rfl
    rw [this, hfail]

end

namespace Ex

/-- The call of the perceptron demo. -/
def mlpCall (ws : Nat → Option Weights) (act : Nat → Option (Rat → Rat)) (T : Nat) : Config Nat Rat Rat Int Unit Unit :=
  { rule := some (pureRule (mlpRule act)), input := .timesteps T, topology := some (mlpTopology ws), perturbation := none, past := [],
    order := .activitiesFirst, copyNetwork := true,
    compression := false, persistActs := true, persistNet := true, memoize := false, key := none, natLabel := id,
    labelIdx := fun x => some (x : Int), actAttr := id, labelCodec := ⟨fun _ => .ok (), id⟩, attrCodec := ⟨fun _ => .ok (), id⟩,
    valCodec := ⟨fun _ => .ok (), id⟩ }

theorem mlpCall_ok (ws act T) : MlpCall (mlpCall ws act T) ws act T :=
  ⟨rfl, rfl, rfl, rfl, rfl, rfl, rfl, rfl, rfl, rfl, fun _ => ⟨rfl, rfl⟩, fun _ => ⟨rfl, rfl⟩⟩

/-- Two inputs, two hidden layers, one output. -/
example : ∃ res d, evolve 4 (mlpCall (demoWeights [[1, -1], [2, 0]] [[3, 1]]) demoActivation 4) (some (.list [2, 5])) 0
      ⟨[(mlpNetwork 2 (readWeights [[1, 2], [-1, 1]])).2], ()⟩ = .ok res ∧
    res.acts (mlpCall (demoWeights [[1, -1], [2, 0]] [[3, 1]]) demoActivation 4) 3 = some d ∧ d.get? 0 = some 51 ∧ d.get? 1 = some 18 := by
  obtain ⟨res, d, e1, _, e3, e4, e5⟩ := C107_demo (M1 := [[1, 2], [-1, 1]]) (M2 := [[1, -1], [2, 0]]) (M3 := [[3, 1]]) (n := 2) (m := 1)
    (by omega) (by omega) rfl rfl rfl (by decide) (by decide) (by decide) (mlpCall_ok _ _ _) (r := 0)
    (w := ⟨[(mlpNetwork 2 (readWeights [[1, 2], [-1, 1]])).2], ()⟩) rfl (init := some (.list [2, 5])) (x := fun i => [2, 5].getD i 0) rfl (by
      intro i hi
      match i, hi with
      | 0, _ => rfl
      | 1, _ => rfl) (fuel := 4) (by omega)
  refine ⟨res, d, e1, e3, ?_, ?_⟩
  · rw [e4 0 (by omega)]
    decide +kernel
  · rw [e5 1 (by omega) (by omega)]
    decide +kernel

/-- A third node in the weights of a network with two nodes. -/
example : evolve 4 (mlpCall (demoWeights [[1, -1, 1], [2, 0, 1]] [[3, 1]]) demoActivation 4) (some (.list [2, 5])) 0
    ⟨[(mlpNetwork 2 (readWeights [[1, 2], [-1, 1]])).2], ()⟩ = .error (.exception "edge does not exist") := by
  obtain ⟨o1, k1⟩ := readWeights_ok (n := 2) (c := 2) (rows := [[1, 2], [-1, 1]]) (by omega) (by decide) (by decide)
  have hnet : mlpNetwork 2 (readWeights [[1, 2], [-1, 1]]) = (.ok (), (mlpNetwork 2 (readWeights [[1, 2], [-1, 1]])).2) := by
    rw [mlpNetwork_eq (by omega) o1]
  refine C107_no_edge (mlpCall_ok _ _ _) (n := 2) (by omega) o1 (W := fun i j => ent [[1, 2], [-1, 1]] j i) ?_ (φ := relu) rfl
    (w1 := readWeights [[1, -1, 1], [2, 0, 1]]) (if_pos rfl) ?_ hnet (by omega) (r := 0) rfl (x := fun i => [2, 5].getD i 0) rfl ?_ (by omega)
  · intro i j hi hj
    rw [k1, if_pos ⟨hi, hj⟩, ent_some (n := 2) (by decide) hj hi]
  · exact ⟨(2, [(0, 1), (1, 1)]), by decide, (0, 1), by decide, by omega⟩
  · intro i hi
    match i, hi with
    | 0, _ => rfl
    | 1, _ => rfl

example : ((readWeights [[1, -1, 1], [2, 0, 3]]).get? 2).bind (fun d => d.get? 1) = some 3 := by
  rw [C107_read (c := 3) (by decide)]
  decide

end Ex
end Verif
