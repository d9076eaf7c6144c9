import Verif.Proofs.Flock
import Verif.Proofs.Growth
/-! # C110: the flocking demo -/

namespace Verif
open Spec MG
section
variable {A I σ κ : Type} [DecidableEq κ]

/-- The call of the demo: both rules, topology first. -/
structure FlockCall (cfg : Config Nat A Boid I σ κ) (p : FlockParams) (root : Rat → Rat) (T : Nat) : Prop where
  rule : cfg.PureRule (flockRule p root)
  topology : cfg.topology = some (flockTopology p cfg.labelCodec cfg.attrCodec)
  order : cfg.order = .topologyFirst
  perturbation : cfg.perturbation = none
  memoize : cfg.memoize = false
  copy : cfg.copyNetwork = true
  input : cfg.input = .timesteps T
  persistActs : cfg.persistActs = true
  persistNet : cfg.persistNet = true
  compression : cfg.compression = false
  labels : ∀ x, cfg.labelCodec.ExactAt x

/-- C110.  `evolve` with the rules of the demo makes the flock in which boid `j` sees the boids `i < j` within visual range.  In state `t` there are as
many parallel edges from `i` to `j > i` as timesteps since the two came within visual range, and no other edges. -/
theorem C110_run {cfg : Config Nat A Boid I σ κ} {p : FlockParams} {root : Rat → Rat} {T : Nat} (h : FlockCall cfg p root T) (hT : 1 ≤ T)
    (hpr : 0 < p.protectedRange) (hvr : 0 < p.visualRange) (hlh : p.minSpeed ≤ p.maxSpeed) {n : Nat} (hn : 1 ≤ n) {start : Nat → Boid}
    (hsp : ∀ t, t + 1 < T → ∀ j, j < n → wishSpeed p root (flock p root start t j) (seen p (flock p root start t) j) ≠ 0)
    {r : Nat} {w : World Nat A σ} (hr : w.heap[r]? = some (Net.ofSize n)) {fuel : Nat} (hf : T ≤ fuel) :
    ∃ res, evolve fuel cfg (some (.dict ((List.range n).map (fun j => (j, start j))))) r w = .ok res ∧ res.states.length = T ∧
      ∀ t, t < T → res.acts cfg t = some ((List.range n).map (fun j => (j, flock p root start t j))) ∧
        ∃ N, res.net cfg t = some N ∧ N.labels = List.range n ∧
          (∀ i j, i < j → j < n → 0 < streak p (flock p root start) i j t →
            N.edge i j = .ok (List.replicate (streak p (flock p root start) i j t) [])) ∧
          (∀ i j, N.hasEdge i j = true ↔ i < j ∧ j < n ∧ 0 < streak p (flock p root start) i j t) := by
  let f := flock p root start
  let g0 : MG Nat A := ⟨(List.range n).map (fun i => (i, [])), [], none⟩
  have hg0 : Net.ofSize n = ofMG g0 := by
    rw [ofSize_link]
    rfl
  have hget : ∀ t i, i < n → Dict.get? ((List.range n).map (fun j => (j, f t j))) i = some (f t i) := by
    intro t i hi
    have := Dict.get?_ofKeys (List.range n) (f t) i
    rw [if_pos (List.mem_range.2 hi)] at this
    exact this
  have hnet0 : FlockNet n g0 := by
    refine ⟨⟨?_, by simp [g0]⟩, ?_, ?_, rfl, by simp [g0]⟩
    · simp only [g0, MG.labels, List.map_map]
      exact List.pairwise_map.2 (List.nodup_range.imp (fun h => h))
    · simp only [g0, MG.labels, List.map_map]
      exact List.map_id'' (fun _ => rfl) _
    · intro q hq
      simp only [g0, List.mem_map] at hq
      obtain ⟨i, _, rfl⟩ := hq
      rfl
  obtain ⟨res, ds, gs, e1, e2, e3⟩ := top_first_run (G := flockRule p root) (R := flockTopology p cfg.labelCodec cfg.attrCodec) (T := T)
    h.rule h.perturbation h.memoize h.order h.topology h.copy h.input h.persistActs h.persistNet h.compression
    (Inv := fun t d g _ => d = (List.range n).map (fun j => (j, f t j)) ∧ FlockNet n g ∧
      ∀ i j, between g.edges i j = if i < j ∧ j < n then List.replicate (streak p f i j t) [] else []) (by
      rintro t d g u ht ⟨rfl, hg, hb⟩
      have hcopy : (ofMG g).copy cfg.labelCodec cfg.attrCodec = .ok (ofMG { g with rot := none }) :=
        copy_ofMG hg.valid (fun x _ => h.labels x) (fun e he kv hkv => by rw [hg.bare e he] at hkv; cases hkv)
          (fun q hq kv hkv => by rw [hg.plain q hq] at hkv; cases hkv)
      have hgr : ({ g with rot := none } : MG Nat A) = g := by
        have := hg.rot
        cases g
        simp only at this
        subst this
        rfl
      have hsize : (ofMG g).size = n := by
        have : (ofMG g).size = g.labels.length := by simp [Net.size, ofMG, MG.labels]
        rw [this, hg.labels, List.length_range]
      obtain ⟨g', k1, k2, k3⟩ := flockLink_fold hvr (n := n) (f := f t) (hget t) (flockPairs n) hg (nodup_flockPairs n) (by
        rintro ⟨i, j⟩ hq
        have := mem_flockPairs.1 hq
        exact ⟨by simp only; omega, this.2⟩)
      have hbt : ∀ i j, between g'.edges i j = if i < j ∧ j < n then List.replicate (streak p f i j (t + 1)) [] else [] := by
        intro i j
        rw [k3, hb]
        by_cases hij : i < j ∧ j < n
        · rw [if_pos (mem_flockPairs.2 hij), if_pos hij, if_pos hij]
          simp only [streak]
          split
          · rw [List.replicate_succ']
          · rfl
        · rw [if_neg (fun hh => hij (mem_flockPairs.1 hh)), if_neg hij, if_neg hij]
      have hperm : ∀ j, j < n → (sources g'.edges j).Perm ((List.range j).filter (fun i => BoidsNear (f t i) (f t j) p.visualRange)) := by
        intro j hj
        refine (List.perm_ext_iff_of_nodup (nodup_sources _ _) (List.nodup_range.filter _)).2 ?_
        intro i
        have : i ∈ sources g'.edges j ↔ ¬ between g'.edges i j = [] := by
          rw [between_eq_nil_iff]
          exact Decidable.not_not.symm
        rw [this, hbt, List.mem_filter, List.mem_range]
        by_cases hij : i < j
        · rw [if_pos ⟨hij, hj⟩]
          simp only [streak, hij, true_and]
          split <;> rename_i hc <;> simp [hc]
        · rw [if_neg (fun hh => hij hh.1)]
          simp [hij]
      refine ⟨f (t + 1), ⟨ofMG g, .fresh (ofMG g')⟩, g', u, k2.valid.nodup, hcopy, ?_, ?_, ?_, ?_⟩
      · unfold flockTopology
        have hc2 := hcopy
        rw [hgr] at hc2
        simp only [hgr, hc2, hsize]
        exact congrArg (fun z => match z with
          | .error e => Except.error e
          | .ok new' => Except.ok (TopOut.mk (ofMG g) (.fresh new'), u)) k1
      · have hnon : (ofMG g').nodes.isEmpty = false := by
          refine ofMG_nonempty ?_
          rw [k2.labels]
          intro he
          have := congrArg List.length he
          simp at this
          omega
        simp [TopOut.value, hnon]
      · intro past x hx
        have hxn : x < n := by rw [k2.labels] at hx; exact List.mem_range.1 hx
        refine nodeVal_ofMG k2.valid k2.rot (f := f t) (by
          intro y hy
          rw [k2.labels] at hy
          exact hget t y (List.mem_range.1 hy)) (t + 1) past hx ?_
        intro ctx _ _ _ _ c5 _ c7 _ _
        have hp' : ctx.neighbourActs.Perm (seen p (f t) x) := by
          rw [c5]
          exact (hperm x hxn).map _
        rw [flockRule_ok hpr hlh hp' (by rw [c7]; exact hsp t ht x hxn), c7]
        rfl
      · refine ⟨?_, k2, hbt⟩
        rw [k2.labels])
    (by
      rintro t d g u ⟨rfl, hg, _⟩
      refine ⟨?_, ?_⟩
      · intro he
        have := congrArg List.length hg.labels
        simp [MG.labels, he] at this
        omega
      · intro he
        have := congrArg List.length he
        simp at this
        omega)
    hT (init := some (.dict ((List.range n).map (fun j => (j, start j))))) (r := r) (w := w) (g0 := g0) (by
      simp [initDict, Conds.toDict, Net.size, ofMG, g0]) (by rw [hr, hg0]) ⟨rfl, hnet0, by
      intro i j
      simp [g0, between, streak]⟩ hf
  refine ⟨res, e1, e2, ?_⟩
  intro t ht
  obtain ⟨a1, a2, u, a3, a4, a5⟩ := e3 t ht
  refine ⟨by rw [a1, a3], ofMG (gs t), a2, by rw [labels_ofMG, a4.labels], ?_, ?_⟩
  · intro i j hij hj hpos
    have hbe : between (gs t).edges i j = List.replicate (streak p f i j t) [] := by rw [a5, if_pos ⟨hij, hj⟩]
    rw [edge_ofMG a4.valid, hbe, if_neg]
    intro he
    have := congrArg List.length he
    simp only [List.length_replicate, List.length_nil] at this
    have hpos' : 0 < streak p f i j t := hpos
    omega
  · intro i j
    have : i ∈ sources (gs t).edges j ↔ ¬ between (gs t).edges i j = [] := by
      rw [between_eq_nil_iff]
      exact Decidable.not_not.symm
    rw [hasEdge_ofMG a4.valid, decide_eq_true_eq, this, a5]
    show _ ↔ i < j ∧ j < n ∧ 0 < streak p f i j t
    by_cases hij : i < j ∧ j < n
    · rw [if_pos hij]
      cases hs : streak p f i j t with
      | zero => simp
      | succ k => simp [List.replicate_succ, hij]
    · rw [if_neg hij]
      simp only [not_true, false_iff]
      exact fun hh => hij ⟨hh.1, hh.2.1⟩

end

/-- C110, speed: with an exact root of a nonzero square, the new speed is between the limits. -/
theorem C110_speed {p : FlockParams} {root : Rat → Rat} (h0 : 0 ≤ p.minSpeed) (hlh : p.minSpeed ≤ p.maxSpeed) (a : Boid) (nbs : List Boid)
    (hroot : 0 < wishSpeed p root a nbs ∧ wishSpeed p root a nbs ^ 2 = (wish p a nbs).1 ^ 2 + (wish p a nbs).2 ^ 2) :
    p.minSpeed ^ 2 ≤ (boidStep p root a nbs).vx ^ 2 + (boidStep p root a nbs).vy ^ 2 ∧
      (boidStep p root a nbs).vx ^ 2 + (boidStep p root a nbs).vy ^ 2 ≤ p.maxSpeed ^ 2 := by
  obtain ⟨h1, h2⟩ := hroot
  unfold boidStep
  simp only
  generalize wishSpeed p root a nbs = s at h1 h2 ⊢
  generalize wish p a nbs = v at h2 ⊢
  obtain ⟨vx, vy⟩ := v
  simp only at h2 ⊢
  have hk : ∀ k : Rat, (k * vx) ^ 2 + (k * vy) ^ 2 = (k * s) ^ 2 := by
    intro k
    have : (k * s) ^ 2 = k ^ 2 * s ^ 2 := by grind
    rw [this, h2]
    grind
  rw [hk]
  have hsq : ∀ a b : Rat, 0 ≤ a → a ≤ b → a ^ 2 ≤ b ^ 2 := by
    intro a b ha hab
    have h := Rat.mul_nonneg (a := b - a) (b := b + a) (by grind) (by grind)
    grind
  unfold limitFactor
  split
  · rename_i hs
    have : p.minSpeed / s * s = p.minSpeed := Rat.div_mul_cancel (by grind)
    rw [this]
    exact ⟨Rat.le_refl, hsq _ _ h0 hlh⟩
  · split
    · rename_i hs hs'
      have : p.maxSpeed / s * s = p.maxSpeed := Rat.div_mul_cancel (by grind)
      rw [this]
      exact ⟨hsq _ _ h0 hlh, Rat.le_refl⟩
    · rename_i hs hs'
      rw [Rat.one_mul]
      exact ⟨hsq _ _ h0 (by grind), hsq _ _ (by grind) (by grind)⟩

/-- C110, one direction: boid `j` never depends on a boid with a greater number. -/
theorem C110_upwards {p : FlockParams} {root : Rat → Rat} {start start' : Nat → Boid} {m : Nat} (h : ∀ i, i ≤ m → start i = start' i) :
    ∀ t i, i ≤ m → flock p root start t i = flock p root start' t i := by
  intro t
  induction t with
  | zero => exact h
  | succ t ih =>
    intro j hj
    have hs : seen p (flock p root start t) j = seen p (flock p root start' t) j := by
      unfold seen
      have hf : (List.range j).filter (fun i => BoidsNear (flock p root start t i) (flock p root start t j) p.visualRange) =
          (List.range j).filter (fun i => BoidsNear (flock p root start' t i) (flock p root start' t j) p.visualRange) := by
        apply List.filter_congr
        intro i hi
        rw [ih i (by have := List.mem_range.1 hi; omega), ih j hj]
      rw [hf]
      apply List.map_congr_left
      intro i hi
      have := List.mem_range.1 (List.mem_filter.1 hi).1
      exact ih i (by omega)
    show boidStep p root (flock p root start t j) _ = boidStep p root (flock p root start' t j) _
    rw [hs, ih j hj]

/-- C110, the first boid sees nobody. -/
theorem C110_first (p : FlockParams) (f : Nat → Boid) : seen p f 0 = [] := rfl

/-- C110, the frames: positions and velocities of the boids in the order of their numbers. -/
theorem C110_frames (p : FlockParams) (root : Rat → Rat) (start : Nat → Boid) (n T : Nat) :
    flockFrames ((List.range T).map (fun t => (List.range n).map (fun j => (j, flock p root start t j)))) =
      ((List.range T).map (fun t => (List.range n).map (fun j => ((flock p root start t j).x, (flock p root start t j).y))),
       (List.range T).map (fun t => (List.range n).map (fun j => ((flock p root start t j).vx, (flock p root start t j).vy)))) := by
  simp [flockFrames, Function.comp_def]

namespace Ex

/-- The call of the demo. -/
def flockCall (p : FlockParams) (root : Rat → Rat) (T : Nat) : Config Nat Int Boid Int Unit Unit :=
  { rule := some (pureRule (flockRule p root)), input := .timesteps T,
    topology := some (flockTopology p ⟨fun _ => .ok (), id⟩ ⟨fun _ => .ok (), id⟩), perturbation := none, past := [],
    order := .topologyFirst, copyNetwork := true,
    compression := false, persistActs := true, persistNet := true, memoize := false, key := none, natLabel := id,
    labelIdx := fun x => some (x : Int), actAttr := fun _ => 0, labelCodec := ⟨fun _ => .ok (), id⟩, attrCodec := ⟨fun _ => .ok (), id⟩,
    valCodec := ⟨fun _ => .ok (), id⟩ }

theorem flockCall_ok (p root T) : FlockCall (flockCall p root T) p root T :=
  ⟨rfl, rfl, rfl, rfl, rfl, rfl, rfl, rfl, rfl, rfl, fun _ => ⟨rfl, rfl⟩⟩

/-- Exact roots of two squares. -/
def root45 (q : Rat) : Rat := if q = 25 then 5 else if q = 16 then 4 else 1

/-- The demo's parameters without the attraction to the centre. -/
def flockP : FlockParams := { FlockParams.demo with centering := 0 }

/-- Two boids flying side by side. -/
def flockStart (j : Nat) : Boid := if j = 0 then ⟨100, 100, 3, 4⟩ else ⟨130, 140, 3, 4⟩

end Ex
open Ex

/-- C110: two boids that stay within visual range.  There are two edges from 0 to 1 in state 2, and none from 1 to 0: "within visual range of each other"
(`flocking_demo.py:146`) is not what the network says. -/
theorem C110_one_way : ∃ res N, evolve 3 (flockCall flockP root45 3) (some (.dict ((List.range 2).map (fun j => (j, flockStart j))))) 0 ⟨[Net.ofSize 2], ()⟩ = .ok res ∧
    res.net (flockCall flockP root45 3) 2 = some N ∧ N.edge 0 1 = .ok [[], []] ∧ N.hasEdge 1 0 = false ∧
    ∀ t, t < 3 → BoidsNear (flock flockP root45 flockStart t 0) (flock flockP root45 flockStart t 1) flockP.visualRange = true := by
  obtain ⟨res, e1, _, e3⟩ := C110_run (flockCall_ok flockP root45 3) (by omega) (by decide +kernel) (by decide +kernel) (by decide +kernel) (n := 2) (by omega)
    (start := flockStart) (by
      intro t _ j _
      unfold wishSpeed root45
      split
      · decide +kernel
      · split <;> decide +kernel) (r := 0) (w := ⟨[Net.ofSize 2], ()⟩) rfl (fuel := 3) (by omega)
  obtain ⟨_, N, n1, _, n3, n4⟩ := e3 2 (by omega)
  have hs : streak flockP (flock flockP root45 flockStart) 0 1 2 = 2 := by decide +kernel
  refine ⟨res, N, e1, n1, ?_, ?_, ?_⟩
  · have := n3 0 1 (by omega) (by omega) (by rw [hs]; omega)
    rw [hs] at this
    exact this
  · cases hh : N.hasEdge 1 0 with
    | false => rfl
    | true => exact absurd ((n4 1 0).1 hh).1 (by omega)
  · intro t ht
    match t, ht with
    | 0, _ => decide +kernel
    | 1, _ => decide +kernel
    | 2, _ => decide +kernel

namespace Ex

/-- A boid that is too fast is slowed down to speed 4. -/
example : boidStep FlockParams.demo root45 ⟨100, 100, 3, 4⟩ [] = ⟨100 + 12 / 5, 100 + 16 / 5, 12 / 5, 16 / 5⟩ := by decide +kernel

example : (boidStep FlockParams.demo root45 ⟨100, 100, 3, 4⟩ []).vx ^ 2 + (boidStep FlockParams.demo root45 ⟨100, 100, 3, 4⟩ []).vy ^ 2 ≤ 4 ^ 2 :=
  (C110_speed (p := FlockParams.demo) (root := root45) (by decide +kernel) (by decide +kernel) ⟨100, 100, 3, 4⟩ [] (by decide +kernel)).2

end Ex
end Verif
