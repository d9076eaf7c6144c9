import Verif.Spec.Flock
import Verif.Proofs.TopFirstRun
import Verif.Proofs.Restricted
import Verif.Proofs.Requests
import Verif.Proofs.Families
import Verif.Props.Continuous
/-! # Lemmas for the flocking demo -/

namespace Verif
open Spec MG

theorem nearer_eq {r : Rat} (hr : 0 < r) (a b : Boid) : a.nearer b r = BoidsNear a b r := by
  unfold Boid.nearer BoidsNear
  rw [decide_eq_decide]
  constructor
  · rintro ⟨_, h⟩; grind
  · intro h; exact ⟨hr, by grind⟩

theorem boidsNear_comm (a b : Boid) (r : Rat) : BoidsNear a b r = BoidsNear b a r := by
  unfold BoidsNear
  rw [decide_eq_decide]
  constructor <;> intro h <;> grind

/-! ## The rule -/

theorem flockAdd_fold {p : FlockParams} (hp : 0 < p.protectedRange) (a : Boid) : ∀ (l : List Boid) (s : FlockSums),
    l.foldl (flockAdd p a) s =
      ⟨s.xAvg + ((l.filter (fun b => !BoidsNear a b p.protectedRange)).map Boid.x).sum, s.yAvg + ((l.filter (fun b => !BoidsNear a b p.protectedRange)).map Boid.y).sum,
       s.vxAvg + ((l.filter (fun b => !BoidsNear a b p.protectedRange)).map Boid.vx).sum, s.vyAvg + ((l.filter (fun b => !BoidsNear a b p.protectedRange)).map Boid.vy).sum,
       s.closeDx + ((l.filter (fun b => BoidsNear a b p.protectedRange)).map (fun b => a.x - b.x)).sum,
       s.closeDy + ((l.filter (fun b => BoidsNear a b p.protectedRange)).map (fun b => a.y - b.y)).sum,
       s.visual + (l.filter (fun b => !BoidsNear a b p.protectedRange)).length⟩ := by
  intro l
  induction l with
  | nil => intro s; simp [Rat.add_zero]
  | cons b l ih =>
    intro s
    rw [List.foldl_cons, ih]
    unfold flockAdd
    rw [nearer_eq hp]
    cases hb : BoidsNear a b p.protectedRange with
    | true => simp [hb, Rat.add_assoc]
    | false => simp [hb, Rat.add_assoc]; omega

theorem flockVelocity_eq {p : FlockParams} (hp : 0 < p.protectedRange) (a : Boid) (l : List Boid) :
    flockVelocity p a (l.foldl (flockAdd p a) ⟨0, 0, 0, 0, 0, 0, 0⟩) = wish p a l := by
  rw [flockAdd_fold hp]
  unfold flockVelocity wish cohesion turning
  simp only [Rat.zero_add, Nat.zero_add, List.length_map]
  generalize l.filter (fun b => BoidsNear a b p.protectedRange) = near
  generalize l.filter (fun b => !BoidsNear a b p.protectedRange) = far
  cases far with
  | nil =>
    simp only [List.length_nil, Nat.lt_irrefl, gt_iff_lt, if_false, List.map_nil, if_true]
    refine Prod.ext ?_ ?_
    · simp only
      split <;> split <;> grind
    · simp only
      split <;> split <;> grind
  | cons b far =>
    simp only [List.length_cons, gt_iff_lt, Nat.zero_lt_succ, if_true, List.map_cons, reduceCtorEq, if_false]
    refine Prod.ext ?_ ?_
    · simp only
      split <;> split <;> grind
    · simp only
      split <;> split <;> grind

theorem wish_perm {p : FlockParams} (a : Boid) {l l' : List Boid} (h : l.Perm l') : wish p a l = wish p a l' := by
  unfold wish cohesion
  have h1 := h.filter (fun b => BoidsNear a b p.protectedRange)
  have h2 := h.filter (fun b => !BoidsNear a b p.protectedRange)
  generalize l.filter (fun b => BoidsNear a b p.protectedRange) = n1 at h1 ⊢
  generalize l'.filter (fun b => BoidsNear a b p.protectedRange) = n2 at h1 ⊢
  generalize l.filter (fun b => !BoidsNear a b p.protectedRange) = f1 at h2 ⊢
  generalize l'.filter (fun b => !BoidsNear a b p.protectedRange) = f2 at h2 ⊢
  have hl := h2.length_eq
  have he : ∀ F : Boid → Rat, (f1.map F = []) = (f2.map F = []) := by
    intro F
    rw [← List.length_eq_zero_iff, ← List.length_eq_zero_iff, List.length_map, List.length_map, hl]
  simp only [he, rat_sum_perm (h2.map Boid.x), rat_sum_perm (h2.map Boid.y), rat_sum_perm (h2.map Boid.vx), rat_sum_perm (h2.map Boid.vy),
    rat_sum_perm (h1.map _), List.length_map, hl]

theorem flockRule_ok {A I : Type} {p : FlockParams} {root : Rat → Rat} (hp : 0 < p.protectedRange) (hlh : p.minSpeed ≤ p.maxSpeed)
    {ctx : NodeCtx Nat A Boid I} {nbs : List Boid} (hn : ctx.neighbourActs.Perm nbs) (hs : wishSpeed p root ctx.current nbs ≠ 0) :
    flockRule p root ctx = .ok (boidStep p root ctx.current nbs) := by
  unfold flockRule boidStep
  simp only [flockVelocity_eq hp, wish_perm ctx.current hn]
  unfold wishSpeed at hs ⊢
  generalize wish p ctx.current nbs = v at hs ⊢
  obtain ⟨vx, vy⟩ := v
  simp only at hs ⊢
  generalize root (vx * vx + vy * vy) = s at hs ⊢
  rw [if_neg (fun h => hs h.1)]
  unfold limitFactor
  by_cases h1 : s < p.minSpeed
  · have h2 : ¬ p.maxSpeed < s := by grind
    simp only [h1, h2, if_true, if_false, gt_iff_lt]
    have e : ∀ v : Rat, v / s * p.minSpeed = p.minSpeed / s * v := by intro v; grind
    rw [e, e]
  · by_cases h2 : p.maxSpeed < s
    · simp only [h1, h2, if_true, if_false, gt_iff_lt]
      have e : ∀ v : Rat, v / s * p.maxSpeed = p.maxSpeed / s * v := by intro v; grind
      rw [e, e]
    · simp only [h1, h2, if_false, gt_iff_lt, Rat.one_mul]

/-! ## The topology rule -/

theorem mem_flockPairs {n i j : Nat} : (i, j) ∈ flockPairs n ↔ i < j ∧ j < n := by
  unfold flockPairs
  simp only [List.mem_flatMap, List.mem_map, List.mem_range, List.mem_range'_1, Prod.mk.injEq]
  constructor
  · rintro ⟨a, ha, b, hb, rfl, rfl⟩; omega
  · intro h; exact ⟨i, by omega, j, by omega, rfl, rfl⟩

theorem nodup_flockPairs (n : Nat) : (flockPairs n).Nodup := by
  unfold flockPairs
  apply nodup_flatMap_key (List.range n) _ id Prod.fst
  · simpa using List.nodup_range
  · intro u _
    refine List.pairwise_map.2 ((List.nodup_range' (s := u + 1) (n := n - (u + 1))).imp ?_)
    intro a b hab h; exact hab (Prod.mk.inj h).2
  · intro u _ b hb
    simp only [List.mem_map] at hb
    obtain ⟨v, _, rfl⟩ := hb; rfl

/-- What the invariant says about the network: the edges from smaller to greater numbers, all without attributes. -/
structure FlockNet {A : Type} (n : Nat) (g : MG Nat A) : Prop where
  valid : g.Valid
  labels : g.labels = List.range n
  plain : ∀ q ∈ g.nodes, q.2 = []
  rot : g.rot = none
  bare : ∀ e ∈ g.edges, e.attr = []

theorem labels_addEdge_mem {A : Type} {g : MG Nat A} {i j : Nat} {at' : Attr A} (hi : i ∈ g.labels) (hj : j ∈ g.labels) :
    (addEdge g i j at').nodes = g.nodes := by
  have h1 : ensure g i = g := if_pos hi
  have h2 : ensure g j = g := if_pos hj
  simp only [addEdge, h1, h2]

theorem flockLink_ok {A : Type} {p : FlockParams} (hp : 0 < p.visualRange) {n : Nat} {acts : Dict Nat Boid} {f : Nat → Boid}
    (hd : ∀ i, i < n → acts.get? i = some (f i)) {g : MG Nat A} (hg : FlockNet n g) {i j : Nat} (hi : i < n) (hj : j < n) :
    ∃ g', flockLink p acts (ofMG g) (i, j) = .ok (ofMG g') ∧ FlockNet n g' ∧
      ∀ a b, between g'.edges a b = if (i, j) = (a, b) then (if BoidsNear (f i) (f j) p.visualRange then between g.edges a b ++ [[]] else [])
        else between g.edges a b := by
  have him : i ∈ g.labels := by rw [hg.labels]; exact List.mem_range.2 hi
  have hjm : j ∈ g.labels := by rw [hg.labels]; exact List.mem_range.2 hj
  unfold flockLink
  simp only [Dict.get, hd i hi, hd j hj, nearer_eq hp]
  cases hc : BoidsNear (f i) (f j) p.visualRange with
  | true =>
    simp only [if_true, addEdge_ofMG hg.valid]
    have hn := labels_addEdge_mem (at' := ([] : Attr A)) him hjm
    refine ⟨addEdge g i j [], rfl, ⟨valid_addEdge hg.valid _ _ _, ?_, ?_, ?_, ?_⟩, ?_⟩
    · rw [← hg.labels]; unfold MG.labels; rw [hn]
    · rw [hn]; exact hg.plain
    · simp [addEdge, ensure_rot, hg.rot]
    · intro e he
      simp only [addEdge, ensure_edges, List.mem_append, List.mem_singleton] at he
      rcases he with he | rfl
      · exact hg.bare e he
      · rfl
    · intro a b
      rw [between_addEdge]
      by_cases hab : i = a ∧ j = b
      · rw [if_pos hab, if_pos (by rw [hab.1, hab.2])]
      · rw [if_neg hab, if_neg (by rw [Prod.mk.injEq]; exact hab), List.append_nil]
  | false =>
    simp only [Bool.false_eq_true, if_false, hasEdge_ofMG hg.valid, decide_eq_true_eq]
    by_cases hs : i ∈ sources g.edges j
    · rw [if_pos hs, removeEdge_ofMG hg.valid, if_neg (by rw [between_eq_nil_iff]; exact fun h => h hs)]
      refine ⟨removeEdge g i j, rfl, ⟨valid_removeEdge hg.valid _ _, hg.labels, hg.plain, hg.rot, ?_⟩, ?_⟩
      · intro e he
        exact hg.bare e (List.mem_filter.1 he).1
      · intro a b
        rw [between_removeEdge]
        by_cases hab : i = a ∧ j = b
        · rw [if_pos hab, if_pos (by rw [hab.1, hab.2])]
        · rw [if_neg hab, if_neg (by rw [Prod.mk.injEq]; exact hab)]
    · rw [if_neg hs]
      refine ⟨g, rfl, hg, ?_⟩
      intro a b
      by_cases hab : i = a ∧ j = b
      · obtain ⟨rfl, rfl⟩ := hab
        rw [if_pos rfl]
        exact between_eq_nil_iff.2 hs
      · rw [if_neg (by rw [Prod.mk.injEq]; exact hab)]

theorem flockLink_fold {A : Type} {p : FlockParams} (hp : 0 < p.visualRange) {n : Nat} {acts : Dict Nat Boid} {f : Nat → Boid}
    (hd : ∀ i, i < n → acts.get? i = some (f i)) : ∀ (ps : List (Nat × Nat)) {g : MG Nat A}, FlockNet n g → ps.Nodup → (∀ q ∈ ps, q.1 < n ∧ q.2 < n) →
    ∃ g', ps.foldlM (flockLink p acts) (ofMG g) = .ok (ofMG g') ∧ FlockNet n g' ∧
      ∀ a b, between g'.edges a b = if (a, b) ∈ ps then (if BoidsNear (f a) (f b) p.visualRange then between g.edges a b ++ [[]] else [])
        else between g.edges a b := by
  intro ps
  induction ps with
  | nil => intro g hg _ _; exact ⟨g, rfl, hg, by simp⟩
  | cons q ps ih =>
    intro g hg hn hb
    obtain ⟨i, j⟩ := q
    rw [List.nodup_cons] at hn
    obtain ⟨g1, e1, e2, e3⟩ := flockLink_ok hp hd hg (hb (i, j) (by simp)).1 (hb (i, j) (by simp)).2
    obtain ⟨g2, k1, k2, k3⟩ := ih e2 hn.2 (fun q hq => hb q (by simp [hq]))
    refine ⟨g2, by rw [List.foldlM_cons, e1]; exact k1, k2, ?_⟩
    intro a b
    rw [k3, e3]
    by_cases hab : (i, j) = (a, b)
    · have : (a, b) ∉ ps := hab ▸ hn.1
      cases hab
      rw [if_neg this, if_pos rfl, if_pos (List.mem_cons_self)]
    · simp only [List.mem_cons, Ne.symm hab, false_or, if_neg hab]

end Verif
