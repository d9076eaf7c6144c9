import Verif.Props.Fungal
import Verif.Spec.Colony
/-! # The colony of the fungal growth model: C155 -/

namespace Verif
open Spec

/-! ## One timestep -/

/-- Every new edge comes from a node that is alive. -/
theorem grown_source {E : Nat → Nat → Prop} {ls : List (Nat × Nat)} {s rnd : Nat → Rat} {a b : Nat} {as as' : List (Nat × Nat)}
    {draw : Nat × Nat → Nat} (hv : Visits E ls) (h : Growth ls s rnd a b as as' draw) (hE : ∀ p ∈ as', E p.1 p.2) {p : Nat × Nat}
    (hp : p ∈ as') (hn : p ∉ as) : 0 < s p.1 := by
  have hf := h.occupied p hp hn
  by_cases h0 : 0 < s p.1
  · exact h0
  exfalso
  have hs := Rat.not_lt.1 h0
  rcases hv.all p.1 p.2 (hE p hp) with hl | hl
  · by_cases h2 : 0 < s p.2
    · exact (h.backward (p.1, p.2) hl hf hs h2).1 hp
    · exact (h.dead (p.1, p.2) hl hf hs (Rat.not_lt.1 h2)).1 hp
  · have hf' : Free as (p.2, p.1) := ⟨hf.2, hf.1⟩
    by_cases h2 : 0 < s p.2
    · exact (h.forward (p.2, p.1) hl hf' h2 hs).1 hp
    · exact (h.dead (p.2, p.1) hl hf' (Rat.not_lt.1 h2) hs).2 hp

theorem sum_positive : ∀ {l : List Rat}, l ≠ [] → (∀ r ∈ l, 0 < r) → 0 < l.sum
  | [], h, _ => absurd rfl h
  | [r], _, h => by
    have := h r (by simp)
    simpa [Rat.add_zero] using this
  | r :: r' :: l, _, h => by
    have h1 := h r (by simp)
    have h2 : 0 < (r' :: l).sum := sum_positive (by simp) (fun q hq => h q (List.mem_cons_of_mem _ hq))
    rw [List.sum_cons]
    grind

/-- The resource after a timestep, when the sources of all edges are alive. -/
theorem next_received {RE : Rat} {layer : Nat → Rat} {as : List (Nat × Nat)} {s : Nat → Rat} (hp : ∀ x, 0 ≤ RE * layer x)
    (hs : ∀ p ∈ as, 0 < s p.1) {p : Nat × Nat} (h : p ∈ as) : 0 < Spec.next RE layer as s p.2 := by
  unfold Spec.next
  have hm : p ∈ as.filter (fun q => decide (q.2 = p.2)) := List.mem_filter.2 ⟨h, by simp⟩
  rw [if_neg (List.ne_nil_of_mem hm)]
  have h1 : 0 < ((as.filter (fun q => decide (q.2 = p.2))).map (fun q => s q.1 / (Spec.outDegree as q.1 : Rat))).sum := by
    apply sum_positive
    · simpa using List.ne_nil_of_mem hm
    · intro r hr
      obtain ⟨q, hq, rfl⟩ := List.mem_map.1 hr
      have hq' := (List.mem_filter.1 hq).1
      have hd : (0 : Rat) < (Spec.outDegree as q.1 : Rat) := by
        have := outDegree_pos hq'
        exact_mod_cast this
      rw [Rat.div_def]
      exact Rat.mul_pos (hs q hq') (Rat.inv_pos.2 hd)
  have h2 := hp p.2
  split <;> grind

theorem next_kept {RE : Rat} {layer : Nat → Rat} {as : List (Nat × Nat)} {s : Nat → Rat} {x : Nat} (h : ∀ y, (y, x) ∉ as) :
    Spec.next RE layer as s x = s x + if 0 < s x then RE * layer x else 0 := by
  unfold Spec.next
  rw [if_pos]
  rw [List.filter_eq_nil_iff]
  rintro ⟨a, b⟩ hq hx
  simp only [decide_eq_true_eq] at hx
  subst hx
  exact h a hq

theorem next_alive {RE : Rat} {layer : Nat → Rat} {as : List (Nat × Nat)} {s : Nat → Rat} (hp : ∀ x, 0 ≤ RE * layer x)
    (hs : ∀ p ∈ as, 0 < s p.1) {x : Nat} (hx : 0 < s x) : 0 < Spec.next RE layer as s x := by
  by_cases h : ∃ y, (y, x) ∈ as
  · obtain ⟨y, hy⟩ := h
    exact next_received hp hs hy
  · rw [next_kept (fun y hy => h ⟨y, hy⟩)]
    have := hp x
    grind

/-! ## Runs -/

/-- A sequence of states of the model. -/
structure FRun (n : Nat) (E : Nat → Nat → Prop) (links : Nat → List (Nat × Nat)) (rnd : Nat → Rat) (RE : Rat) (layer : List Rat) (T : Nat)
    (st : Nat → FState) : Prop where
  fungal : ∀ t, t < T → Fungal n E (st t).g
  start : arcs (st 0).g = []
  step : ∀ t, t + 1 < T → FStep links rnd RE layer (t + 1) (st t) (st (t + 1))

set_option linter.unusedSectionVars false
section
variable {n : Nat} {E : Nat → Nat → Prop} {links : Nat → List (Nat × Nat)} {rnd : Nat → Rat} {RE : Rat} {layer : List Rat} {T : Nat}
  {st : Nat → FState} (hl : Lattice n E) (hv : ∀ t, Visits E (links t)) (hr : FRun n E links rnd RE layer T st)
  (hp : ∀ x : Nat, 0 ≤ RE * (layer[x]?).getD 0)
include hl hv hr hp

/-- Every edge of timestep `t + 1` comes from a node that was alive at timestep `t`. -/
theorem colony_sources (t : Nat) (ht : t + 1 < T) : ∀ p ∈ arcs (st (t + 1)).g, 0 < (st t).s p.1 := by
  induction t with
  | zero =>
    intro p h
    obtain ⟨draw, hg⟩ := (hr.step 0 ht).growth
    exact grown_source (hv _) hg (hr.fungal 1 ht).exclusive.link h (by rw [hr.start]; simp)
  | succ t ih =>
    intro p h
    obtain ⟨draw, hg⟩ := (hr.step (t + 1) ht).growth
    by_cases ho : p ∈ arcs (st (t + 1)).g
    · rw [(hr.step t (by omega)).acts]
      exact next_alive hp (ih (by omega)) (ih (by omega) p ho)
    · exact grown_source (hv _) hg (hr.fungal (t + 1 + 1) ht).exclusive.link h ho

theorem colony_alive_step (t x : Nat) (ht : t + 1 < T) (h : 0 < (st t).s x) : 0 < (st (t + 1)).s x := by
  rw [(hr.step t ht).acts]
  exact next_alive hp (colony_sources hl hv hr hp t ht) h

theorem colony_kept (t u : Nat) (p : Nat × Nat) (htu : t ≤ u) (hu : u < T) (h : p ∈ arcs (st t).g) : p ∈ arcs (st u).g := by
  induction htu with
  | refl => exact h
  | step _ ih =>
    obtain ⟨draw, hg⟩ := (hr.step _ hu).growth
    exact hg.kept p (ih (by omega))

theorem colony_ends (t : Nat) (p : Nat × Nat) (ht : t < T) (h : p ∈ arcs (st t).g) : 0 < (st t).s p.1 ∧ 0 < (st t).s p.2 := by
  cases t with
  | zero => rw [hr.start] at h; cases h
  | succ t =>
    have hs := colony_sources hl hv hr hp t ht
    refine ⟨colony_alive_step hl hv hr hp t _ ht (hs p h), ?_⟩
    rw [(hr.step t ht).acts]
    exact next_received hp hs h

theorem colony_born (t x : Nat) (ht : t + 1 < T) (h : (st t).s x ≤ 0) :
    0 < (st (t + 1)).s x ↔ ∃ y, E y x ∧ 0 < (st t).s y ∧ (y, x) ∈ arcs (st (t + 1)).g := by
  constructor
  · intro hx
    by_cases hy : ∃ y, (y, x) ∈ arcs (st (t + 1)).g
    · obtain ⟨y, hy⟩ := hy
      exact ⟨y, (hr.fungal (t + 1) ht).exclusive.link _ hy, colony_sources hl hv hr hp t ht _ hy, hy⟩
    · rw [(hr.step t ht).acts, next_kept (fun y h => hy ⟨y, h⟩)] at hx
      grind
  · rintro ⟨y, _, _, hy⟩
    exact (colony_ends hl hv hr hp (t + 1) _ ht hy).2

theorem colony_joined (t i j : Nat) (ht : t + 1 < T) (hE : E i j) (hi : 0 < (st t).s i) (hj : 0 < (st t).s j) :
    (i, j) ∈ arcs (st (t + 1)).g ∨ (j, i) ∈ arcs (st (t + 1)).g := by
  obtain ⟨draw, hg⟩ := (hr.step t ht).growth
  by_cases h1 : (i, j) ∈ arcs (st t).g
  · exact .inl (hg.kept _ h1)
  by_cases h2 : (j, i) ∈ arcs (st t).g
  · exact .inr (hg.kept _ h2)
  rcases (hv (t + 1)).all i j hE with hm | hm
  · have := hg.both _ hm ⟨h1, h2⟩ hi hj
    by_cases hd : rnd (draw (i, j)) < 1 / 2
    · exact .inl (this.1.2 hd)
    · exact .inr (this.2.2 hd)
  · have := hg.both _ hm ⟨h2, h1⟩ hj hi
    by_cases hd : rnd (draw (j, i)) < 1 / 2
    · exact .inr (this.1.2 hd)
    · exact .inl (this.2.2 hd)

omit hl hv hr hp in
theorem link_one : ∀ {as : List (Nat × Nat)}, as.Pairwise (fun p q => ¬ SameLink p q) → ∀ {i j : Nat}, i ≠ j → (i, j) ∈ as →
    (j, i) ∈ as → False
  | [], _, _, _, _, h, _ => by cases h
  | q :: as, hp, i, j, hn, h1, h2 => by
    rw [List.pairwise_cons] at hp
    rcases List.mem_cons.1 h1 with rfl | h1'
    · rcases List.mem_cons.1 h2 with h2 | h2
      · injection h2 with e1 e2; exact hn e1.symm
      · exact hp.1 _ h2 (.inr rfl)
    · rcases List.mem_cons.1 h2 with rfl | h2
      · exact hp.1 _ h1' (.inr rfl)
      · exact link_one hp.2 hn h1' h2

theorem colony_dormant (t x : Nat) (ht : t < T) (h : (st t).s x ≤ 0) :
    (st t).s x = (st 0).s x ∧ ∀ y, (y, x) ∉ arcs (st t).g := by
  induction t with
  | zero => exact ⟨rfl, by rw [hr.start]; simp⟩
  | succ t ih =>
    have hno : ∀ y, (y, x) ∉ arcs (st (t + 1)).g := by
      intro y hy
      have := (colony_ends hl hv hr hp (t + 1) _ ht hy).2
      exact Rat.not_lt.2 h this
    have h0 : (st t).s x ≤ 0 := by
      refine Rat.not_lt.1 fun h' => ?_
      exact Rat.not_lt.2 h (colony_alive_step hl hv hr hp t x ht h')
    refine ⟨?_, hno⟩
    rw [(hr.step t ht).acts, next_kept hno, if_neg (Rat.not_lt.2 h0), Rat.add_zero]
    exact (ih (by omega) h0).1

omit hl hv hr hp in
theorem reach_mono {P : Nat → Prop} {k x : Nat} (h : InReach E P k x) : InReach E P (k + 1) x := by
  induction h with
  | start h => exact .start h
  | link _ he ih => exact .link ih he

theorem colony_spread (t x : Nat) (ht : t < T) (h : 0 < (st t).s x) : InReach E (fun y => 0 < (st 0).s y) t x := by
  induction t generalizing x with
  | zero => exact .start h
  | succ t ih =>
    by_cases h0 : 0 < (st t).s x
    · exact reach_mono (ih x (by omega) h0)
    · obtain ⟨y, hE, hy, _⟩ := (colony_born hl hv hr hp t x ht (Rat.not_lt.1 h0)).1 h
      exact .link (ih y (by omega) hy) hE

theorem colony : Colony n E T (fun t => (st t).s) (fun t => arcs (st t).g) := by
  have hsurv : ∀ t u x, t ≤ u → u < T → 0 < (st t).s x → 0 < (st u).s x := by
    intro t u x htu hu h
    induction htu with
    | refl => exact h
    | step _ ih => exact colony_alive_step hl hv hr hp _ _ hu (ih (by omega))
  refine ⟨hsurv, colony_kept hl hv hr hp, colony_ends hl hv hr hp, colony_born hl hv hr hp, colony_dormant hl hv hr hp, ?_,
    colony_spread hl hv hr hp, ?_⟩
  · intro t i j ht hE hi hj
    have hne : i ≠ j := fun e => by subst e; exact hl.irrefl i hE
    have hx := (hr.fungal (t + 1) ht).exclusive.once
    rcases colony_joined hl hv hr hp t i j ht hE hi hj with h | h
    · exact .inl ⟨h, fun h' => link_one hx hne h h'⟩
    · exact .inr ⟨h, fun h' => link_one hx hne h' h⟩
  · intro t u htu hu hall
    have hrange : ∀ i j, E i j → i < n ∧ j < n := fun i j h => ⟨hl.range _ _ h, hl.range _ _ (hl.symm _ _ h)⟩
    have hfull : ∀ i j, E i j → (i, j) ∈ arcs (st (t + 1)).g ∨ (j, i) ∈ arcs (st (t + 1)).g := fun i j hE =>
      colony_joined hl hv hr hp t i j (by omega) hE (hall i (hrange i j hE).1) (hall j (hrange i j hE).2)
    have hk := fun p => colony_kept hl hv hr hp (t + 1) u p (by omega) hu
    refine ⟨fun i j hE => (hfull i j hE).imp (hk _) (hk _), fun p => ⟨fun h => ?_, hk p⟩⟩
    have hE := (hr.fungal u hu).exclusive.link p h
    have hne : p.1 ≠ p.2 := fun e => by rw [e] at hE; exact hl.irrefl _ hE
    rcases hfull _ _ hE with h' | h'
    · exact h'
    · exact (link_one (hr.fungal u hu).exclusive.once hne h (hk _ h')).elim

/-- A node of degree three that is alive takes its last link for certain. -/
theorem colony_last (hrnd : ∀ k, rnd k < 1) (t i j : Nat) (ht : t + 1 < T) (hE : E i j) (hi : 0 < (st t).s i)
    (hd : Spec.degree (arcs (st t).g) i = 3) : 0 < (st (t + 1)).s j ∧
      ((i, j) ∈ arcs (st (t + 1)).g ∨ (j, i) ∈ arcs (st (t + 1)).g) := by
  have key : (i, j) ∈ arcs (st (t + 1)).g ∨ (j, i) ∈ arcs (st (t + 1)).g := by
    by_cases hj : 0 < (st t).s j
    · exact colony_joined hl hv hr hp t i j ht hE hi hj
    have hj := Rat.not_lt.1 hj
    obtain ⟨draw, hg⟩ := (hr.step t ht).growth
    by_cases h1 : (i, j) ∈ arcs (st t).g
    · exact .inl (hg.kept _ h1)
    by_cases h2 : (j, i) ∈ arcs (st t).g
    · exact .inr (hg.kept _ h2)
    have hone : (1 : Rat) / (4 - ((Spec.degree (arcs (st t).g) i : Nat) : Rat)) = 1 := by rw [hd]; decide +kernel
    rcases (hv (t + 1)).all i j hE with hm | hm
    · exact .inl ((hg.forward _ hm ⟨h1, h2⟩ hi hj).2.2 (by simp only [hone]; exact hrnd _))
    · exact .inl ((hg.backward _ hm ⟨h2, h1⟩ hj hi).2.2 (by simp only [hone]; exact hrnd _))
  refine ⟨?_, key⟩
  rcases key with h | h
  · exact (colony_ends hl hv hr hp (t + 1) _ ht h).2
  · exact (colony_ends hl hv hr hp (t + 1) _ ht h).1

end

/-- C155: in a run of the model with resource that is not negative, on any lattice, with any initial conditions, random numbers, order of
the links and number of timesteps, the shown resources and edges form a colony (`Colony`): nobody dies, edges are permanent and join nodes
that are alive, life spreads along edges by at most one link at each timestep, neighbours that are alive are joined at the next timestep,
and the network does not change any more from the timestep after all nodes are alive.  If all random numbers are less than 1, a node that
is alive and has three edges takes its fourth link at the next timestep, so the node at the other end is then alive. -/
theorem C155_colony {I κ : Type} [DecidableEq κ] {cfg : Config Nat Rat Rat I Nat κ} {n : Nat} {E : Nat → Nat → Prop}
    {links : Nat → List (Nat × Nat)} {rnd : Nat → Rat} {RE : Rat} {layer : List Rat} {T : Nat}
    (hc : FungalRun cfg n E links rnd RE layer T) (hT : 1 ≤ T) (hp : cfg.PackOk) {init : List Rat} (hi : init.length = n)
    {r : Nat} {wd : World Nat Rat Nat} (hr : wd.heap[r]? = some (Net.ofSize n)) {f : Nat} (hf : T ≤ f)
    (hRE : 0 ≤ RE) (hlay : ∀ q ∈ layer, 0 ≤ q) :
    ∃ res hist, ∃ s : Nat → Nat → Rat, ∃ g : Nat → MG Nat Rat, evolve f cfg (some (.list init)) r wd = .ok res ∧
      Observes cfg res hist ∧ hist.length = T ∧
      (∀ (t : Nat) p, hist[t]? = some p → p.2 = ofMG (g t) ∧ p.1.keys = List.range n ∧ ∀ x, x < n → p.1.get? x = some (s t x)) ∧
      (∀ x, x < n → init[x]? = some (s 0 x)) ∧ arcs (g 0) = [] ∧ Colony n E T s (fun t => arcs (g t)) ∧
      ((∀ k, rnd k < 1) → ∀ t i j, t + 1 < T → E i j → 0 < s t i → Spec.degree (arcs (g t)) i = 3 →
        0 < s (t + 1) j ∧ ((i, j) ∈ arcs (g (t + 1)) ∨ (j, i) ∈ arcs (g (t + 1)))) := by
  obtain ⟨res, sts, a, hist, h1, h2, h3, h4, _, h6, h7, h8, h9, h10, h11⟩ := C73_run hc hT hp hi hr hf
  let st : Nat → FState := fun t => (sts[t]?).getD a
  have hst : ∀ t, t < T → sts[t]? = some (st t) := by
    intro t ht
    have : t < sts.length := by omega
    simp only [st, List.getElem?_eq_getElem this, Option.getD_some]
  have ha : st 0 = a := by simp only [st, h3, Option.getD_some]
  have hrun : FRun n E links rnd RE layer T st :=
    ⟨fun t ht => h7 _ (List.mem_of_getElem? (hst t ht)), by rw [ha]; exact h4, fun t ht => h8 t _ _ (hst t (by omega)) (hst (t + 1) ht)⟩
  have hpos : ∀ x : Nat, 0 ≤ RE * (layer[x]?).getD 0 := by
    intro x
    apply Rat.mul_nonneg hRE
    cases hx : layer[x]? with
    | none => exact Rat.le_refl
    | some q => exact hlay q (List.mem_of_getElem? hx)
  refine ⟨res, hist, fun t => (st t).s, fun t => (st t).g, h1, h9, h10, ?_, ?_, ?_, colony hc.lattice hc.visits hrun hpos,
    colony_last hc.lattice hc.visits hrun hpos⟩
  · intro t p hpt
    have ht : t < T := by have := (List.getElem?_eq_some_iff.1 hpt).1; omega
    have := h11 t p _ hpt (hst t ht)
    exact ⟨this.net, this.keys, this.acts⟩
  · simp only [ha]; exact h6
  · simp only [ha]; exact h4

namespace ExColony
open ExFungal

/-- A run on the torus with three columns and two rows, from one node. -/
def colonyRun (T : Nat) : Except Err (Evolved Nat Rat Rat Nat) :=
  evolve T (cfg T) (some (.list [4, 0, 0, 0, 0, 0])) 0 ⟨[Net.ofSize 6], 0⟩

/-- The hypotheses of `C155_colony` hold for every number of timesteps. -/
example (T : Nat) (hT : 1 ≤ T) : ∃ res hist, ∃ s : Nat → Nat → Rat, ∃ g : Nat → MG Nat Rat, colonyRun T = .ok res ∧
    Observes (cfg T) res hist ∧ (∀ x, x < 6 → [(4 : Rat), 0, 0, 0, 0, 0][x]? = some (s 0 x)) ∧
    Colony 6 (Torus 3 2) T s (fun t => arcs (g t)) := by
  obtain ⟨res, hist, s, g, h1, h2, _, _, h5, _, h7, _⟩ := C155_colony (run T) hT (init := [4, 0, 0, 0, 0, 0])
    (fun _ => ⟨fun _ => rfl, fun _ => rfl, fun _ => rfl⟩) rfl (r := 0) (wd := ⟨[Net.ofSize 6], 0⟩) rfl (Nat.le_refl T)
    (by decide +kernel) (by decide +kernel)
  exact ⟨res, hist, s, g, h1, h2, h5, h7⟩

/-- The nodes that are alive, and the edges, at timestep `t` of the run of six timesteps. -/
def colonySeen (t : Nat) : Option (List Nat × List (Nat × Nat)) :=
  match colonyRun 6 with
  | .ok r =>
    match r.acts (cfg 6) t, r.net (cfg 6) t with
    | some d, some n => some ((d.filter (fun e => decide (0 < e.2))).map Prod.fst, n.edges.map (fun e => (e.1, e.2.1)))
    | _, _ => none
  | .error _ => none

/-- The colony in this run: all nodes are alive at timestep 4, and the network is complete at timestep 5. -/
example : (List.range 6).map colonySeen =
    [some ([0], []), some ([0, 1, 3], [(0, 1), (0, 3)]), some ([0, 1, 2, 3], [(0, 1), (1, 2), (0, 3)]),
     some ([0, 1, 2, 3, 4], [(0, 1), (1, 2), (0, 2), (0, 3), (1, 4)]),
     some ([0, 1, 2, 3, 4, 5], [(0, 1), (1, 2), (0, 2), (0, 3), (1, 4), (3, 4), (2, 5)]),
     some ([0, 1, 2, 3, 4, 5], [(0, 1), (1, 2), (0, 2), (0, 3), (5, 3), (1, 4), (3, 4), (2, 5), (4, 5)])] := by decide +kernel

/-- With a negative rate of absorption a node may die although it has edges. -/
example : Spec.next (-5) (fun x => if x = 0 then 1 else 0) [(0, 1), (0, 3)] (fun x => if x = 0 then 4 else 0) 0 = -1 := by decide +kernel

end ExColony

end Verif
