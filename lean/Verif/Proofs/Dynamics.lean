import Verif.Model.Dynamics
import Verif.Proofs.StaticRun
import Verif.Proofs.Rotation
import Verif.Proofs.Machines
/-! # The networks of the demos of dynamical systems as multigraphs -/

namespace Verif
open Spec MG

/-- The multigraph of the second Lorenz demo. -/
def lorenzMG (a b r : Rat) : MG String Rat :=
  ⟨[("x", []), ("y", []), ("z", [])], [⟨"x", "x", [("weight", a)]⟩, ⟨"y", "x", [("weight", a)]⟩, ⟨"x", "y", [("weight", r)]⟩,
    ⟨"z", "y", [("weight", 1)]⟩, ⟨"y", "y", [("weight", 1)]⟩, ⟨"x", "z", [("weight", 1)]⟩, ⟨"y", "z", [("weight", 1)]⟩, ⟨"z", "z", [("weight", b)]⟩], none⟩

theorem lorenz_mg (a b r : Rat) : lorenzNetwork a b r = ofMG (lorenzMG a b r) ∧ (lorenzMG a b r).Valid := by
  have h := run_ofMG (g := (⟨[], [], none⟩ : MG String Rat)) ⟨by decide, by decide⟩ [.addEdge "x" "x" [("weight", a)],
    .addEdge "y" "x" [("weight", a)], .addEdge "x" "y" [("weight", r)], .addEdge "z" "y" [("weight", 1)], .addEdge "y" "y" [("weight", 1)],
    .addEdge "x" "z" [("weight", 1)], .addEdge "y" "z" [("weight", 1)], .addEdge "z" "z" [("weight", b)]]
  have e : MG.run (⟨[], [], none⟩ : MG String Rat) [.addEdge "x" "x" [("weight", a)], .addEdge "y" "x" [("weight", a)],
      .addEdge "x" "y" [("weight", r)], .addEdge "z" "y" [("weight", 1)], .addEdge "y" "y" [("weight", 1)], .addEdge "x" "z" [("weight", 1)],
      .addEdge "y" "z" [("weight", 1)], .addEdge "z" "z" [("weight", b)]] = lorenzMG a b r := by
    simp [lorenzMG, MG.run, MG.exec, MG.addEdge, MG.ensure, MG.labels]
  rw [e] at h
  exact h

/-- The multigraph of the network with one node and a self-loop. -/
def loopMG : MG Nat Int := ⟨[(0, [])], [⟨0, 0, [("weight", 1)]⟩], none⟩

theorem loop_mg : singleNode = ofMG loopMG ∧ loopMG.Valid := by
  refine ⟨by decide, ⟨by decide, by decide⟩⟩

/-- The multigraph of one node without edges. -/
def pointMG (A : Type) : MG Nat A := ⟨[(0, [])], [], none⟩

theorem point_mg (A : Type) : (Net.ofSize 1 : Net Nat A) = ofMG (pointMG A) ∧ (pointMG A).Valid := by
  refine ⟨rfl, ⟨by simp [pointMG, MG.labels], by simp [pointMG]⟩⟩

/-- The self-loops of the growth rates, numbered from `k`. -/
def rateEdges (k : Nat) : List Rat → List (Edge Nat Rat)
  | [] => []
  | g :: gs => ⟨k, k, [("growth_rate", g)]⟩ :: rateEdges (k + 1) gs

/-- The multigraph of the logistic map demo. -/
def logisticMG (rates : List Rat) : MG Nat Rat := ⟨(List.range rates.length).map (fun i => (i, [])), rateEdges 0 rates, none⟩

theorem logisticMG_labels (rates : List Rat) : (logisticMG rates).labels = List.range rates.length := by
  simp [logisticMG, MG.labels, Function.comp_def]

theorem run_rates (rates : List Rat) : ∀ (k : Nat) (nodes : Dict Nat (Attr Rat)) (es : List (Edge Nat Rat)),
    (∀ i, k ≤ i → i < k + rates.length → i ∈ nodes.keys) →
    MG.run (⟨nodes, es, none⟩ : MG Nat Rat) ((rates.zipIdx k).map (fun p => .addEdge p.2 p.2 [("growth_rate", p.1)])) =
      ⟨nodes, es ++ rateEdges k rates, none⟩ := by
  induction rates with
  | nil => intro k nodes es _; simp [MG.run, rateEdges]
  | cons g gs ih =>
    intro k nodes es hk
    have hmem : k ∈ MG.labels (⟨nodes, es, none⟩ : MG Nat Rat) := hk k (Nat.le_refl _) (by simp)
    have : MG.run (⟨nodes, es, none⟩ : MG Nat Rat) (((g :: gs).zipIdx k).map (fun p => .addEdge p.2 p.2 [("growth_rate", p.1)])) =
        MG.run (⟨nodes, es ++ [⟨k, k, [("growth_rate", g)]⟩], none⟩ : MG Nat Rat)
          ((gs.zipIdx (k + 1)).map (fun p => .addEdge p.2 p.2 [("growth_rate", p.1)])) := by
      simp only [List.zipIdx_cons, List.map_cons, MG.run, List.foldl_cons, MG.exec, MG.addEdge, MG.ensure, if_pos hmem]
    rw [this, ih (k + 1) nodes _ (fun i h1 h2 => hk i (by omega) (by simp; omega))]
    simp [rateEdges]

theorem logistic_mg (rates : List Rat) : logisticNetwork rates = ofMG (logisticMG rates) ∧ (logisticMG rates).Valid := by
  have h0 : (disconnectedN Rat rates.length) = ofMG (⟨(List.range rates.length).map (fun i => (i, [])), [], none⟩ : MG Nat Rat) := by
    simp [ofMG, disconnectedN, Net.ofSize, Function.comp_def, nodeOf, MG.inCount, MG.outCount, incomingOf, MG.sources, MG.dedup, Dict.ofKeys, Net.newNode]
  have h := run_ofMG (g := (⟨(List.range rates.length).map (fun i => (i, [])), [], none⟩ : MG Nat Rat))
    ⟨by simpa [MG.labels, Dict.keys, Function.comp_def] using List.nodup_range, by simp⟩
    (rates.zipIdx.map (fun p => .addEdge p.2 p.2 [("growth_rate", p.1)]))
  rw [← h0, run_rates rates 0 _ [] (by simp [Dict.keys, Function.comp_def])] at h
  exact h

theorem mem_rateEdges {e : Edge Nat Rat} {rates : List Rat} : ∀ {k : Nat}, e ∈ rateEdges k rates ↔
    ∃ i g, rates[i]? = some g ∧ e = ⟨k + i, k + i, [("growth_rate", g)]⟩ := by
  induction rates with
  | nil => intro k; simp [rateEdges]
  | cons g gs ih =>
    intro k
    simp only [rateEdges, List.mem_cons, ih]
    constructor
    · rintro (rfl | ⟨i, g', h1, rfl⟩)
      · exact ⟨0, g, rfl, rfl⟩
      · exact ⟨i + 1, g', h1, by rw [Nat.add_assoc, Nat.add_comm 1 i]⟩
    · rintro ⟨i, g', h1, rfl⟩
      cases i with
      | zero =>
        simp only [List.getElem?_cons_zero, Option.some.injEq] at h1
        subst h1
        exact Or.inl rfl
      | succ i => exact Or.inr ⟨i, g', h1, by rw [Nat.add_assoc, Nat.add_comm 1 i]⟩

/-- The edges into and out of node `i`. -/
theorem rateEdges_at (rates : List Rat) : ∀ (k i : Nat) (g : Rat), rates[i]? = some g →
    (rateEdges k rates).filter (fun e => decide (e.dst = k + i)) = [⟨k + i, k + i, [("growth_rate", g)]⟩] ∧
    (rateEdges k rates).filter (fun e => decide (e.src = k + i) && decide (e.dst = k + i)) = [⟨k + i, k + i, [("growth_rate", g)]⟩] := by
  induction rates with
  | nil => intro k i g h; simp at h
  | cons g0 gs ih =>
    intro k i g h
    cases i with
    | zero =>
      simp only [List.getElem?_cons_zero, Option.some.injEq] at h
      subst h
      have hnone : ∀ e ∈ rateEdges (k + 1) gs, ¬ e.dst = k := by
        intro e he
        obtain ⟨i, g, _, rfl⟩ := mem_rateEdges.1 he
        show ¬ (k + 1 + i = k)
        omega
      constructor
      · simp only [rateEdges, Nat.add_zero, List.filter_cons, decide_true, if_true]
        rw [List.filter_eq_nil_iff.2 (by intro e he; simpa using hnone e he)]
      · simp only [rateEdges, Nat.add_zero, List.filter_cons, decide_true, Bool.and_self, if_true]
        rw [List.filter_eq_nil_iff.2 (by intro e he; simp [hnone e he])]
    | succ i =>
      simp only [List.getElem?_cons_succ] at h
      obtain ⟨h1, h2⟩ := ih (k + 1) i g h
      rw [show k + 1 + i = k + (i + 1) by omega] at h1 h2
      constructor
      · simp only [rateEdges, List.filter_cons]
        rw [if_neg (by simp)]
        exact h1
      · simp only [rateEdges, List.filter_cons]
        rw [if_neg (by simp)]
        exact h2

theorem logisticMG_at {rates : List Rat} {i : Nat} {g : Rat} (h : rates[i]? = some g) :
    sources (logisticMG rates).edges i = [i] ∧ between (logisticMG rates).edges i i = [[("growth_rate", g)]] := by
  obtain ⟨h1, h2⟩ := rateEdges_at rates 0 i g h
  rw [Nat.zero_add] at h1 h2
  constructor
  · show sources (rateEdges 0 rates) i = _
    unfold sources
    rw [h1]
    rfl
  · show between (rateEdges 0 rates) i i = _
    unfold between
    rw [h2]
    rfl

end Verif
