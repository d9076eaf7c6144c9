import Verif.Proofs.Restricted
import Verif.Props.Growth
/-! # C96: the restricted network automaton -/

namespace Verif
open Spec MG
section
variable {A V I σ κ : Type} [DecidableEq V] [DecidableEq κ]

/-- C96.  For every underlying network and every initial network that has the nodes of the underlying network, `evolve` with the topology rule of
the restricted network automaton returns `T` states, and each network follows from the one before as specified. -/
theorem C96_run {cfg : Config Nat A V I σ κ} {gU g0 : MG Nat A} {T : Nat}
    (h : TopologyCall cfg (restrictedRule cfg.labelCodec cfg.attrCodec (ofMG gU)) T) (hU : gU.Valid) (hg : g0.Valid)
    (hsub : ∀ x ∈ gU.labels, x ∈ g0.labels) (hne : g0.labels ≠ []) (hl : ∀ x ∈ g0.labels, cfg.labelCodec.ExactAt x)
    (he : ∀ e ∈ g0.edges, ∀ kv ∈ e.attr, cfg.attrCodec.ExactAt kv.2) (ha : ∀ p ∈ g0.nodes, ∀ kv ∈ p.2, cfg.attrCodec.ExactAt kv.2)
    (hT : 1 ≤ T) {init : Option (Conds Nat V)} {r : Nat} {w : World Nat A σ} (hr : w.heap[r]? = some (ofMG g0)) {fuel : Nat}
    (hf : T ≤ fuel) :
    ∃ (res : Evolved Nat A V σ) (Ns : Nat → Net Nat A), evolve fuel cfg init r w = .ok res ∧ res.states.length = T ∧ Ns 0 = ofMG g0 ∧
      (∀ t, t < T → res.net cfg t = some (Ns t)) ∧ ∀ t, t + 1 < T → RestrictedNext (ofMG gU) (Ns t) (Ns (t + 1)) := by
  obtain ⟨res, gs, e1, e2, e3, e4, e5⟩ := topology_run (V := V) (g0 := g0) h.rule h.topology h.copy h.input h.persist h.compression
    (Inv := fun _ g _ => g.Valid ∧ g.nodes = g0.nodes ∧ ∀ e ∈ g.edges, ∀ kv ∈ e.attr, cfg.attrCodec.ExactAt kv.2)
    (Rel := fun _ g g' => RestrictedNext (ofMG gU) (ofMG g) (ofMG g')) (by
      rintro t acts g u ht ⟨i1, i2, i3⟩
      have hlab : g.labels = g0.labels := by unfold MG.labels; rw [i2]
      have hv : ({ g with rot := none } : MG Nat A).Valid := ⟨i1.nodup, i1.closed⟩
      have hlab' : ({ g with rot := none } : MG Nat A).labels = g0.labels := hlab
      have hcopy : ∀ G : MG Nat A, G.Valid → G.nodes = g.nodes → G.edges = g.edges →
          (ofMG G).copy cfg.labelCodec cfg.attrCodec = .ok (ofMG { G with rot := none }) := by
        intro G k1 k2 k3
        refine copy_ofMG k1 ?_ (by rw [k3]; exact i3) (by rw [k2, i2]; exact ha)
        unfold MG.labels
        rw [k2, i2]
        exact hl
      obtain ⟨g', h1, h2, h3, h4, h5, h6⟩ := restricted_ok hU hv (by rw [hlab']; exact hsub) rfl (hcopy _ hv rfl rfl) acts (t + 1) u
      refine ⟨_, g', u, hcopy g i1 rfl rfl, h1, ?_, ⟨h2, by rw [h3, ← i2], ?_⟩, ?_⟩
      · have : g'.labels ≠ [] := by
          have : g'.labels = g0.labels := by unfold MG.labels; rw [h3, ← i2]
          rw [this]; exact hne
        simp only [TopOut.value, ofMG_nonempty this, Bool.false_eq_true, if_false]
      · intro e hE kv hkv
        have hm := mem_between hE
        rcases h6 e.dst e.src with k | k | k
        · rw [k, List.mem_singleton] at hm
          rw [hm] at hkv
          cases hkv
        · rw [k] at hm
          exact i3 _ (edge_of_between hm) kv hkv
        · rw [k] at hm
          cases hm
      · refine ⟨h5.labels, h5.attrs, ?_⟩
        have hp : ∀ a b, parallel (ofMG ({ g with rot := none } : MG Nat A)) a b = parallel (ofMG g) a b := by
          intro a b
          rw [parallel_ofMG hv, parallel_ofMG i1]
        have hd : ∀ a, inDeg (ofMG ({ g with rot := none } : MG Nat A)) a = inDeg (ofMG g) a := by
          intro a
          rw [inDeg_ofMG hv, inDeg_ofMG i1]
        have := h5.edges
        simp only [hp, hd] at this
        exact this) (by
      rintro t g u ⟨_, i2, _⟩ hnil
      apply hne
      unfold MG.labels
      rw [← i2, hnil]
      rfl) hT hr ⟨hg, rfl, he⟩ hf (init := init)
  exact ⟨res, fun t => ofMG (gs t), e1, e2, congrArg ofMG e3, fun t ht => (e4 t ht).1, e5⟩

/-- C96: a node of the underlying network that is not in the network lets the run raise `KeyError` (here: the first one). -/
theorem C96_missing {cfg : Config Nat A V I σ κ} {gU g0 : MG Nat A} {T : Nat}
    (h : TopologyCall cfg (restrictedRule cfg.labelCodec cfg.attrCodec (ofMG gU)) T) (hg : g0.Valid)
    {x : Nat} {xs : List Nat} (hx : gU.labels = x :: xs) (hmiss : x ∉ g0.labels) (hl : ∀ x ∈ g0.labels, cfg.labelCodec.ExactAt x)
    (he : ∀ e ∈ g0.edges, ∀ kv ∈ e.attr, cfg.attrCodec.ExactAt kv.2) (ha : ∀ p ∈ g0.nodes, ∀ kv ∈ p.2, cfg.attrCodec.ExactAt kv.2)
    (hT : 2 ≤ T) {init : Option (Conds Nat V)} {r : Nat} {w : World Nat A σ} (hr : w.heap[r]? = some (ofMG g0)) {fuel : Nat}
    (hf : 1 ≤ fuel) : evolve fuel cfg init r w = .error .keyError := by
  refine topology_fail h.rule h.topology h.copy h.input h.compression (copy_ofMG hg hl he ha) ?_ hT hr hf
  intro acts
  unfold restrictedRule
  have hc : (ofMG { g0 with rot := none }).copy cfg.labelCodec cfg.attrCodec = .ok (ofMG { g0 with rot := none }) :=
    copy_ofMG (g := { g0 with rot := none }) ⟨hg.nodup, hg.closed⟩ hl he ha
  have hd : (ofMG { g0 with rot := none }).inDegree x = .error .keyError := by
    rw [Net.inDegree, get_ofMG_of_not_mem (g := { g0 with rot := none }) hmiss]
    rfl
  simp only [hc, labels_ofMG, hx, List.foldlM_cons, restrictedRow, hd]
  rfl

end

section
variable {A : Type} {U N N' : Net Nat A}

/-- C96: if the underlying network and the network are undirected (as many edges from `i` to `j` as from `j` to `i`), so is the next network. -/
theorem C96_undirected (h : RestrictedNext U N N') (hU : ∀ i j, (parallel U i j).length = (parallel U j i).length)
    (hN : ∀ i j, (parallel N i j).length = (parallel N j i).length) (i j : Nat) :
    (parallel N' i j).length = (parallel N' j i).length := by
  have e : ∀ M : Net Nat A, (∀ i j, (parallel M i j).length = (parallel M j i).length) → (parallel M i j = [] ↔ parallel M j i = []) := by
    intro M hM
    rw [← List.length_eq_zero_iff, ← List.length_eq_zero_iff, hM]
  have e1 := e U hU
  have e2 := e N hN
  rw [h.edges, h.edges]
  by_cases c1 : i = j ∨ i ∉ U.labels ∨ j ∉ U.labels
  · rw [if_pos c1, if_pos (by rcases c1 with c | c | c; exact Or.inl c.symm; exact Or.inr (Or.inr c); exact Or.inr (Or.inl c))]
    exact hN i j
  · have c1' : ¬ (j = i ∨ j ∉ U.labels ∨ i ∉ U.labels) := by
      rintro (c | c | c)
      · exact c1 (Or.inl c.symm)
      · exact c1 (Or.inr (Or.inr c))
      · exact c1 (Or.inr (Or.inl c))
    rw [if_neg c1, if_neg c1']
    simp only [Nat.add_comm (inDeg N j) (inDeg N i), e1, e2, ne_eq]
    split
    · rfl
    · split
      · exact hN i j
      · rfl

/-- C96: a network within the underlying network stays within it. -/
theorem C96_within (h : RestrictedNext U N N') (hN : ∀ i j, parallel N i j ≠ [] → parallel U i j ≠ []) (i j : Nat)
    (hij : parallel N' i j ≠ []) : parallel U i j ≠ [] := by
  rw [h.edges] at hij
  split at hij
  · exact hN i j hij
  · split at hij
    · rename_i c
      exact c.2.2
    · split at hij
      · exact hN i j hij
      · exact absurd rfl hij

/-- C96: there are never parallel edges if there were none. -/
theorem C96_simple (h : RestrictedNext U N N') (hN : ∀ i j, (parallel N i j).length ≤ 1) (i j : Nat) : (parallel N' i j).length ≤ 1 := by
  rw [h.edges]
  split
  · exact hN i j
  · split
    · simp
    · split
      · exact hN i j
      · simp

/-- C96: a network without edges stays without edges. -/
theorem C96_quiescent (h : RestrictedNext U N N') (hN : ∀ i j, parallel N i j = []) (i j : Nat) : parallel N' i j = [] := by
  have hd : ∀ x, inDeg N x = 0 := by
    intro x
    unfold inDeg
    simp only [hN, List.length_nil, List.map_const', List.sum_replicate_nat, Nat.mul_zero]
  rw [h.edges]
  simp [hd, hN]

end

/-! ## Example -/

/-- A ring of four nodes, both directions. -/
def Ex.ring4 : MG Nat Int :=
  ⟨(List.range 4).map (fun x => (x, [])), (List.range 4).flatMap (fun x => [⟨x, (x + 1) % 4, []⟩, ⟨(x + 1) % 4, x, []⟩]), none⟩

/-- The same nodes with one link. -/
def Ex.oneLink : MG Nat Int := ⟨(List.range 4).map (fun x => (x, [])), [⟨0, 1, []⟩, ⟨1, 0, []⟩], none⟩

/-- The configuration of the run. -/
def Ex.restricted (T : Nat) : Config Nat Int Int Int (List Int) Unit :=
  Ex.topCall (restrictedRule Ex.natCodec Ex.intCodec (ofMG Ex.ring4)) T

/-- The hypotheses of C96 are met. -/
example : ∃ (res : Evolved Nat Int Int (List Int)) (Ns : Nat → Net Nat Int),
    evolve 5 (Ex.restricted 5) none 0 ⟨[ofMG Ex.oneLink], []⟩ = .ok res ∧ res.states.length = 5 ∧ Ns 0 = ofMG Ex.oneLink ∧
      (∀ t, t < 5 → res.net (Ex.restricted 5) t = some (Ns t)) ∧
      ∀ t, t + 1 < 5 → RestrictedNext (ofMG Ex.ring4) (Ns t) (Ns (t + 1)) :=
  C96_run (cfg := Ex.restricted 5) (Ex.topCall_ok _ 5) ⟨by decide, by decide⟩ ⟨by decide, by decide⟩ (by decide) (by decide)
    (fun _ _ => ⟨rfl, rfl⟩) (fun _ _ _ _ => ⟨rfl, rfl⟩) (fun _ _ _ _ => ⟨rfl, rfl⟩) (by decide) rfl (by decide)

end Verif
