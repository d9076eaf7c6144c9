import Verif.Proofs.ExpandRun
import Verif.Props.Growth
/-! # C97: the evolving network that replaces nodes by triangles -/

namespace Verif
open Spec MG
section
variable {A V I σ κ : Type} [DecidableEq V] [DecidableEq κ]

/-- C97.  For every simple undirected network in which every node has three neighbours, `evolve` with the topology rule of the evolving network
returns `T` states.  The network of each state is again of this kind, and arises from the one before by replacing every node by a triangle. -/
theorem C97_run {cfg : Config String A V I σ κ} {T : Nat} (h : TopologyCall cfg (expandRule cfg.labelCodec cfg.attrCodec) T)
    {g0 : MG String A} (hg : g0.Valid) (hc : Cubic (ofMG g0)) (hfl : FreshLabels g0.labels) (hne : g0.labels ≠ [])
    (hl : ∀ x, cfg.labelCodec.ExactAt x) (hT : 1 ≤ T) {init : Option (Conds String V)} {r : Nat} {w : World String A σ}
    (hr : w.heap[r]? = some (ofMG g0)) {fuel : Nat} (hf : T ≤ fuel) :
    ∃ (res : Evolved String A V σ) (Ns : Nat → Net String A), evolve fuel cfg init r w = .ok res ∧ res.states.length = T ∧ Ns 0 = ofMG g0 ∧
      (∀ t, t < T → res.net cfg t = some (Ns t) ∧ Cubic (Ns t) ∧ FreshLabels (Ns t).labels) ∧
      ∀ t, t + 1 < T → ∃ corner, Truncated (Ns t) (Ns (t + 1)) corner := by
  obtain ⟨res, gs, e1, e2, e3, e4, e5⟩ := topology_run (V := V) (g0 := g0) h.rule h.topology h.copy h.input h.persist h.compression
    (Inv := fun _ g _ => g.Valid ∧ Cubic (ofMG g) ∧ FreshLabels g.labels ∧ g.labels ≠ [])
    (Rel := fun _ g g' => ∃ corner, Truncated (ofMG g) (ofMG g') corner) (by
      rintro t acts g u ht ⟨i1, i2, i3, i4⟩
      have hG := cubicMG_of i1 i2
      have hplain := hG.plain
      have hedge : ∀ e ∈ g.edges, e.attr = [] := by
        intro e he
        have hm := mem_between he
        rcases hG.once e.src e.dst with k | k
        · rw [show between ({ g with rot := none } : MG String A).edges e.src e.dst = between g.edges e.src e.dst from rfl] at k
          rw [k] at hm; cases hm
        · rw [show between ({ g with rot := none } : MG String A).edges e.src e.dst = between g.edges e.src e.dst from rfl] at k
          rw [k, List.mem_singleton] at hm; exact hm
      have hcopy : ∀ G : MG String A, G.Valid → G.nodes = g.nodes → G.edges = g.edges →
          (ofMG G).copy cfg.labelCodec cfg.attrCodec = .ok (ofMG { G with rot := none }) := by
        intro G k1 k2 k3
        refine copy_ofMG k1 (fun x _ => hl x) ?_ ?_
        · rw [k3]
          intro e he kv hkv
          rw [hedge e he] at hkv
          cases hkv
        · rw [k2]
          intro p hp kv hkv
          rw [hplain p hp] at hkv
          cases hkv
      have hfr : ∀ x ∈ ({ g with rot := none } : MG String A).labels, ∀ s, cornerOf x s ∉ ({ g with rot := none } : MG String A).labels :=
        fresh_of i3
      obtain ⟨g', c, h1, h2⟩ := expand_rule hG hfr (hcopy _ hG.valid rfl rfl) acts (t + 1) u
      have hne' : g'.labels ≠ [] := by
        obtain ⟨x, hx⟩ := List.exists_mem_of_ne_nil _ i4
        intro hnil
        have := (corner_mem h2 (i := cornerOf x 0)).2 ⟨x, hx, 0, rfl⟩
        rw [hnil] at this
        cases this
      refine ⟨_, g', u, hcopy g i1 rfl rfl, h1, ?_, ⟨h2.valid, cubic_of (expanded_cubic corner_inj hG h2), ?_, hne'⟩, fun x y => letter (c x y), ?_⟩
      · simp only [TopOut.value, ofMG_nonempty hne', Bool.false_eq_true, if_false]
      · intro x hx s hs
        obtain ⟨s, rfl⟩ := letter_of_mem hs
        exact expanded_fresh corner_inj hfr h2 x hx s
      · have ht := truncated_of hG h2
        have hp : ∀ a b, Adj (ofMG ({ g with rot := none } : MG String A)) a b ↔ Adj (ofMG g) a b := by
          intro a b
          unfold Adj
          rw [parallel_ofMG hG.valid, parallel_ofMG i1]
        refine ⟨ht.labels, fun x y k => ht.corners x y ((hp x y).2 k), fun x y z k1 k2 => ht.single x y z ((hp x y).2 k1) ((hp x z).2 k2), ?_⟩
        have := ht.edges
        simp only [hp] at this
        exact this) (by
      rintro t g u ⟨_, _, _, i4⟩ hnil
      apply i4
      unfold MG.labels
      rw [hnil]
      rfl) hT hr ⟨hg, hc, hfl, hne⟩ hf (init := init)
  refine ⟨res, fun t => ofMG (gs t), e1, e2, congrArg ofMG e3, fun t ht => ⟨(e4 t ht).1, ?_⟩, e5⟩
  obtain ⟨u, _, i2, i3, _⟩ := (e4 t ht).2
  exact ⟨i2, by rw [labels_ofMG]; exact i3⟩

/-- C97: a node with four or more neighbours (here: the first node) lets the run raise `IndexError`. -/
theorem C97_four {cfg : Config String A V I σ κ} {T : Nat} (h : TopologyCall cfg (expandRule cfg.labelCodec cfg.attrCodec) T)
    {g0 : MG String A} (hg : g0.Valid) {x k1 k2 k3 k4 : String} {xs ks : List String} (hx : g0.labels = x :: xs)
    (hs : sources g0.edges x = k1 :: k2 :: k3 :: k4 :: ks) (hk : k1 ≠ x ∧ k2 ≠ x ∧ k3 ≠ x)
    (hl : ∀ x ∈ g0.labels, cfg.labelCodec.ExactAt x)
    (he : ∀ e ∈ g0.edges, ∀ kv ∈ e.attr, cfg.attrCodec.ExactAt kv.2) (ha : ∀ p ∈ g0.nodes, ∀ kv ∈ p.2, cfg.attrCodec.ExactAt kv.2)
    (hT : 2 ≤ T) {init : Option (Conds String V)} {r : Nat} {w : World String A σ} (hr : w.heap[r]? = some (ofMG g0)) {fuel : Nat}
    (hf : 1 ≤ fuel) : evolve fuel cfg init r w = .error .indexError := by
  refine topology_fail h.rule h.topology h.copy h.input h.compression (copy_ofMG hg hl he ha) ?_ hT hr hf
  intro acts
  unfold expandRule
  have hc : (ofMG { g0 with rot := none }).copy cfg.labelCodec cfg.attrCodec = .ok (ofMG { g0 with rot := none }) :=
    copy_ofMG (g := { g0 with rot := none }) ⟨hg.nodup, hg.closed⟩ hl he ha
  have hv : ({ g0 with rot := none } : MG String A).Valid := ⟨hg.nodup, hg.closed⟩
  have hx' : ({ g0 with rot := none } : MG String A).labels = x :: xs := hx
  simp only [hc, labels_ofMG, hx', List.foldlM_cons, expand_node_four hv hs hk]
  rfl

end

section
variable {A : Type} {N N' : Net String A} {corner : String → String → String}

/-- C97: the next network has three times as many nodes. -/
theorem C97_size (h : Truncated N N' corner) : N'.labels.length = 3 * N.labels.length := by
  rw [h.labels]
  induction N.labels with
  | nil => rfl
  | cons x xs ih => rw [List.flatMap_cons, List.length_append, ih, List.length_cons, List.length_cons, List.length_cons, List.length_cons, List.length_nil]; omega

theorem C97_sizes {Ns : Nat → Net String A} {T : Nat} (h : ∀ t, t + 1 < T → ∃ corner, Truncated (Ns t) (Ns (t + 1)) corner) :
    ∀ t, t < T → (Ns t).labels.length = 3 ^ t * (Ns 0).labels.length := by
  intro t
  induction t with
  | zero => intro _; simp
  | succ t ih =>
    intro ht
    obtain ⟨corner, k⟩ := h t ht
    rw [C97_size k, ih (by omega), Nat.pow_succ]
    rw [← Nat.mul_assoc, Nat.mul_comm 3]

theorem Path.trans {x y z : String} (h1 : Path N x y) (h2 : Path N y z) : Path N x z := by
  induction h2 with
  | refl => exact h1
  | step _ k ih => exact Path.step ih k

/-- The corners of a node are connected. -/
theorem path_corners (h : Truncated N N' corner) {x : String} (hx : x ∈ N.labels) {s s' : String} (hs : s ∈ ["a", "b", "c"])
    (hs' : s' ∈ ["a", "b", "c"]) : Path N' (x ++ s) (x ++ s') := by
  by_cases e : s = s'
  · rw [e]; exact Path.refl
  · exact Path.step Path.refl ((h.edges _ _).2 (Or.inl ⟨x, hx, s, hs, s', hs', e, rfl, rfl⟩))

theorem path_expanded (h : Truncated N N' corner) (hN : Cubic N) {x y : String} (hp : Path N x y)
    (hx : x ∈ N.labels) : ∀ s ∈ ["a", "b", "c"], ∀ s' ∈ ["a", "b", "c"], Path N' (x ++ s) (y ++ s') := by
  have hcm : ∀ x y, Adj N x y → corner x y ∈ ["a", "b", "c"] := by
    intro x y k
    have := h.corners x y k
    simpa using this
  induction hp with
  | refl =>
    intro s hs s' hs'
    exact path_corners h hx hs hs'
  | @step y z _ k ih =>
    intro s hs s' hs'
    have k' : Adj N' (y ++ corner y z) (z ++ corner z y) := (h.edges _ _).2 (Or.inr ⟨y, z, k, rfl, rfl⟩)
    exact Path.trans (Path.step (ih s hs _ (hcm y z k)) k') (path_corners h (hN.closed y z k).2 (hcm z y (hN.symm y z k)) hs')

/-- C97: if the network is connected, so is the next one. -/
theorem C97_connected (h : Truncated N N' corner) (hN : Cubic N) (hc : ∀ x ∈ N.labels, ∀ y ∈ N.labels, Path N x y) :
    ∀ i ∈ N'.labels, ∀ j ∈ N'.labels, Path N' i j := by
  have hm : ∀ i ∈ N'.labels, ∃ x ∈ N.labels, ∃ s ∈ ["a", "b", "c"], i = x ++ s := by
    intro i hi
    rw [h.labels, List.mem_flatMap] at hi
    obtain ⟨x, hx, hi⟩ := hi
    simp only [List.mem_cons, List.not_mem_nil, or_false] at hi
    rcases hi with e | e | e
    · exact ⟨x, hx, "a", by simp, e⟩
    · exact ⟨x, hx, "b", by simp, e⟩
    · exact ⟨x, hx, "c", by simp, e⟩
  intro i hi j hj
  obtain ⟨x, hx, s, hs, rfl⟩ := hm i hi
  obtain ⟨y, hy, s', hs', rfl⟩ := hm j hj
  exact path_expanded h hN (hc x hx y hy) hx s hs s' hs'

/-- C97: the triangles of the next network: the corners of one node are pairwise connected. -/
theorem C97_triangle (h : Truncated N N' corner) {x : String} (hx : x ∈ N.labels) :
    Adj N' (x ++ "a") (x ++ "b") ∧ Adj N' (x ++ "b") (x ++ "c") ∧ Adj N' (x ++ "c") (x ++ "a") :=
  ⟨(h.edges _ _).2 (Or.inl ⟨x, hx, "a", by simp, "b", by simp, by decide, rfl, rfl⟩),
   (h.edges _ _).2 (Or.inl ⟨x, hx, "b", by simp, "c", by simp, by decide, rfl, rfl⟩),
   (h.edges _ _).2 (Or.inl ⟨x, hx, "c", by simp, "a", by simp, by decide, rfl, rfl⟩)⟩

end

/-- The network of the demo (`demos/evolving_networks/evolving_networks_demo.py:11-17`). -/
def demoK4 (A : Type) : Net String A :=
  Net.run Net.empty [.addEdgeBidir "1" "2" [], .addEdgeBidir "1" "3" [], .addEdgeBidir "2" "3" [], .addEdgeBidir "1" "4" [],
    .addEdgeBidir "2" "4" [], .addEdgeBidir "3" "4" []]

/-- The same as a graph. -/
def k4 (A : Type) : MG String A :=
  ⟨[("1", []), ("2", []), ("3", []), ("4", [])],
   [⟨"1", "2", []⟩, ⟨"2", "1", []⟩, ⟨"1", "3", []⟩, ⟨"3", "1", []⟩, ⟨"2", "3", []⟩, ⟨"3", "2", []⟩,
    ⟨"1", "4", []⟩, ⟨"4", "1", []⟩, ⟨"2", "4", []⟩, ⟨"4", "2", []⟩, ⟨"3", "4", []⟩, ⟨"4", "3", []⟩], none⟩

theorem demoK4_eq (A : Type) : demoK4 A = ofMG (k4 A) := by
  have hstep : ∀ (g : MG String A) (a b : String), g.Valid → (Net.exec (.addEdgeBidir a b []) (ofMG g)).2 = ofMG (addPairs g [(a, b), (b, a)]) := by
    intro g a b hg
    show (Net.addEdgeBidir a b [] (ofMG g)).2 = _
    rw [bidir_ofMG hg]
  have v0 : (⟨[], [], none⟩ : MG String A).Valid := ⟨List.nodup_nil, by simp⟩
  have e0 : (Net.empty : Net String A) = ofMG ⟨[], [], none⟩ := rfl
  unfold demoK4 Net.run
  simp only [List.foldl_cons, List.foldl_nil]
  rw [e0, hstep _ _ _ v0]
  have v1 := addPairs_valid [("1", "2"), ("2", "1")] v0
  rw [hstep _ _ _ v1]
  have v2 := addPairs_valid [("1", "3"), ("3", "1")] v1
  rw [hstep _ _ _ v2]
  have v3 := addPairs_valid [("2", "3"), ("3", "2")] v2
  rw [hstep _ _ _ v3]
  have v4 := addPairs_valid [("1", "4"), ("4", "1")] v3
  rw [hstep _ _ _ v4]
  have v5 := addPairs_valid [("2", "4"), ("4", "2")] v4
  rw [hstep _ _ _ v5]
  refine congrArg ofMG ?_
  simp [addPairs, MG.addEdge, ensure, MG.labels, k4]

theorem k4_labels (A : Type) : (k4 A).labels = ["1", "2", "3", "4"] := rfl

theorem k4_valid (A : Type) : (k4 A).Valid := by
  refine ⟨by rw [k4_labels]; decide, ?_⟩
  intro e he
  rw [k4_labels]
  simp only [k4, List.mem_cons, List.not_mem_nil, or_false] at he
  rcases he with rfl | rfl | rfl | rfl | rfl | rfl | rfl | rfl | rfl | rfl | rfl | rfl <;> simp

theorem k4_cubicMG (A : Type) : CubicMG (k4 A) := by
  refine cubicMG_check (k4_valid A) rfl ?_ ?_ ?_ ?_ ?_
  · intro p hp
    simp only [k4, List.mem_cons, List.not_mem_nil, or_false] at hp
    rcases hp with rfl | rfl | rfl | rfl <;> rfl
  · intro i hi j hj
    simp only [k4, MG.labels, List.map_cons, List.map_nil, List.mem_cons, List.not_mem_nil, or_false] at hi hj
    rcases hi with rfl | rfl | rfl | rfl <;> rcases hj with rfl | rfl | rfl | rfl <;> first | exact Or.inl rfl | exact Or.inr rfl
  · intro i hi
    simp only [k4, MG.labels, List.map_cons, List.map_nil, List.mem_cons, List.not_mem_nil, or_false] at hi
    rcases hi with rfl | rfl | rfl | rfl <;> rfl
  · intro i hi j hj
    simp only [k4, MG.labels, List.map_cons, List.map_nil, List.mem_cons, List.not_mem_nil, or_false] at hi hj
    rcases hi with rfl | rfl | rfl | rfl <;> rcases hj with rfl | rfl | rfl | rfl <;> rfl
  · intro i hi
    simp only [k4, MG.labels, List.map_cons, List.map_nil, List.mem_cons, List.not_mem_nil, or_false] at hi
    rcases hi with rfl | rfl | rfl | rfl <;> rfl

theorem k4_connected (A : Type) : ∀ x ∈ (ofMG (k4 A)).labels, ∀ y ∈ (ofMG (k4 A)).labels, Path (ofMG (k4 A)) x y := by
  intro x hx y hy
  by_cases e : x = y
  · rw [e]; exact Path.refl
  · refine Path.step Path.refl ?_
    unfold Adj
    rw [parallel_ofMG (k4_valid A)]
    simp only [labels_ofMG, k4, MG.labels, List.map_cons, List.map_nil, List.mem_cons, List.not_mem_nil, or_false] at hx hy
    rcases hx with rfl | rfl | rfl | rfl <;> rcases hy with rfl | rfl | rfl | rfl <;> first
      | exact absurd rfl e
      | exact List.cons_ne_nil _ _

section
variable {A V I σ κ : Type} [DecidableEq V] [DecidableEq κ]

/-- C97 for the network of the demo: for every number of timesteps, state `t` is a connected network of `4 * 3 ^ t` nodes with three
neighbours each. -/
theorem C97_demo {cfg : Config String A V I σ κ} {T : Nat} (h : TopologyCall cfg (expandRule cfg.labelCodec cfg.attrCodec) T)
    (hl : ∀ x, cfg.labelCodec.ExactAt x) (hT : 1 ≤ T) {init : Option (Conds String V)} {r : Nat} {w : World String A σ}
    (hr : w.heap[r]? = some (demoK4 A)) {fuel : Nat} (hf : T ≤ fuel) :
    ∃ res, evolve fuel cfg init r w = .ok res ∧ res.states.length = T ∧ ∀ t, t < T → ∃ N, res.net cfg t = some N ∧
      Cubic N ∧ N.labels.length = 4 * 3 ^ t ∧ ∀ x ∈ N.labels, ∀ y ∈ N.labels, Path N x y := by
  rw [demoK4_eq] at hr
  obtain ⟨res, Ns, e1, e2, e3, e4, e5⟩ := C97_run h (k4_valid A) (cubic_of (k4_cubicMG A))
    (by rw [k4_labels]; unfold FreshLabels; decide) (by rw [k4_labels]; simp) hl hT hr hf (init := init)
  refine ⟨res, e1, e2, fun t ht => ⟨Ns t, (e4 t ht).1, (e4 t ht).2.1, ?_, ?_⟩⟩
  · rw [C97_sizes e5 t ht, e3, labels_ofMG, Nat.mul_comm]
    rfl
  · induction t with
    | zero =>
      rw [e3]
      exact k4_connected A
    | succ t ih =>
      obtain ⟨corner, k⟩ := e5 t ht
      exact C97_connected k (e4 t (by omega)).2.1 (ih (by omega))

end

/-! ## Concrete cases -/

/-- msgpack on strings. -/
def Ex.strCodec : Codec String := ⟨fun _ => .ok (), fun x => x⟩

/-- A call with string labels. -/
def Ex.evolving (T : Nat) : Config String Int Int Int (List Int) Unit :=
  { rule := none, input := .timesteps T, topology := some (expandRule Ex.strCodec Ex.intCodec), perturbation := none, past := [],
    order := .activitiesFirst, copyNetwork := true, compression := false, persistActs := true, persistNet := true,
    memoize := false, key := none, natLabel := toString, labelIdx := fun _ => none, actAttr := id,
    labelCodec := Ex.strCodec, attrCodec := Ex.intCodec, valCodec := Ex.intCodec }

/-- The hypotheses of C97 are met by the demo. -/
example : ∃ res, evolve 4 (Ex.evolving 4) none 0 ⟨[demoK4 Int], []⟩ = .ok res ∧ res.states.length = 4 ∧
    ∀ t, t < 4 → ∃ N, res.net (Ex.evolving 4) t = some N ∧ Cubic N ∧ N.labels.length = 4 * 3 ^ t ∧
      ∀ x ∈ N.labels, ∀ y ∈ N.labels, Path N x y :=
  C97_demo (cfg := Ex.evolving 4) ⟨rfl, rfl, rfl, rfl, rfl, rfl⟩ (fun _ => ⟨rfl, rfl⟩) (by decide) rfl (by decide)

/-- A node with four neighbours. -/
def Ex.star4 : MG String Int :=
  ⟨[("0", []), ("1", []), ("2", []), ("3", []), ("4", [])], [⟨"1", "0", []⟩, ⟨"2", "0", []⟩, ⟨"3", "0", []⟩, ⟨"4", "0", []⟩], none⟩

/-- The hypotheses of `C97_four` are met. -/
example : evolve 4 (Ex.evolving 4) none 0 ⟨[ofMG Ex.star4], []⟩ = .error .indexError :=
  C97_four (cfg := Ex.evolving 4) (g0 := Ex.star4) ⟨rfl, rfl, rfl, rfl, rfl, rfl⟩ ⟨by decide, by decide⟩
    (x := "0") (k1 := "1") (k2 := "2") (k3 := "3") (k4 := "4") rfl rfl (by decide)
    (fun _ _ => ⟨rfl, rfl⟩) (fun _ _ _ _ => ⟨rfl, rfl⟩) (fun _ _ _ _ => ⟨rfl, rfl⟩) (by decide) rfl (by decide)

end Verif
