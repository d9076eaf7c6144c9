import Verif.Proofs.Fungal
import Verif.Proofs.CARun
import Verif.Proofs.EvolutionValue
/-! # Properties of the fungal growth model: C73, C74 -/

namespace Verif
open Spec

/-! ## The lattice -/

namespace Spec

/-- Two places of a cycle of length `k` that follow each other. -/
def Adjacent (k a b : Nat) : Prop := (a + 1) % k = b ∨ (b + 1) % k = a

/-- The links of the torus with `w` columns and `h` rows, where the node in row `r` and column `c` has the label `r * w + c`;
a node is not linked to itself. -/
def Torus (w h i j : Nat) : Prop :=
  i ≠ j ∧ i < w * h ∧ j < w * h ∧ ((i / w = j / w ∧ Adjacent w (i % w) (j % w)) ∨ (i % w = j % w ∧ Adjacent h (i / w) (j / w)))

instance (k a b : Nat) : Decidable (Adjacent k a b) := inferInstanceAs (Decidable (_ ∨ _))
instance (w h i j : Nat) : Decidable (Torus w h i j) := inferInstanceAs (Decidable (_ ∧ _))

end Spec

theorem adjacent_cases {k a b : Nat} (ha : a < k) (hb : b < k) (h : Adjacent k a b) : b = (a + 1) % k ∨ b = (a + k - 1) % k := by
  rcases h with h | h
  · exact Or.inl h.symm
  · right
    by_cases h1 : b + 1 < k
    · rw [Nat.mod_eq_of_lt h1] at h
      subst h
      have : b + 1 + k - 1 = b + k := by omega
      rw [this, Nat.add_mod_right, Nat.mod_eq_of_lt hb]
    · have h2 : b + 1 = k := by omega
      rw [h2, Nat.mod_self] at h
      subst h
      rw [Nat.zero_add, Nat.mod_eq_of_lt (by omega)]
      omega

/-- C73: the links of a torus of any size have the properties required of the lattice. -/
theorem C73_torus (w h : Nat) : Lattice (w * h) (Torus w h) := by
  refine ⟨?_, fun i hi => hi.1 rfl, fun i j hij => hij.2.1, ?_⟩
  · rintro i j ⟨h1, h2, h3, h4⟩
    refine ⟨fun e => h1 e.symm, h3, h2, ?_⟩
    rcases h4 with ⟨a, b⟩ | ⟨a, b⟩
    · exact Or.inl ⟨a.symm, b.symm⟩
    · exact Or.inr ⟨a.symm, b.symm⟩
  · intro x ys hnd hys
    have hsub : ys ⊆ [w * (x / w) + (x % w + 1) % w, w * (x / w) + (x % w + w - 1) % w,
        w * ((x / w + 1) % h) + x % w, w * ((x / w + h - 1) % h) + x % w] := by
      intro y hy
      obtain ⟨_, h2, h3, h4⟩ := hys y hy
      have hw : 0 < w := by
        rcases Nat.eq_zero_or_pos w with h0 | h0
        · subst h0; simp at h2
        · exact h0
      have hdiv : ∀ z, z < w * h → z / w < h := fun z hz => Nat.div_lt_of_lt_mul hz
      have e := Nat.div_add_mod y w
      rcases h4 with ⟨a, b⟩ | ⟨a, b⟩
      · rcases adjacent_cases (Nat.mod_lt _ hw) (Nat.mod_lt _ hw) b with b | b
        · rw [← a, b] at e
          simp [← e]
        · rw [← a, b] at e
          simp [← e]
      · rcases adjacent_cases (hdiv x h2) (hdiv y h3) b with b | b
        · rw [← a, b] at e
          simp [← e]
        · rw [← a, b] at e
          simp [← e]
    simpa using List.Nodup.length_le_of_subset hnd hsub

/-! ## The topology rule -/

/-- C73: if each link carries at most one edge, then a node with a free link has fewer than four edges, and the growth
probability is between 0 (exclusive) and 1. -/
theorem C73_probability {n : Nat} {E : Nat → Nat → Prop} (hE : Lattice n E) {as : List (Nat × Nat)} (ha : Exclusive E as) {x y : Nat}
    (hxy : E x y) (hf : Free as (x, y)) :
    Spec.degree as x < 4 ∧ 0 < 1 / (4 - (Spec.degree as x : Rat)) ∧ 1 / (4 - (Spec.degree as x : Rat)) ≤ 1 := by
  have h := fDegree_lt hE ha hxy hf
  refine ⟨h, ?_⟩
  generalize Spec.degree as x = d at h
  have : d = 0 ∨ d = 1 ∨ d = 2 ∨ d = 3 := by omega
  rcases this with rfl | rfl | rfl | rfl <;> decide +kernel

/-- C73: the topology rule does not raise, returns a network in which each link carries at most one edge and in which the edges
have their weights, and lets the network grow as specified. -/
theorem C73_topology_rule {n : Nat} {E : Nat → Nat → Prop} (hE : Lattice n E) {g : MG Nat Rat} (hg : Fungal n E g)
    {cl : Codec Nat} {ca : Codec Rat} (hcl : ∀ x, x < n → cl.ExactAt x) (hca : ∀ d : Nat, 0 < d → ca.ExactAt (1 / (d : Rat)))
    {links : Nat → List (Nat × Nat)} (hv : ∀ t, Visits E (links t)) (rnd s : Nat → Rat) {acts : Dict Nat Rat}
    (hs : ∀ x, x < n → acts.get? x = some (s x)) (t u : Nat) :
    ∃ g' u' draw, fungalTopology cl ca links rnd ⟨ofMG g, acts, t⟩ u = .ok (⟨ofMG g, .fresh (ofMG g')⟩, u') ∧ u ≤ u' ∧
      Fungal n E g' ∧ Growth (links t) s rnd u u' (arcs g) (arcs g') draw := by
  obtain ⟨g', h1, h2, h3⟩ := fTopology_ok hE hg hcl hca hv rnd s hs t u
  obtain ⟨draw, h4⟩ := fGrowth hE (as := arcs g) (hv t) s rnd u
  refine ⟨g', _, draw, h1, fGrow_count _ _ _ _ _, h2, ?_⟩
  rw [h3]
  exact h4

/-- C73: the weights of the edges from a node sum to 1. -/
theorem C73_weights {n : Nat} {E : Nat → Nat → Prop} {g : MG Nat Rat} (hg : Fungal n E g) {e : Edge Nat Rat} (he : e ∈ g.edges) :
    ((g.edges.filter (fun f => decide (f.src = e.src))).map weight).sum = 1 := by
  have h1 : 0 < Spec.outDegree (arcs g) e.src := outDegree_pos (List.mem_map.2 ⟨e, he, rfl⟩ : (e.src, e.dst) ∈ arcs g)
  have h2 := fungal_out hg (fun _ => 1) e.src h1
  rw [← h2]
  congr 1
  apply List.map_congr_left
  intro f _
  simp [sent, Rat.mul_one]

/-! ## The activity rule -/

/-- The settings of a run for the activity rule. -/
structure FungalActs {I κ : Type} [DecidableEq κ] (cfg : Config Nat Rat Rat I Nat κ) (RE : Rat) (layer : List Rat) : Prop where
  rule : cfg.rule = some (pureRule (fungalRule RE layer))
  perturbation : cfg.perturbation = none
  memoize : cfg.memoize = false

/-- C74: in every network with the nodes `0 .. n-1` and weighted edges, and for all activities, the activities of the nodes after a
timestep are those specified, and the sum of the activities is what is sent along the edges, plus what is kept by the nodes without
incoming edges, plus `RE` times the resource layer for every live node.  (Of parallel edges, only the oldest one counts.) -/
theorem C74_balance {I κ : Type} [DecidableEq κ] {cfg : Config Nat Rat Rat I Nat κ} {RE : Rat} {layer : List Rat}
    (hc : FungalActs cfg RE layer) {g : MG Nat Rat} {n : Nat} (hg : g.Valid) (hn : g.labels = List.range n) (hr : g.rot = none)
    (hw : ∀ e ∈ g.edges, (e.attr.get? "weight").isSome) (hl : layer.length = n) {acts : Dict Nat Rat} {s : Nat → Rat}
    (hs : ∀ x, x < n → acts.get? x = some (s x)) (ks : KeySpec Nat Rat Rat I κ) (t : Nat)
    (past : Option (List (Option (Dict Nat Rat)))) {nmap : Option (Dict Nat (List Nat))} (hnm : NmapOk nmap (ofMG g))
    (memo : Memo Rat κ) (u : Nat) :
    ∃ acc s', computeActs cfg ks t .timestep acts (ofMG g) past nmap memo u = .ok acc ∧ acc.user = u ∧
      acc.curr = (List.range n).map (fun x => (x, s' x)) ∧
      (∀ x, s' x = nextIn RE (fun x => (layer[x]?).getD 0) g s x) ∧
      total n s' = ((firsts g.edges).map (sent s)).sum + total n (fun x => if MG.inCount g.edges x = 0 then s x else 0)
        + total n (fun x => if 0 < s x then RE * (layer[x]?).getD 0 else 0) :=
  ⟨_, _, fActs_ok hc.rule hc.perturbation hc.memoize hg hn hr hw hl hs ks t past hnm memo u, rfl, rfl, fun _ => rfl,
    total_nextIn hg hn RE _ s⟩

/-- C74, for the networks of the model: every node with outgoing edges sends all it has, and every node without incoming edges
keeps all it has. -/
theorem C74_collapsed {n : Nat} {E : Nat → Nat → Prop} {g : MG Nat Rat} (hg : Fungal n E g) (RE : Rat) (layer s : Nat → Rat) :
    total n (Spec.next RE layer (arcs g) s) = total n (fun x => if 0 < Spec.outDegree (arcs g) x then s x else 0)
      + total n (fun x => if ∃ p ∈ arcs g, p.2 = x then 0 else s x) + total n (fun x => if 0 < s x then RE * layer x else 0) := by
  have h1 : total n (Spec.next RE layer (arcs g) s) = total n (nextIn RE layer g s) :=
    total_congr (fun x _ => (nextIn_eq hg RE layer s x).symm)
  rw [h1, total_nextIn hg.valid (fungal_labels hg), fungal_firsts hg, fungal_sent_total hg]
  congr 2
  apply total_congr
  intro x _
  have : MG.inCount g.edges x = 0 ↔ ¬ ∃ p ∈ arcs g, p.2 = x := by
    rw [fIn_eq, List.length_eq_zero_iff, List.filter_eq_nil_iff]
    simp only [decide_eq_true_eq, not_exists, not_and]
  by_cases h : MG.inCount g.edges x = 0
  · rw [if_pos h, if_neg (this.1 h)]
  · rw [if_neg h, if_pos (Classical.not_not.1 (fun h' => h (this.2 h')))]

theorem layer_fold (ps : List (Rat × Nat)) : ∀ layer : List Rat, (∀ p ∈ ps, p.2 < layer.length) →
    ∃ layer', ps.foldlM (fun layer p => pySet layer (p.2 : Int) 1) layer = .ok layer' ∧ layer'.length = layer.length ∧
      ∀ (i : Nat), i < layer.length → layer'[i]? = if ∃ p ∈ ps, p.2 = i then some 1 else layer[i]? := by
  induction ps with
  | nil => intro layer _; exact ⟨layer, rfl, rfl, by simp⟩
  | cons p ps ih =>
    intro layer h
    obtain ⟨l', h1, h2, h3⟩ := ih (layer.set p.2 1) (by intro q hq; rw [List.length_set]; exact h q (by simp [hq]))
    rw [List.length_set] at h2 h3
    refine ⟨l', ?_, h2, ?_⟩
    · rw [List.foldlM_cons, pySet_natCast _ (h p (by simp))]
      exact h1
    · intro i hi
      rw [h3 i hi]
      by_cases hp : p.2 = i
      · subst hp
        rw [if_pos (show ∃ q ∈ p :: ps, q.2 = p.2 from ⟨p, by simp, rfl⟩)]
        split
        · rfl
        · simp [hi]
      · rw [List.getElem?_set_ne hp]
        have : (∃ q ∈ p :: ps, q.2 = i) ↔ ∃ q ∈ ps, q.2 = i := by simp [hp]
        simp only [this]

/-- C74: without a resource layer (or with an empty one), the layer is 1 where the initial conditions are not 0; a given layer of
the right size is used as it is, and one of another size is rejected. -/
theorem C74_layer (agents : Nat) (init : List Rat) :
    (∀ given, given = none ∨ given = some [] → init.length ≤ agents →
      ∃ layer, fungalLayer agents init given = .ok layer ∧ layer.length = agents ∧
        ∀ (i : Nat), i < agents → layer[i]? = some (if (init[i]?).getD 0 = 0 then 0 else 1)) ∧
    (∀ given, given ≠ [] → fungalLayer agents init (some given) = if given.length = agents then .ok given else .error .assertion) := by
  refine ⟨?_, ?_⟩
  · intro given hgiv hlen
    have e : fungalLayer agents init given = (init.zipIdx.filter (fun p => decide (p.1 ≠ 0))).foldlM
        (fun layer p => pySet layer (p.2 : Int) 1) (List.replicate agents 0) := by
      rcases hgiv with rfl | rfl <;> rfl
    have hmem : ∀ p ∈ init.zipIdx.filter (fun p => decide (p.1 ≠ 0)), p.1 ≠ 0 ∧ init[p.2]? = some p.1 := by
      intro p hp
      rw [List.mem_filter] at hp
      exact ⟨of_decide_eq_true hp.2, by simpa using List.mem_zipIdx_iff_getElem?.1 hp.1⟩
    obtain ⟨layer, h1, h2, h3⟩ := layer_fold (init.zipIdx.filter (fun p => decide (p.1 ≠ 0))) (List.replicate agents 0) (by
      intro p hp
      have := (List.getElem?_eq_some_iff.1 (hmem p hp).2).1
      rw [List.length_replicate]
      omega)
    rw [List.length_replicate] at h2 h3
    refine ⟨layer, e.trans h1, h2, ?_⟩
    intro i hi
    rw [h3 i hi]
    by_cases h0 : (init[i]?).getD 0 = 0
    · rw [if_pos h0, if_neg]
      · simp [hi]
      · rintro ⟨p, hp, rfl⟩
        obtain ⟨g1, g2⟩ := hmem p hp
        rw [g2] at h0
        exact g1 h0
    · rw [if_neg h0, if_pos]
      cases hv : init[i]? with
      | none => rw [hv] at h0; exact absurd rfl h0
      | some v =>
        rw [hv] at h0
        exact ⟨(v, i), List.mem_filter.2 ⟨List.mem_zipIdx_iff_getElem?.2 (by simpa using hv), decide_eq_true h0⟩, rfl⟩
  · intro given hg
    cases given with
    | nil => exact absurd rfl hg
    | cons a l => rfl

/-! ## Runs -/

/-- The settings of a run of `T` timesteps. -/
structure FungalRun {I κ : Type} [DecidableEq κ] (cfg : Config Nat Rat Rat I Nat κ) (n : Nat) (E : Nat → Nat → Prop)
    (links : Nat → List (Nat × Nat)) (rnd : Nat → Rat) (RE : Rat) (layer : List Rat) (T : Nat) : Prop where
  acts : FungalActs cfg RE layer
  top : cfg.topology = some (fungalTopology cfg.labelCodec cfg.attrCodec links rnd)
  order : cfg.order = .topologyFirst
  input : cfg.input = .timesteps T
  natLabel : cfg.natLabel = id
  labels : ∀ x, x < n → cfg.labelCodec.ExactAt x
  attrs : ∀ d : Nat, 0 < d → cfg.attrCodec.ExactAt (1 / (d : Rat))
  pos : 0 < n
  lattice : Lattice n E
  visits : ∀ t, Visits E (links t)
  layer : layer.length = n

/-- The network, the resources of the nodes, and the number of random numbers drawn so far. -/
structure FState where
  g : MG Nat Rat
  s : Nat → Rat
  u : Nat

/-- The activities and the network of a timestep are those of the state. -/
structure Shows (n : Nat) (p : Dict Nat Rat × Net Nat Rat) (a : FState) : Prop where
  net : p.2 = ofMG a.g
  keys : p.1.keys = List.range n
  acts : ∀ x, x < n → p.1.get? x = some (a.s x)

/-- Timestep `t` leads from `a` to `b`. -/
structure FStep (links : Nat → List (Nat × Nat)) (rnd : Nat → Rat) (RE : Rat) (layer : List Rat) (t : Nat) (a b : FState) : Prop where
  growth : ∃ draw, Growth (links t) a.s rnd a.u b.u (arcs a.g) (arcs b.g) draw
  acts : ∀ x, b.s x = Spec.next RE (fun x => (layer[x]?).getD 0) (arcs b.g) a.s x

theorem fungal_step {I κ : Type} [DecidableEq κ] {cfg : Config Nat Rat Rat I Nat κ} {n : Nat} {E : Nat → Nat → Prop}
    {links : Nat → List (Nat × Nat)} {rnd : Nat → Rat} {RE : Rat} {layer : List Rat} {T : Nat}
    (hc : FungalRun cfg n E links rnd RE layer T) (ks : KeySpec Nat Rat Rat I κ) (v : VLoop Nat Rat Rat Nat κ)
    (hpos : 1 ≤ v.hist.length) (hnm : v.nmap = none) {a : FState} (ha : Fungal n E a.g) (hn : v.net = ofMG a.g) (hu : v.user = a.u)
    (hs : ∀ x, x < n → v.acts.get? x = some (a.s x)) :
    ∃ b v', vstep cfg ks .timestep v = .ok v' ∧ v'.nmap = none ∧ Fungal n E b.g ∧ v'.user = b.u ∧
      Shows n (v'.acts, v'.net) b ∧ v'.hist = v.hist ++ [(v'.acts, v'.net)] ∧ FStep links rnd RE layer v.hist.length a b := by
  have hobs : v.hist.length ≤ (obsHist cfg v.hist).length := by simp [obsHist]
  obtain ⟨g', u', draw, h1, _, h3, h4⟩ :=
    C73_topology_rule hc.lattice ha hc.labels hc.attrs hc.visits rnd a.s hs v.hist.length a.u
  have hne : (ofMG g').nodes.isEmpty = false := by
    have : (ofMG g').nodes ≠ [] := by
      intro h
      have h5 := labels_ofMG g'
      rw [fungal_labels h3] at h5
      have h6 : (ofMG g').labels = [] := by unfold Net.labels; rw [h]; rfl
      rw [h6] at h5
      have := congrArg List.length h5
      have := hc.pos
      simp at *
      omega
    simpa using this
  have htopo : topoV cfg v.hist.length v.acts (ofMG a.g) [] [] a.u = .ok (ofMG g', u') := by
    have hr : ruleV (fungalTopology cfg.labelCodec cfg.attrCodec links rnd) v.hist.length v.acts (ofMG a.g) a.u = .ok (ofMG g', u') := by
      unfold ruleV
      rw [h1]
      simp only [TopOut.value, hne, Bool.false_eq_true, if_false]
    unfold topoV reqsV
    simp only [List.isEmpty_nil, Bool.and_self, if_true, hc.top, fungal_copy ha hc.labels hc.attrs, hr, ite_self]
  have hacts := fActs_ok hc.acts.rule hc.acts.perturbation hc.acts.memoize h3.valid (fungal_labels h3) h3.rot
    (fun e he => by rw [fungal_weight h3 he]; rfl) hc.layer hs ks v.hist.length
  refine ⟨⟨g', nextIn RE (fun x => (layer[x]?).getD 0) g' a.s, u'⟩, ?_⟩
  unfold vstep
  rw [pastV_eq cfg _ _ hpos hobs, hn, hu, hc.order]
  simp only [htopo]
  rw [hacts _ (by rw [hnm]; exact Or.inl rfl)]
  refine ⟨_, rfl, hnm, h3, rfl, ⟨rfl, ?_, ?_⟩, rfl, ⟨⟨draw, h4⟩, fun x => nextIn_eq h3 RE (fun x => (layer[x]?).getD 0) a.s x⟩⟩
  · simp [Dict.keys, Function.comp_def]
  · intro x hx
    exact Dict.get?_of_mem (by simp [Dict.keys, Function.comp_def, List.nodup_range]) (List.mem_map.2 ⟨x, by simpa using hx, rfl⟩)

/-- The states explain the history. -/
structure FChain (n : Nat) (E : Nat → Nat → Prop) (links : Nat → List (Nat × Nat)) (rnd : Nat → Rat) (RE : Rat) (layer : List Rat)
    (hist : List (Dict Nat Rat × Net Nat Rat)) (sts : List FState) : Prop where
  len : hist.length = sts.length
  shown : ∀ (t : Nat) p a, hist[t]? = some p → sts[t]? = some a → Shows n p a
  fungal : ∀ a ∈ sts, Fungal n E a.g
  step : ∀ (t : Nat) a b, sts[t]? = some a → sts[t + 1]? = some b → FStep links rnd RE layer (t + 1) a b

theorem fChain_append {n : Nat} {E : Nat → Nat → Prop} {links : Nat → List (Nat × Nat)} {rnd : Nat → Rat} {RE : Rat} {layer : List Rat}
    {hist : List (Dict Nat Rat × Net Nat Rat)} {pre : List FState} {a b : FState} {p : Dict Nat Rat × Net Nat Rat}
    (h : FChain n E links rnd RE layer hist (pre ++ [a])) (hb : Fungal n E b.g) (hp : Shows n p b)
    (hs : FStep links rnd RE layer hist.length a b) : FChain n E links rnd RE layer (hist ++ [p]) (pre ++ [a] ++ [b]) := by
  have hlen := h.len
  refine ⟨by simp [hlen], ?_, ?_, ?_⟩
  · intro t q c hq hc
    by_cases ht : t < hist.length
    · rw [List.getElem?_append_left ht] at hq
      rw [List.getElem?_append_left (by omega)] at hc
      exact h.shown t q c hq hc
    · have := (List.getElem?_eq_some_iff.1 hq).1
      simp only [List.length_append, List.length_singleton] at this
      have ht' : t = hist.length := by omega
      subst ht'
      rw [List.getElem?_append_right (by omega)] at hq hc
      simp only [Nat.sub_self, List.getElem?_cons_zero, Option.some.injEq, hlen] at hq hc
      subst hq hc
      exact hp
  · intro c hc
    rcases List.mem_append.1 hc with hc | hc
    · exact h.fungal c hc
    · simp at hc; subst hc; exact hb
  · intro t c d hc hd
    by_cases ht : t + 1 < (pre ++ [a]).length
    · rw [List.getElem?_append_left (by omega)] at hc
      rw [List.getElem?_append_left ht] at hd
      exact h.step t c d hc hd
    · have := (List.getElem?_eq_some_iff.1 hd).1
      simp only [List.length_append, List.length_singleton] at this ht hlen
      have ht' : t = pre.length := by omega
      subst ht'
      rw [List.getElem?_append_left (by simp)] at hc
      rw [List.getElem?_append_right (by simp)] at hd
      simp at hc hd
      subst hc hd
      rw [hlen] at hs
      exact hs

theorem fungal_loop {I κ : Type} [DecidableEq κ] {cfg : Config Nat Rat Rat I Nat κ} {n : Nat} {E : Nat → Nat → Prop}
    {links : Nat → List (Nat × Nat)} {rnd : Nat → Rat} {RE : Rat} {layer : List Rat} {T : Nat}
    (hc : FungalRun cfg n E links rnd RE layer T) (ks : KeySpec Nat Rat Rat I κ) (k : Nat) :
    ∀ (f : Nat) (pre : List FState) (a : FState) (v : VLoop Nat Rat Rat Nat κ), k < f → v.hist.length + k = T → v.nmap = none →
      v.user = a.u → Shows n (v.acts, v.net) a → FChain n E links rnd RE layer v.hist (pre ++ [a]) →
      ∃ v' more, vloop cfg ks f v = .ok v' ∧ v'.hist.length = T ∧ FChain n E links rnd RE layer v'.hist (pre ++ a :: more) := by
  induction k with
  | zero =>
    intro f pre a v hf hT _ _ _ h
    obtain ⟨f, rfl⟩ : ∃ f', f = f' + 1 := ⟨f - 1, by omega⟩
    unfold vloop callInput
    rw [hc.input]
    simp only [show ((v.hist.length : Int) = (T : Int)) from by omega, if_true]
    exact ⟨_, [], rfl, by simpa using hT, h⟩
  | succ k ih =>
    intro f pre a v hf hT hnm hu hsh h
    obtain ⟨f, rfl⟩ : ∃ f', f = f' + 1 := ⟨f - 1, by omega⟩
    have hlen : v.hist.length = pre.length + 1 := by
      have := h.len
      simpa using this
    obtain ⟨b, v', h1, h2, h3, h4, h5, h6, h7⟩ :=
      fungal_step hc ks v (by omega) hnm (h.fungal a (by simp)) hsh.net hu hsh.acts
    unfold vloop callInput
    rw [hc.input]
    simp only [show ¬ ((v.hist.length : Int) = (T : Int)) from by omega, if_false]
    rw [h1]
    simp only
    obtain ⟨v'', more, g1, g2, g3⟩ := ih f (pre ++ [a]) b v' (by omega) (by rw [h6]; simp; omega) h2 h4 h5
      (by rw [h6]; exact fChain_append h h3 h5 h7)
    exact ⟨v'', b :: more, g1, g2, by simpa using g3⟩

/-- The network at the start: no edges. -/
def fStart (n : Nat) : MG Nat Rat := ⟨(List.range n).map (fun x => (x, [])), [], none⟩

theorem fStart_ofMG (n : Nat) : ofMG (fStart n) = Net.ofSize n := by
  simp [ofMG, fStart, Net.ofSize, Function.comp_def, nodeOf, MG.inCount, MG.outCount, incomingOf, MG.sources, MG.dedup, Dict.ofKeys,
    Net.newNode]

theorem fStart_fungal (n : Nat) (E : Nat → Nat → Prop) : Fungal n E (fStart n) := by
  refine ⟨⟨?_, by intro e he; cases he⟩, rfl, rfl, ⟨?_, by simp [arcs, fStart]⟩, by intro e he; cases he⟩
  · simp [MG.labels, fStart, Function.comp_def, List.nodup_range]
  · intro p hp; simp [arcs, fStart] at hp

/-- C73, C74 for runs: a run of the model on any lattice, with any random numbers, any order of the links and any number of
timesteps does not raise, and there is a sequence of states, shown by the returned states, such that: the first has the initial
conditions and no edges; in each, every link carries at most one edge and every edge has the weight `1 / out-degree` (`Fungal`);
and each arises from the one before by the specified growth and the specified exchange of resources (`FStep`). -/
theorem C73_run {I κ : Type} [DecidableEq κ] {cfg : Config Nat Rat Rat I Nat κ} {n : Nat} {E : Nat → Nat → Prop}
    {links : Nat → List (Nat × Nat)} {rnd : Nat → Rat} {RE : Rat} {layer : List Rat} {T : Nat}
    (hc : FungalRun cfg n E links rnd RE layer T) (hT : 1 ≤ T) (hp : cfg.PackOk) {init : List Rat} (hi : init.length = n)
    {r : Nat} {wd : World Nat Rat Nat} (hr : wd.heap[r]? = some (Net.ofSize n)) {f : Nat} (hf : T ≤ f) :
    ∃ res, ∃ sts : List FState, ∃ a hist, evolve f cfg (some (.list init)) r wd = .ok res ∧ sts.length = T ∧
      sts[0]? = some a ∧ arcs a.g = [] ∧ a.u = wd.user ∧ (∀ x, x < n → init[x]? = some (a.s x)) ∧
      (∀ a ∈ sts, Fungal n E a.g) ∧
      (∀ (t : Nat) a b, sts[t]? = some a → sts[t + 1]? = some b → FStep links rnd RE layer (t + 1) a b) ∧
      Observes cfg res hist ∧ hist.length = T ∧ (∀ (t : Nat) p a, hist[t]? = some p → sts[t]? = some a → Shows n p a) := by
  have hs : cfg.Safe := by
    refine Or.inr ?_
    intro rule hrule ctx u o u' ho
    rw [hc.top] at hrule
    cases hrule
    unfold fungalTopology at ho
    revert ho
    cases ctx.net.copy cfg.labelCodec cfg.attrCodec with
    | error e => intro ho; cases ho
    | ok new =>
      simp only
      cases (links ctx.t).foldlM (fungalLink rnd ctx.net ctx.activities) (new, u) with
      | error e => intro ho; cases ho
      | ok q =>
        simp only
        rcases NetM.forEach q.1.edges fungalWeight q.1 with ⟨e | e, m⟩
        · intro ho; cases ho
        · intro ho; cases ho; rfl
  obtain ⟨i1, i2, i3⟩ := initDict_list hc.natLabel (cfg := cfg) init
  rw [← fStart_ofMG] at hr
  have hck : vcheck cfg (initDict cfg (some (.list init))) (ofMG (fStart n)) = .ok () := by
    unfold vcheck
    rw [hc.input, i1, hi, size_ofMG, fungal_labels (fStart_fungal n E)]
    simp
  let a : FState := ⟨fStart n, fun x => (init[x]?).getD 0, wd.user⟩
  have hsh : Shows n (initDict cfg (some (.list init)), ofMG (fStart n)) a := by
    refine ⟨rfl, by rw [← hi]; exact i2, ?_⟩
    intro x hx
    rw [i3 x (by omega)]
    have : init[x]? = some (init[x]'(by omega)) := List.getElem?_eq_getElem _
    simp only [a, this, Option.getD_some]
  obtain ⟨v, more, h1, h2, h3⟩ := fungal_loop hc (effectiveKey cfg (ofMG (fStart n))) (T - 1) f [] a
    (vinit cfg (initDict cfg (some (.list init))) (ofMG (fStart n)) wd.user) (by omega) (by simp [vinit]; omega)
    (by simp [vinit, hc.top]) rfl hsh (by
      refine ⟨rfl, ?_, ?_, ?_⟩
      · intro t p c hp hc
        cases t with
        | zero => simp [vinit] at hp hc; subst hp hc; exact hsh
        | succ t => simp at hc
      · intro c hc; simp at hc; subst hc; exact fStart_fungal n E
      · intro t c d _ hd; simp at hd)
  have hev : vevolve f cfg (some (.list init)) (ofMG (fStart n)) wd.user = .ok v := by
    unfold vevolve
    rw [hck]
    exact h1
  obtain ⟨res, ext, e1, _, e3⟩ := evolve_of_vevolve hs hp hr hev
  rw [List.nil_append] at h3
  refine ⟨res, a :: more, a, v.hist, e1, ?_, rfl, rfl, rfl, ?_, h3.fungal, h3.step, e3, h2, h3.shown⟩
  · rw [← h3.len, h2]
  · intro x hx
    have : init[x]? = some (init[x]'(by omega)) := List.getElem?_eq_getElem _
    simp only [a, this, Option.getD_some]

/-- C74 for runs: the balance of a timestep. -/
theorem C74_step {n : Nat} {E : Nat → Nat → Prop} {links : Nat → List (Nat × Nat)} {rnd : Nat → Rat} {RE : Rat} {layer : List Rat}
    {t : Nat} {a b : FState} (hb : Fungal n E b.g) (h : FStep links rnd RE layer t a b) :
    total n b.s = (b.g.edges.map (fun e => a.s e.src / (Spec.outDegree (arcs b.g) e.src : Rat))).sum
      + total n (fun x => if ∃ p ∈ arcs b.g, p.2 = x then 0 else a.s x)
      + total n (fun x => if 0 < a.s x then RE * (layer[x]?).getD 0 else 0) := by
  have h1 : total n b.s = total n (Spec.next RE (fun x => (layer[x]?).getD 0) (arcs b.g) a.s) := total_congr (fun x _ => h.acts x)
  rw [h1, C74_collapsed hb, ← fungal_sent_total hb]
  congr 3
  apply List.map_congr_left
  intro e he
  exact fungal_sent hb he a.s

/-! ## Examples -/

namespace ExFungal

/-- The links of the torus with three columns and two rows. -/
def links : List (Nat × Nat) := [(0, 1), (2, 1), (0, 2), (3, 4), (4, 5), (5, 3), (0, 3), (4, 1), (2, 5)]

theorem torus_range {w h i j : Nat} (hij : Torus w h i j) : i < w * h ∧ j < w * h := ⟨hij.2.1, hij.2.2.1⟩

theorem visits : Visits (Torus 3 2) links := by
  refine ⟨by decide, ?_, ?_⟩
  · intro i j hij
    have h := torus_range hij
    have : ∀ i j : Fin 6, Torus 3 2 i j → ((i : Nat), (j : Nat)) ∈ links ∨ ((j : Nat), (i : Nat)) ∈ links := by decide
    exact this ⟨i, h.1⟩ ⟨j, h.2⟩ hij
  · unfold SameLink; decide

/-- The random numbers. -/
def rnd (k : Nat) : Rat := ([1/5, 3/4, 1/10, 0, 9/10, 1/2].getD k (2/5))

def cfg (T : Nat) : Config Nat Rat Rat Unit Nat Unit :=
  { rule := some (pureRule (fungalRule (1/2) [1, 0, 0, 0, 1, 0])), input := .timesteps T,
    topology := some (fungalTopology ⟨fun _ => .ok (), id⟩ ⟨fun _ => .ok (), id⟩ (fun _ => links) rnd), perturbation := none, past := [],
    order := .topologyFirst, copyNetwork := false, compression := true, persistActs := true, persistNet := true,
    memoize := false, key := none, natLabel := id, labelIdx := fun x => some (x : Int), actAttr := id,
    labelCodec := ⟨fun _ => .ok (), id⟩, attrCodec := ⟨fun _ => .ok (), id⟩, valCodec := ⟨fun _ => .ok (), id⟩ }

theorem run (T : Nat) : FungalRun (cfg T) 6 (Torus 3 2) (fun _ => links) rnd (1/2) [1, 0, 0, 0, 1, 0] T :=
  ⟨⟨rfl, rfl, rfl⟩, rfl, rfl, rfl, rfl, fun _ _ => ⟨rfl, rfl⟩, fun _ _ => ⟨rfl, rfl⟩, by decide, C73_torus 3 2, fun _ => visits, rfl⟩

/-- A network with two edges from node 0. -/
def g : MG Nat Rat := ⟨(List.range 6).map (fun x => (x, [])), [⟨0, 1, [("weight", 1/2)]⟩, ⟨0, 3, [("weight", 1/2)]⟩], none⟩

theorem fungal : Fungal 6 (Torus 3 2) g :=
  ⟨⟨by decide, by decide⟩, rfl, rfl, ⟨by decide, by unfold SameLink; decide⟩, by unfold Weighted; decide +kernel⟩

/-- It arises from the initial network when node 0 has resource: links `{0, 1}` and `{0, 3}` are taken, `{0, 2}` is not. -/
example : (match fungalTopology ⟨fun _ => .ok (), id⟩ ⟨fun _ => .ok (), id⟩ (fun _ => links) rnd
      ⟨Net.ofSize 6, [(0, 4), (1, 0), (2, 0), (3, 0), (4, 0), (5, 0)], 1⟩ 0 with
    | .ok (o, u) => decide (o.value = some (ofMG g) ∧ u = 3)
    | .error _ => false) = true := by decide +kernel

/-- One step from there: node 0 still sends what it keeps, so the total grows by more than what is picked up. -/
example : total 6 (Spec.next (1/2) (fun x => if x = 0 then 1 else 0) (arcs g) (fun x => if x = 0 then 4 else 0)) = 17/2 := by
  decide +kernel

end ExFungal

end Verif
