import Verif.Spec.TorusCA
import Verif.Props.EndToEnd
/-! # Runs of automata on the two-dimensional torus of radius 1, for any rule on the cell and its neighbours -/

namespace Verif
open Spec
section
variable {V I σ κ : Type} [DecidableEq V] [DecidableEq κ]

/-- `D` lists the offsets of `P` other than the zero offset, all of radius 1. -/
structure Directions (P : Int → Int → Prop) (D : List (Int × Int)) : Prop where
  zero : P 0 0
  mem : ∀ dx dy, P dx dy ↔ (dx, dy) = (0, 0) ∨ (dx, dy) ∈ D
  nodup : ((0, 0) :: D).Nodup
  small : ∀ d ∈ D, d.1.natAbs ≤ 1 ∧ d.2.natAbs ≤ 1
  symm : ∀ dx dy, P dx dy → P (-dx) (-dy)

theorem moore_directions : Directions (MooreOffset 1) moore8 := by
  refine ⟨by simp [MooreOffset], ?_, by decide, by decide, ?_⟩
  · intro dx dy
    simp only [MooreOffset, moore8, List.mem_cons, Prod.mk.injEq, List.not_mem_nil, or_false]
    omega
  · intro dx dy h
    simp only [MooreOffset] at h ⊢
    omega

theorem vonNeumann_directions : Directions (VonNeumannOffset 1) vonNeumann4 := by
  refine ⟨by simp [VonNeumannOffset], ?_, by decide, by decide, ?_⟩
  · intro dx dy
    simp only [VonNeumannOffset, vonNeumann4, List.mem_cons, Prod.mk.injEq, List.not_mem_nil, or_false]
    omega
  · intro dx dy h
    simp only [VonNeumannOffset] at h ⊢
    omega

/-- The label of the cell at the offset `d` from `(a, b)`. -/
def offsetLabel (rows cols a b : Nat) (d : Int × Int) : Nat :=
  (((a : Int) + d.1) % (rows : Int)).toNat * cols + (((b : Int) + d.2) % (cols : Int)).toNat

theorem emod_toNat_lt (k : Int) {n : Nat} (hn : 0 < n) : (k % (n : Int)).toNat < n := by
  have h1 := Int.emod_nonneg k (by omega : (n : Int) ≠ 0)
  have h2 := Int.emod_lt_of_pos k (by omega : (0 : Int) < n)
  omega

theorem emod_offset_inj {n : Nat} (hn : 3 ≤ n) {a d d' : Int} (h1 : d.natAbs ≤ 1) (h2 : d'.natAbs ≤ 1)
    (h : ((a + d) % (n : Int)).toNat = ((a + d') % (n : Int)).toNat) : d = d' := by
  have e1 := Int.emod_nonneg (a + d) (by omega : (n : Int) ≠ 0)
  have e2 := Int.emod_nonneg (a + d') (by omega : (n : Int) ≠ 0)
  have h' : (a + d) % (n : Int) = (a + d') % (n : Int) := by omega
  have hdvd := Int.emod_eq_emod_iff_emod_sub_eq_zero.1 h'
  have : a + d - (a + d') = d - d' := by omega
  rw [this] at hdvd
  obtain ⟨k, hk⟩ := Int.dvd_of_emod_eq_zero hdvd
  have : k = 0 := by
    rcases Int.lt_trichotomy k 0 with hk0 | hk0 | hk0
    · have : (n : Int) * k ≤ (n : Int) * (-1) := Int.mul_le_mul_of_nonneg_left (by omega) (by omega)
      omega
    · exact hk0
    · have : (n : Int) * 1 ≤ (n : Int) * k := Int.mul_le_mul_of_nonneg_left (by omega) (by omega)
      omega
  rw [this] at hk
  omega

theorem natCast_emod_self {a n : Nat} (h : a < n) : ((a : Int) + 0) % (n : Int) = (a : Int) := by
  rw [Int.add_zero, Int.emod_eq_of_lt (by omega) (by omega)]

/-- The neighbours of a cell, for any list with the right members. -/
theorem torus_perm {M : List (List Int)} {rows cols : Nat} (hr : 3 ≤ rows) (hc : 3 ≤ cols) {P : Int → Int → Prop}
    {D : List (Int × Int)} (hD : Directions P D) (hM : GridMatrix rows cols (fun _ => P) M) {a b : Nat} (ha : a < rows)
    (hb : b < cols) {l : List Nat} (hl : l.Nodup) (hm : ∀ y, y ∈ l ↔ ∃ v, v ≠ 0 ∧ entry M (a * cols + b) y = some v) :
    l.Perm (((0, 0) :: D).map (offsetLabel rows cols a b)) := by
  have hsm : ∀ d ∈ (0, 0) :: D, d.1.natAbs ≤ 1 ∧ d.2.natAbs ≤ 1 := by
    intro d hd
    rcases List.mem_cons.1 hd with rfl | hd
    · simp
    · exact hD.small d hd
  apply (List.perm_ext_iff_of_nodup hl ?_).2
  · intro y
    rw [hm]
    constructor
    · rintro ⟨v, hv, he⟩
      have hy : y < rows * cols := by
        unfold entry at he
        cases hrow : M[a * cols + b]? with
        | none => rw [hrow] at he; cases he
        | some row =>
          rw [hrow] at he
          have := (List.getElem?_eq_some_iff.1 he).1
          rw [hM.2.1 row (List.mem_of_getElem? hrow)] at this
          exact this
      obtain ⟨h1, h2, h3⟩ := split_label hy
      have g := hM.2.2 a b (y / cols) (y % cols) ha hb h1 h2
      rw [h3] at g
      have ht : TorusReach rows cols P (a, b) (y / cols, y % cols) := by
        apply Classical.byContradiction
        intro hn
        have := g.2 hn
        unfold entry at he
        rw [this] at he
        exact hv (Option.some.inj he).symm
      obtain ⟨dx, dy, hp, k1, k2⟩ := ht
      refine List.mem_map.2 ⟨(dx, dy), ?_, ?_⟩
      · rcases (hD.mem dx dy).1 hp with h | h
        · rw [h]; simp
        · exact List.mem_cons_of_mem _ h
      · unfold offsetLabel
        simp only at k1 k2
        rw [k1, k2]
        exact h3
    · intro hy
      obtain ⟨d, hd, rfl⟩ := List.mem_map.1 hy
      have hp : P d.1 d.2 := (hD.mem d.1 d.2).2 (List.mem_cons.1 hd)
      have l1 := emod_toNat_lt ((a : Int) + d.1) (by omega : 0 < rows)
      have l2 := emod_toNat_lt ((b : Int) + d.2) (by omega : 0 < cols)
      refine ⟨1, by decide, (hM.2.2 a b _ _ ha hb l1 l2).1 ⟨d.1, d.2, hp, ?_, ?_⟩⟩
      · exact (Int.toNat_of_nonneg (Int.emod_nonneg _ (by omega))).symm
      · exact (Int.toNat_of_nonneg (Int.emod_nonneg _ (by omega))).symm
  · rw [List.Nodup, List.pairwise_map]
    refine List.Pairwise.imp_of_mem ?_ hD.nodup
    intro p q hp hq hne heq
    obtain ⟨k1, k2⟩ := label_inj (emod_toNat_lt _ (by omega)) (emod_toNat_lt _ (by omega)) heq
    exact hne (Prod.ext (emod_offset_inj hr (hsm p hp).1 (hsm q hq).1 k1) (emod_offset_inj hc (hsm p hp).2 (hsm q hq).2 k2))

/-- The run of an automaton whose rule is defined for `Good` states of the cell only. -/
theorem torus_run_good {rows cols : Nat} (hrw : 3 ≤ rows) (hcl : 3 ≤ cols) {P : Int → Int → Prop} {D : List (Int × Int)}
    (hD : Directions P D) {nbh : String} {M : List (List Int)} (hMe : caAdjacency2d rows cols 1 nbh "periodic" = .ok M)
    (hM : GridMatrix rows cols (fun _ => P) M)
    {G : NodeCtx Nat Int V I → Except Err V} {F : V → List V → V}
    {Good : V → Prop} (hgood : ∀ v l, Good v → Good (F v l)) (hF : ∀ v l l', l.Perm l' → F v l = F v l')
    (hG : ∀ (c : NodeCtx Nat Int V I) (g : Nat → V) ys, Good c.current → c.neighbours.Perm (c.node :: ys) → c.node ∉ ys → c.neighbourActs = c.neighbours.map g →
      c.current = g c.node → G c = .ok (F c.current (ys.map g)))
    (cfg : Config Nat Int V I σ κ) (T : Nat) (hT : 1 ≤ T) (h : cfg.Ordinary G T) (N : Net Nat Int)
    (hN : cellularAutomaton2d rows cols 1 nbh true = .ok N) (r : Nat) (w : World Nat Int σ)
    (hr : w.heap[r]? = some N) (init : Option (Conds Nat V)) (s : Nat → Nat → V)
    (hs : ∀ a b, a < rows → b < cols → Good (s a b)) (hlen : (initDict cfg init).length = rows * cols)
    (h0 : ∀ a b, a < rows → b < cols → (initDict cfg init).get? (a * cols + b) = some (s a b))
    (fuel : Nat) (hf : T ≤ fuel) :
    ∃ res, evolve fuel cfg init r w = .ok res ∧ ShowsRun cfg res T (rows * cols)
      (fun t x => torusCA rows cols D F s t (x / cols) (x % cols)) := by
  have h9 : 9 ≤ rows * cols := Nat.mul_le_mul hrw hcl
  have hgd : ∀ t x : Nat, x < rows * cols → Good (torusCA rows cols D F s t (x / cols) (x % cols)) := by
    intro t
    induction t with
    | zero =>
      intro x hx
      obtain ⟨ha, hb, _⟩ := split_label hx
      exact hs _ _ ha hb
    | succ t ih => intro x hx; exact hgood _ _ (ih x hx)
  have hsym : Symmetric M := grid_symmetric (P := fun _ => P) ⟨hM.1, hM.2.1⟩ hM.2.2
    (fun p q dx dy _ _ hp _ => hD.symm dx dy hp)
  have hself : ∀ a b : Nat, a < rows → b < cols → offsetLabel rows cols a b (0, 0) = a * cols + b := by
    intro a b ha hb
    simp only [offsetLabel, natCast_emod_self ha, natCast_emod_self hb, Int.toNat_natCast]
  have hd : ∀ x, x < rows * cols → entry M x x = some 1 := by
    intro x hx
    obtain ⟨ha, hb, hab⟩ := split_label hx
    have := (hM.2.2 _ _ _ _ ha hb ha hb).1 ⟨0, 0, hD.zero, natCast_emod_self ha, natCast_emod_self hb⟩
    rw [hab] at this
    exact this
  obtain ⟨N', rs, e1, e2, e3, e4⟩ := ordered_symmetric ⟨hM.1, hM.2.1⟩ hd hsym
  have hNN : N' = N := by
    unfold cellularAutomaton2d at hN
    rw [hMe] at hN
    simp only [if_true] at hN
    rw [e1] at hN
    exact Except.ok.inj hN
  subst hNN
  have hget : ∀ x, x < rows * cols → rs.get? x = some ((rs.get? x).getD []) ∧
      ((rs.get? x).getD [])[((rs.get? x).getD []).length / 2]? = some x ∧ ((rs.get? x).getD []).Perm
        (x :: D.map (offsetLabel rows cols (x / cols) (x % cols))) ∧ ((rs.get? x).getD []).Nodup := by
    intro x hx
    obtain ⟨l, l1, l2, l3, l4⟩ := e4 x hx
    obtain ⟨ha, hb, hab⟩ := split_label hx
    have hp := torus_perm hrw hcl hD hM ha hb l2 (by rw [hab]; exact l4)
    rw [List.map_cons, hself _ _ ha hb, hab] at hp
    rw [l1]
    exact ⟨rfl, l3, hp, l2⟩
  have hmap : ∀ (t x : Nat), (D.map (offsetLabel rows cols (x / cols) (x % cols))).map (fun y => torusCA rows cols D F s t (y / cols) (y % cols)) =
      torusNbrs rows cols D (torusCA rows cols D F s t) (x / cols) (x % cols) := by
    intro t x
    rw [List.map_map, torusNbrs]
    apply List.map_congr_left
    intro d _
    have l2 := emod_toNat_lt (((x % cols : Nat) : Int) + d.2) (by omega : 0 < cols)
    simp only [Function.comp, offsetLabel, torusAt]
    have q1 := fun (p q : Nat) (hq : q < cols) => (show (p * cols + q) / cols = p by
      rw [Nat.mul_comm, Nat.mul_add_div (by omega), Nat.div_eq_of_lt hq, Nat.add_zero])
    have q2 := fun (p q : Nat) (hq : q < cols) => (show (p * cols + q) % cols = q by
      rw [Nat.mul_comm, Nat.mul_add_mod, Nat.mod_eq_of_lt hq])
    rw [q1 _ _ l2, q2 _ _ l2]
  have hval : ∀ (t x : Nat), x < rows * cols →
      (((rs.get? x).getD []).map (fun y => torusCA rows cols D F s t (y / cols) (y % cols))).Perm
        (torusCA rows cols D F s t (x / cols) (x % cols) ::
          torusNbrs rows cols D (torusCA rows cols D F s t) (x / cols) (x % cols)) := by
    intro t x hx
    refine ((hget x hx).2.2.1.map _).trans ?_
    rw [List.map_cons, hmap]
  refine ca_run h hT (by omega) e3 (nb := fun x => (rs.get? x).getD []) ?_ hlen ?_ ?_ ?_ hr hf
  · intro x hx
    obtain ⟨l1, l2, l3, _⟩ := hget x hx
    refine ⟨by simp only [specNbrs, e2]; exact l1, ?_⟩
    intro y hy
    rcases List.mem_cons.1 (l3.mem_iff.1 hy) with rfl | hy
    · exact hx
    · obtain ⟨d, _, rfl⟩ := List.mem_map.1 hy
      exact label_lt (emod_toNat_lt _ (by omega)) (emod_toNat_lt _ (by omega))
  · intro x hx
    obtain ⟨ha, hb, hab⟩ := split_label hx
    have := h0 _ _ ha hb
    rw [hab] at this
    exact this
  · intro t ht x hx
    have hg := hget x hx
    have hni : x ∉ D.map (offsetLabel rows cols (x / cols) (x % cols)) := (List.nodup_cons.1 (hg.2.2.1.nodup_iff.1 hg.2.2.2)).1
    have := hG (plainCtx cfg N' (fun x => (rs.get? x).getD []) (initDict cfg init) (fun t x => torusCA rows cols D F s t (x / cols) (x % cols)) t x)
      (fun y => torusCA rows cols D F s t (y / cols) (y % cols)) _ (hgd t x hx) hg.2.2.1 hni rfl rfl
    rw [hmap] at this
    exact this
  · intro _
    refine ⟨by rw [e2]; rfl, ?_⟩
    intro t t' x x' ht ht' hx hx' heq
    have hcen : torusCA rows cols D F s t (x / cols) (x % cols) = torusCA rows cols D F s t' (x' / cols) (x' % cols) := by
      have hlen' : ((rs.get? x).getD []).length = ((rs.get? x').getD []).length := by
        have := congrArg List.length heq
        simpa using this
      have := congrArg (fun l : List V => l[((rs.get? x).getD []).length / 2]?) heq
      simp only [List.getElem?_map] at this
      rw [(hget x hx).2.1, hlen', (hget x' hx').2.1] at this
      simpa using this
    have p1 := hval t x hx
    have p2 := hval t' x' hx'
    rw [← heq] at p2
    have p3 := p1.symm.trans p2
    rw [hcen] at p3
    show F _ _ = F _ _
    rw [hcen]
    exact hF _ _ _ p3.cons_inv

/-- **Runs on the torus.**  `G` is a rule that gives `F` of the cell's value and the values of the other cells of the neighbourhood, whatever
their order; it may look at the labels. -/
theorem torus_run_at {rows cols : Nat} (hrw : 3 ≤ rows) (hcl : 3 ≤ cols) {P : Int → Int → Prop} {D : List (Int × Int)}
    (hD : Directions P D) {nbh : String} {M : List (List Int)} (hMe : caAdjacency2d rows cols 1 nbh "periodic" = .ok M)
    (hM : GridMatrix rows cols (fun _ => P) M)
    {G : NodeCtx Nat Int V I → Except Err V} {F : V → List V → V}
    (hF : ∀ v l l', l.Perm l' → F v l = F v l')
    (hG : ∀ (c : NodeCtx Nat Int V I) (g : Nat → V) ys, c.neighbours.Perm (c.node :: ys) → c.node ∉ ys → c.neighbourActs = c.neighbours.map g →
      c.current = g c.node → G c = .ok (F c.current (ys.map g)))
    (cfg : Config Nat Int V I σ κ) (T : Nat) (hT : 1 ≤ T) (h : cfg.Ordinary G T) (N : Net Nat Int)
    (hN : cellularAutomaton2d rows cols 1 nbh true = .ok N) (r : Nat) (w : World Nat Int σ)
    (hr : w.heap[r]? = some N) (init : Option (Conds Nat V)) (s : Nat → Nat → V)
    (hlen : (initDict cfg init).length = rows * cols)
    (h0 : ∀ a b, a < rows → b < cols → (initDict cfg init).get? (a * cols + b) = some (s a b))
    (fuel : Nat) (hf : T ≤ fuel) :
    ∃ res, evolve fuel cfg init r w = .ok res ∧ ShowsRun cfg res T (rows * cols)
      (fun t x => torusCA rows cols D F s t (x / cols) (x % cols)) := by
  exact torus_run_good hrw hcl hD hMe hM (Good := fun _ => True) (fun _ _ _ => trivial) hF (fun c g ys _ => hG c g ys) cfg T hT h N hN r w hr init s
    (fun _ _ _ _ => trivial) hlen h0 fuel hf

/-- `torus_run_at` for a rule that looks at the activities only. -/
theorem torus_run {rows cols : Nat} (hrw : 3 ≤ rows) (hcl : 3 ≤ cols) {P : Int → Int → Prop} {D : List (Int × Int)}
    (hD : Directions P D) {nbh : String} {M : List (List Int)} (hMe : caAdjacency2d rows cols 1 nbh "periodic" = .ok M)
    (hM : GridMatrix rows cols (fun _ => P) M)
    {G : NodeCtx Nat Int V I → Except Err V} {F : V → List V → V}
    (hG : ∀ (c : NodeCtx Nat Int V I) l, c.neighbourActs.Perm (c.current :: l) → G c = .ok (F c.current l))
    (cfg : Config Nat Int V I σ κ) (T : Nat) (hT : 1 ≤ T) (h : cfg.Ordinary G T) (N : Net Nat Int)
    (hN : cellularAutomaton2d rows cols 1 nbh true = .ok N) (r : Nat) (w : World Nat Int σ)
    (hr : w.heap[r]? = some N) (init : Option (Conds Nat V)) (s : Nat → Nat → V)
    (hlen : (initDict cfg init).length = rows * cols)
    (h0 : ∀ a b, a < rows → b < cols → (initDict cfg init).get? (a * cols + b) = some (s a b))
    (fuel : Nat) (hf : T ≤ fuel) :
    ∃ res, evolve fuel cfg init r w = .ok res ∧ ShowsRun cfg res T (rows * cols)
      (fun t x => torusCA rows cols D F s t (x / cols) (x % cols)) := by
  refine torus_run_at hrw hcl hD hMe hM ?_ ?_ cfg T hT h N hN r w hr init s hlen h0 fuel hf
  · intro v l l' hl
    have q1 := hG ⟨0, 0, [], [], v :: l, [], v, none, none⟩ l (List.Perm.refl _)
    have q2 := hG ⟨0, 0, [], [], v :: l, [], v, none, none⟩ l' (hl.cons v)
    rw [q1] at q2
    exact Except.ok.inj q2
  · intro c g ys h1 _ h3 h4
    refine hG c _ ?_
    rw [h3, h4]
    exact h1.map g

end
end Verif
